import Verif.Gnn.TrainModel

/-!
# Specification for C139–C142
-/

namespace ModSSC.Gnn.Spec
open ModSSC ModSSC.Gnn

variable {K : Type} [Field K] [LinearOrder K]

/-- The training state after `n` epochs. -/
def afterEpochs {T : Type} (step : T → T) (t0 : T) : Nat → T
  | 0 => t0
  | n + 1 => step (afterEpochs step t0 n)

/-- The parameters at the end of epoch `e` (counted from 0). -/
def paramsAt {T S : Type} (step : T → T) (params : T → S) (t0 : T) (e : Nat) : S := params (afterEpochs step t0 (e + 1))

/-- The rows a mask selects agree. -/
def SameOn (m : List Bool) (y y' : List Int) : Prop := ∀ i : Nat, m[i]? = some true → y[i]? = y'[i]?

/-- In a history, no object of a dataset that was prepared is written to afterwards. -/
def NoLateWrites {V Opt : Type} : List (PrepOp V Opt) → Prop
  | [] => True
  | .write _ _ :: ops => NoLateWrites ops
  | .prep ids _ :: ops => (∀ id v, PrepOp.write id v ∈ ops → id ∉ ids.all) ∧ NoLateWrites ops

/-- What the calls of a history give when nothing is cached. -/
def fresh {V Opt P : Type} (prepare : List V → Opt → Except PyErr P) : (Nat → V) → List (PrepOp V Opt) → List (Except PyErr P)
  | _, [] => []
  | c, .write id v :: ops => fresh prepare (fun i => if i = id then v else c i) ops
  | c, .prep ids opt :: ops => prepare (ids.all.map c) opt :: fresh prepare c ops

end ModSSC.Gnn.Spec
