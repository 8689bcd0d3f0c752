import Verif.Transductive.TorchModel
import Verif.ExceptLemmas
import Mathlib.Tactic.Ring

/-!
# C193 — Label propagation and spreading give the same result with every backend
-/

namespace ModSSC.Transductive.Torch
open ModSSC ModSSC.Transductive

variable {K : Type} [Field K] [LinearOrder K]

namespace Spec

/-- Every edge joins two nodes. -/
def EdgesInside (n : Nat) (ei : List (Int × Int)) : Prop := ∀ e ∈ ei, 0 ≤ e.1 ∧ e.1 < n ∧ 0 ≤ e.2 ∧ e.2 < n

/-- If nodes are marked as labeled, one of them has a label. -/
def SomeLabel (y : List Int) (mask : List Bool) : Prop :=
  (∃ i : Nat, mask[i]? = some true) → ∃ (i : Nat) (c : Int), mask[i]? = some true ∧ y[i]? = some c ∧ 0 ≤ c

end Spec

open Spec

theorem pos_mapM {n : Nat} (g : Int × Int → Int) : ∀ ei : List (Int × Int), (∀ e ∈ ei, 0 ≤ g e ∧ g e < n) →
    (ei.mapM fun e => pos n (g e)) = .ok (ei.map fun e => (g e).toNat)
  | [], _ => rfl
  | e :: ei, h => by
    rw [List.mapM_cons, pos_mapM g ei fun e' he => h e' (List.mem_cons_of_mem _ he)]
    unfold pos
    rw [if_pos (h e List.mem_cons_self)]
    rfl

theorem addPos_mapM {n : Nat} (g : Int × Int → Int) : ∀ ei : List (Int × Int), (∀ e ∈ ei, 0 ≤ g e ∧ g e < n) →
    (ei.mapM fun e => addPos n (g e)) = .ok (ei.map fun e => (g e).toNat)
  | [], _ => rfl
  | e :: ei, h => by
    rw [List.mapM_cons, addPos_mapM g ei fun e' he => h e' (List.mem_cons_of_mem _ he)]
    unfold addPos
    rw [if_pos (h e List.mem_cons_self)]
    rfl

/-- The edges with natural node numbers. -/
def toEdges (ei : List (Int × Int)) (w : List K) : List (WEdge K) := (ei.zip w).map fun p => ⟨p.1.1.toNat, p.1.2.toNat, p.2⟩

theorem zip_dst : ∀ (ei : List (Int × Int)) (w : List K),
    (ei.map fun e => e.2.toNat).zip w = (toEdges ei w).map fun e => (e.dst, e.w)
  | [], w => rfl
  | e :: ei, [] => rfl
  | e :: ei, x :: w => by
    rw [List.map_cons, List.zip_cons_cons, zip_dst ei w]
    rfl

theorem zip_all : ∀ (ei : List (Int × Int)) (w : List K),
    (ei.map fun e => e.2.toNat).zip (w.zip (ei.map fun e => e.1.toNat)) = (toEdges ei w).map fun e => (e.dst, (e.w, e.src))
  | [], w => rfl
  | e :: ei, [] => rfl
  | e :: ei, x :: w => by
    rw [List.map_cons, List.map_cons, List.zip_cons_cons, List.zip_cons_cons, zip_all ei w]
    rfl

theorem degrees_eq {n : Nat} {ei : List (Int × Int)} (h : EdgesInside n ei) (w : List K) :
    degrees n ei w = .ok (degree (toEdges ei w)) := by
  unfold degrees
  rw [addPos_mapM (fun e => e.2) ei fun e he => ⟨(h e he).2.2.1, (h e he).2.2.2⟩]
  show Except.ok _ = _
  congr 1
  funext i
  unfold degree
  rw [zip_dst, List.filter_map, List.map_map]
  rfl

theorem spmm_eq {n : Nat} {ei : List (Int × Int)} (h : EdgesInside n ei) (d : Nat) (w : List K) (X : Mat K) :
    spmm n d ei w X = .ok (Transductive.spmm n d (toEdges ei w) X) := by
  unfold spmm
  rw [addPos_mapM (fun e => e.2) ei fun e he => ⟨(h e he).2.2.1, (h e he).2.2.2⟩,
    pos_mapM (fun e => e.1) ei fun e he => ⟨(h e he).1, (h e he).2.1⟩]
  show Except.ok _ = _
  congr 1
  unfold Transductive.spmm
  congr 1
  funext i c
  rw [zip_all, List.filter_map, List.map_map]
  rfl

theorem edges_rw (f : Nat → K) : ∀ (ei : List (Int × Int)) (w : List K),
    toEdges ei (List.zipWith (fun d x => x / f d) (ei.map fun e => e.2.toNat) w) =
      (toEdges ei w).map fun e => ⟨e.src, e.dst, e.w / f e.dst⟩
  | [], w => rfl
  | e :: ei, [] => rfl
  | e :: ei, x :: w => by
    have := edges_rw f ei w
    unfold toEdges at this ⊢
    rw [List.map_cons, List.zipWith_cons_cons, List.zip_cons_cons, List.map_cons, this]
    rfl

theorem edges_sym (f : Nat → Nat → K) : ∀ (ei : List (Int × Int)) (w : List K),
    toEdges ei (List.zipWith (fun t x => x / f t.1 t.2) ((ei.map fun e => e.1.toNat).zip (ei.map fun e => e.2.toNat)) w) =
      (toEdges ei w).map fun e => ⟨e.src, e.dst, e.w / f e.src e.dst⟩
  | [], w => rfl
  | e :: ei, [] => rfl
  | e :: ei, x :: w => by
    have := edges_sym f ei w
    unfold toEdges at this ⊢
    rw [List.map_cons, List.map_cons, List.zip_cons_cons, List.zipWith_cons_cons, List.zip_cons_cons, List.map_cons, this]
    rfl

theorem normalize_eq (sqrt : K → K) (eps : K) (mode : String) {n : Nat} {ei : List (Int × Int)} (h : EdgesInside n ei) (w : List K) :
    (normalizeWeights sqrt eps mode n ei w).map (toEdges ei) = normalizeEdges sqrt eps mode (toEdges ei w) := by
  unfold normalizeWeights normalizeEdges
  rw [degrees_eq h w, pos_mapM (fun e => e.1) ei fun e he => ⟨(h e he).1, (h e he).2.1⟩,
    pos_mapM (fun e => e.2) ei fun e he => ⟨(h e he).2.2.1, (h e he).2.2.2⟩]
  by_cases h1 : mode = "rw"
  · rw [if_pos h1]
    show Except.map _ (if mode = "rw" then _ else _) = _
    rw [if_pos h1]
    show Except.ok _ = _
    rw [edges_rw fun d => max (degree (toEdges ei w) d) eps]
  · rw [if_neg h1]
    by_cases h2 : mode = "sym"
    · rw [if_pos h2]
      show Except.map _ (if mode = "rw" then _ else if mode = "sym" then _ else _) = _
      rw [if_neg h1, if_pos h2]
      show Except.ok _ = _
      rw [edges_sym fun s d => sqrt (max (degree (toEdges ei w) s) eps * max (degree (toEdges ei w) d) eps)]
    · rw [if_neg h2]
      show Except.map _ (if mode = "rw" then _ else if mode = "sym" then _ else _) = _
      rw [if_neg h1, if_neg h2]
      rfl

theorem diffuse_eq {stepT : Mat K → Except PyErr (Mat K)} {step : Mat K → Mat K} {distT : Mat K → Mat K → Except PyErr K}
    {dist : Mat K → Mat K → K} (hs : ∀ F, stepT F = .ok (step F)) (hd : ∀ A B, distT A B = .ok (dist A B)) (tol : K) (maxIter : Int) :
    ∀ (fuel it : Nat) (F : Mat K) (res : Option K),
      diffuse stepT distT tol maxIter fuel it F res = .ok (Transductive.diffuse step dist tol maxIter fuel it F res)
  | 0, _, _, _ => rfl
  | fuel + 1, it, F, _ => by
    unfold diffuse Transductive.diffuse
    rw [hs]
    show (distT (step F) F >>= _) = _
    rw [hd]
    show (if dist (step F) F ≤ tol then _ else _) = _
    dsimp only
    split
    · rfl
    · exact diffuse_eq hs hd tol maxIter fuel (it + 1) _ _

theorem classes_eq {y : List Int} {mask : List Bool} (h : SomeLabel y mask) (hl : mask.length = y.length) :
    numClasses y mask = Transductive.numClasses y mask := by
  unfold numClasses Transductive.numClasses
  dsimp only
  by_cases hm : mask.any id = true
  · rw [if_pos hm, if_pos hm]
    obtain ⟨b, hb, hbt⟩ := List.any_eq_true.mp hm
    obtain ⟨i, hi⟩ := List.mem_iff_getElem?.mp hb
    obtain ⟨j, c, h1, h2, h3⟩ := h ⟨i, by rw [hi]; exact congrArg some hbt⟩
    have : labeledClasses y mask ≠ [] := by
      intro hc
      unfold labeledClasses at hc
      rw [List.map_eq_nil_iff, List.filter_eq_nil_iff] at hc
      refine hc (c, true) ?_ (by simpa using h3)
      rw [List.mem_iff_getElem?]
      exact ⟨j, by rw [List.getElem?_zip_eq_some]; exact ⟨h2, h1⟩⟩
    rw [if_pos this]
  · rw [if_neg hm, if_neg hm]

theorem validate_eq {n : Nat} (hn : 0 < n) {ei : List (Int × Int)} (h : EdgesInside n ei) (ew : Option (List K)) :
    validateGraph n ei ew = if (ew.getD (List.replicate ei.length 1)).length ≠ ei.length then .error .valueError
      else .ok (toEdges ei (ew.getD (List.replicate ei.length 1))) := by
  unfold validateGraph
  dsimp only
  split
  · rfl
  · rw [if_neg (by omega), if_neg, if_neg]
    · rfl
    · intro hc
      obtain ⟨e, he, hd⟩ := List.any_eq_true.mp hc
      have := h e he
      have := of_decide_eq_true hd
      omega
    · intro hc
      obtain ⟨e, he, hd⟩ := List.any_eq_true.mp hc
      have := h e he
      have := of_decide_eq_true hd
      omega

theorem run_eq (sqrt : K → K) (eps : K) (n : Nat) (hn : 0 < n) (ei : List (Int × Int)) (h : EdgesInside n ei) (ew : Option (List K))
    (y : List Int) (mask : List Bool) (hl : SomeLabel y mask) (spec : PropSpec K)
    (stepT : Nat → Nat → List K → Mat K → Mat K → Except PyErr (Mat K)) (step : Nat → Nat → List (WEdge K) → Mat K → Mat K → Mat K)
    (hs : ∀ k w Y F, stepT n k w Y F = .ok (step n k (toEdges ei w) Y F)) :
    run sqrt eps n ei ew y mask spec stepT = (validateGraph n ei ew >>= fun es =>
      if (y.length : Int) ≠ n then .error .valueError
      else if (mask.length : Int) ≠ n then .error .valueError
      else do
        let k := Transductive.numClasses y mask
        let Y ← seedMatrix y mask k
        let es' ← normalizeEdges sqrt eps spec.norm es
        .ok (Transductive.diffuse (step y.length k es' Y) (maxDiff y.length k) spec.tol spec.maxIter spec.maxIter.toNat 0 Y none)) := by
  rw [validate_eq hn h]
  unfold run
  dsimp only
  by_cases hw : (ew.getD (List.replicate ei.length 1)).length ≠ ei.length
  · rw [if_pos hw, if_pos hw]
    rfl
  · rw [if_neg hw, if_neg hw]
    show _ = if (y.length : Int) ≠ n then _ else _
    by_cases hy : (y.length : Int) ≠ n
    · rw [if_pos (.inl hy), if_pos hy]
    · rw [if_neg hy]
      by_cases hm : (mask.length : Int) ≠ n
      · rw [if_pos (.inr hm), if_pos hm]
      · rw [if_neg (by rintro (h | h); exacts [hy h, hm h]), if_neg hm]
        have hyn : y.length = n := by omega
        rw [hyn, classes_eq hl (by omega)]
        cases hY : seedMatrix (K := K) y mask (Transductive.numClasses y mask) with
        | error e => rfl
        | ok Y =>
          show (normalizeWeights sqrt eps spec.norm n ei _ >>= _) = (normalizeEdges sqrt eps spec.norm _ >>= _)
          rw [← normalize_eq sqrt eps spec.norm h]
          cases normalizeWeights sqrt eps spec.norm n ei (ew.getD (List.replicate ei.length 1)) with
          | error e => rfl
          | ok wn =>
            show diffuse _ _ _ _ _ _ _ _ = Except.ok _
            refine diffuse_eq (fun F => hs _ _ _ F) (fun A B => ?_) _ _ _ _ _ _
            unfold residual
            rw [if_neg]
            have : 1 ≤ Transductive.numClasses y mask := le_max_left _ _
            omega

/-- **C193 (label propagation).**  For a graph with nodes whose edges join nodes, and if one of the nodes marked as labeled has a label, torch
gives exactly what numpy gives: the same scores, number of iterations and residual, or the same refusal. -/
theorem C193_propagation_partial (sqrt : K → K) (eps : K) (n : Nat) (hn : 0 < n) (ei : List (Int × Int)) (h : EdgesInside n ei)
    (ew : Option (List K)) (y : List Int) (mask : List Bool) (hl : SomeLabel y mask) (spec : PropSpec K) :
    labelPropagation sqrt eps n ei ew y mask spec = Transductive.labelPropagation sqrt eps n ei ew y mask spec := by
  refine run_eq sqrt eps n hn ei h ew y mask hl spec _ (fun n k es Y => Transductive.lpStep n k es mask Y spec.normalizeRows) ?_
  intro k w Y F
  unfold lpStep
  rw [spmm_eq h]
  rfl

/-- **C193 (label spreading).**  The same for label spreading. -/
theorem C193_spreading_partial (sqrt : K → K) (eps : K) (n : Nat) (hn : 0 < n) (ei : List (Int × Int)) (h : EdgesInside n ei)
    (ew : Option (List K)) (y : List Int) (mask : List Bool) (hl : SomeLabel y mask) (alpha : K) (spec : PropSpec K) :
    labelSpreading sqrt eps n ei ew y mask alpha spec = Transductive.labelSpreading sqrt eps n ei ew y mask alpha spec := by
  unfold labelSpreading Transductive.labelSpreading
  by_cases ha : 0 ≤ alpha ∧ alpha < 1
  · rw [if_neg (not_not.mpr ha)]
    rw [run_eq sqrt eps n hn ei h ew y mask hl spec _ (fun n k es Y => Transductive.lsStep n k es alpha Y spec.normalizeRows) ?_]
    · congr 1
      funext es
      rw [if_neg (c := ¬ (0 ≤ alpha ∧ alpha < 1)) (not_not.mpr ha)]
    · intro k w Y F
      unfold lsStep
      rw [spmm_eq h]
      rfl
  · rw [if_pos ha, validate_eq hn h]
    by_cases hw : (ew.getD (List.replicate ei.length 1)).length ≠ ei.length
    · rw [if_pos hw]
      rfl
    · rw [if_neg hw]
      show _ = if (y.length : Int) ≠ n then _ else if (mask.length : Int) ≠ n then _ else if ¬ (0 ≤ alpha ∧ alpha < 1) then _ else _
      rw [if_pos (c := ¬ (0 ≤ alpha ∧ alpha < 1)) ha]
      split
      · rfl
      · split <;> rfl

theorem dispatch_eq {R : Type} {torch : Bool} {b : String} (hb : b = "numpy" ∨ (b = "torch" ∧ torch = true) ∨ b = "auto")
    {a c : Except PyErr R} (h : c = a) : dispatch torch b a c = a := by
  subst h
  unfold dispatch
  rcases hb with rfl | ⟨rfl, rfl⟩ | rfl
  · simp
  · simp
  · cases torch <;> simp

/-- **C193 (backends).**  Under the same conditions the result does not depend on which backend is asked for, nor on whether torch is
installed, unless it is asked for and missing. -/
theorem C193_backends_partial (torch torch' : Bool) (b b' : String) (hb : b = "numpy" ∨ (b = "torch" ∧ torch = true) ∨ b = "auto")
    (hb' : b' = "numpy" ∨ (b' = "torch" ∧ torch' = true) ∨ b' = "auto") (sqrt : K → K) (eps : K) (n : Nat) (hn : 0 < n)
    (ei : List (Int × Int)) (h : EdgesInside n ei) (ew : Option (List K)) (y : List Int) (mask : List Bool) (hl : SomeLabel y mask) (alpha : K)
    (spec : PropSpec K) :
    dispatch torch b (Transductive.labelPropagation sqrt eps n ei ew y mask spec) (labelPropagation sqrt eps n ei ew y mask spec) =
      dispatch torch' b' (Transductive.labelPropagation sqrt eps n ei ew y mask spec) (labelPropagation sqrt eps n ei ew y mask spec) ∧
    dispatch torch b (Transductive.labelSpreading sqrt eps n ei ew y mask alpha spec) (labelSpreading sqrt eps n ei ew y mask alpha spec) =
      dispatch torch' b' (Transductive.labelSpreading sqrt eps n ei ew y mask alpha spec)
        (labelSpreading sqrt eps n ei ew y mask alpha spec) := by
  have h1 := C193_propagation_partial sqrt eps n hn ei h ew y mask hl spec
  have h2 := C193_spreading_partial sqrt eps n hn ei h ew y mask hl alpha spec
  rw [dispatch_eq hb h1, dispatch_eq hb' h1, dispatch_eq hb h2, dispatch_eq hb' h2]
  exact ⟨rfl, rfl⟩

/-- A call is refused for every other name, and for torch if it is missing. -/
theorem C193_dispatch {R : Type} (torch : Bool) (b : String) (a c : Except PyErr R)
    (h : (b ≠ "numpy" ∧ b ≠ "torch" ∧ b ≠ "auto") ∨ (b = "torch" ∧ torch = false)) : ∃ e, dispatch torch b a c = .error e := by
  unfold dispatch
  rcases h with h | ⟨rfl, rfl⟩
  · exact ⟨_, if_pos h⟩
  · exact ⟨.runtimeError, by simp⟩

theorem edges_inside {d : NodeData K} (h : validateNodeDataset d = .ok ()) : EdgesInside d.y.length (d.edgeIndex.getD []) := by
  unfold validateNodeDataset at h
  split at h
  · cases h
  · split at h
    · cases h
    · obtain ⟨ids, -, h⟩ := ebind_ok.mp h
      split at h
      · cases h
      · obtain ⟨u, h, -⟩ := ebind_ok.mp h
        unfold validEdges at h
        cases he : d.edgeIndex with
        | none => rw [he] at h; cases h
        | some ei =>
          rw [he] at h
          dsimp only at h
          split at h
          · cases h
          · rename_i hc
            intro e hm
            have : ¬ (e.1 < 0 ∨ e.2 < 0 ∨ (d.y.length : Int) ≤ e.1 ∨ (d.y.length : Int) ≤ e.2) := fun hx =>
              hc (List.any_eq_true.mpr ⟨e, hm, decide_eq_true hx⟩)
            omega

theorem fit_eq {R : Type} {f g : Int → List (Int × Int) → Option (List K) → List Int → List Bool → Except PyErr R} {d : NodeData K}
    (h : validateNodeDataset d = .ok () → ∀ mask, Assoc.get d.masks "train_mask" = some mask →
      f d.y.length (d.edgeIndex.getD []) d.edgeWeight (castLabels d.y) mask = g d.y.length (d.edgeIndex.getD []) d.edgeWeight (castLabels d.y) mask) :
    fitWith f d = fitWith g d := by
  unfold fitWith
  cases hv : validateNodeDataset d with
  | error e => rfl
  | ok u =>
    cases hm : Assoc.get d.masks "train_mask" with
    | none => rfl
    | some mask => exact h hv mask hm

/-- **C193 (fit).**  A fit of a dataset with nodes, of which one marked for training has a label if any is marked, gives the same with and
without torch and with and without a device. -/
theorem C193_fit_partial (torch torch' : Bool) (device device' : Option String) (ht : device.isSome = true → torch = true)
    (ht' : device'.isSome = true → torch' = true) (sqrt : K → K) (eps alpha : K) (spec : PropSpec K) (d : NodeData K) (hn : 0 < d.y.length)
    (hl : ∀ mask, Assoc.get d.masks "train_mask" = some mask → SomeLabel (castLabels d.y) mask) :
    fitPropagation torch device sqrt eps spec d = fitPropagation torch' device' sqrt eps spec d ∧
    fitSpreading torch device sqrt eps alpha spec d = fitSpreading torch' device' sqrt eps alpha spec d := by
  have hb : ∀ {t : Bool} {v : Option String}, (v.isSome = true → t = true) →
      (if v.isSome then "torch" else "auto") = "numpy" ∨ ((if v.isSome then "torch" else "auto") = "torch" ∧ t = true) ∨
        (if v.isSome then "torch" else "auto") = "auto" := by
    intro t v h
    cases v with
    | none => exact .inr (.inr rfl)
    | some x => exact .inr (.inl ⟨rfl, h rfl⟩)
  constructor
  · exact fit_eq fun hv mask hm =>
      (C193_backends_partial torch torch' _ _ (hb ht) (hb ht') sqrt eps _ hn _ (edges_inside hv) _ _ mask (hl mask hm) alpha spec).1
  · exact fit_eq fun hv mask hm =>
      (C193_backends_partial torch torch' _ _ (hb ht) (hb ht') sqrt eps _ hn _ (edges_inside hv) _ _ mask (hl mask hm) alpha spec).2

/-- A small dataset: a path of three nodes with the given labels, the first one marked for training. -/
def path (y : List Int) : NodeData Rat :=
  ⟨[3, 1], .labels (.ints y), some [(0, 1), (1, 0), (1, 2), (2, 1)], none, [("train_mask", [true, false, false])]⟩

/-- **C193 (positions).**  torch reads an entry exactly for positions from `-n` to `n - 1`; negative ones count from the end. -/
theorem C193_positions (n : Nat) (i : Int) : ((∃ j, pos n i = .ok j) ↔ -(n : Int) ≤ i ∧ i < n) ∧
    ∀ j, pos n i = .ok j → j < n ∧ (j : Int) = i % n := by
  unfold pos
  by_cases h1 : 0 ≤ i ∧ i < n
  · rw [if_pos h1]
    refine ⟨⟨fun _ => by omega, fun _ => ⟨_, rfl⟩⟩, fun j hj => ?_⟩
    obtain rfl := Except.ok.inj hj
    rw [Int.emod_eq_of_lt h1.1 h1.2]
    omega
  · rw [if_neg h1]
    by_cases h2 : i < 0 ∧ -(n : Int) ≤ i
    · rw [if_pos h2]
      refine ⟨⟨fun _ => by omega, fun _ => ⟨_, rfl⟩⟩, fun j hj => ?_⟩
      obtain rfl := Except.ok.inj hj
      rw [← Int.add_emod_right, Int.emod_eq_of_lt (by omega) (by omega)]
      omega
    · rw [if_neg h2]
      exact ⟨⟨fun ⟨j, hj⟩ => (by cases hj), fun h => by omega⟩, fun j hj => (by cases hj)⟩

example : pos 3 (-3) = .ok 0 ∧ pos 3 (-4) = .error .indexError := by decide

/-- **C193 (no nodes).**  With at least one iteration torch gives no result for a graph without nodes. -/
theorem C193_empty (sqrt : K → K) (eps : K) (n : Int) (ei : List (Int × Int)) (ew : Option (List K)) (mask : List Bool) (alpha : K)
    (spec : PropSpec K) (hi : 1 ≤ spec.maxIter) (r : Diffusion K) : labelPropagation sqrt eps n ei ew [] mask spec ≠ .ok r ∧
      labelSpreading sqrt eps n ei ew [] mask alpha spec ≠ .ok r := by
  have key : ∀ step, run sqrt eps n ei ew [] mask spec step ≠ .ok r := by
    intro step h
    unfold run at h
    dsimp only at h
    split at h
    · cases h
    · split at h
      · cases h
      · obtain ⟨Y, -, h⟩ := ebind_ok.mp h
        obtain ⟨wn, -, h⟩ := ebind_ok.mp h
        obtain ⟨k, hk⟩ := Nat.exists_eq_succ_of_ne_zero (show spec.maxIter.toNat ≠ 0 by omega)
        rw [hk] at h
        unfold diffuse at h
        obtain ⟨F', -, h⟩ := ebind_ok.mp h
        obtain ⟨x, hx, -⟩ := ebind_ok.mp h
        unfold residual at hx
        rw [if_pos (.inl rfl)] at hx
        cases hx
  refine ⟨key _, fun h => ?_⟩
  unfold labelSpreading at h
  split at h
  · cases h
  · exact key _ h

/-- Violation: a node marked for training without label, and two classes at the others.  Without torch the fit succeeds; with torch it is
refused. -/
theorem C193_fit_violated : ¬ ∀ (torch torch' : Bool) (spec : PropSpec Rat) (d : NodeData Rat), 0 < d.y.length →
    ∀ r, fitPropagation torch none id (1 / 1000) spec d = .ok r → fitPropagation torch' none id (1 / 1000) spec d = .ok r := by
  intro h
  have h1 : ∃ r, fitPropagation false none id (1 / 1000) ⟨"rw", 1, 0, true⟩ (path [-1, 0, 1]) = .ok r :=
    ⟨⟨[[0, 0], [0, 0], [0, 0]], 1, some 0⟩, by decide +kernel⟩
  obtain ⟨r, hr⟩ := h1
  have h2 := h false true _ _ (by decide +kernel) r hr
  have h3 : fitPropagation true none id (1 / 1000) ⟨"rw", 1, 0, true⟩ (path [-1, 0, 1]) = .error .valueError := by decide +kernel
  rw [h3] at h2
  cases h2

/-- Violation: torch counts a negative source from the end, numpy refuses it; and without iterations torch gives a result for no nodes. -/
theorem C193_edges_violated :
    (∃ r, labelPropagation (K := Rat) id (1 / 1000) 2 [(-1, 0)] none [-1, 0] [false, true] ⟨"rw", 1, 0, true⟩ = .ok r ∧ r.F = [[1], [1]]) ∧
    Transductive.labelPropagation (K := Rat) id (1 / 1000) 2 [(-1, 0)] none [-1, 0] [false, true] ⟨"rw", 1, 0, true⟩ = .error .valueError ∧
    (∃ r, labelPropagation (K := Rat) id (1 / 1000) 0 [] none [] [] ⟨"rw", 0, 0, true⟩ = .ok r) ∧
    Transductive.labelPropagation (K := Rat) id (1 / 1000) 0 [] none [] [] ⟨"rw", 0, 0, true⟩ = .error .valueError := by
  refine ⟨⟨⟨[[1], [1]], 1, some 1⟩, ?_, rfl⟩, ?_, ⟨⟨[], 0, none⟩, ?_⟩, ?_⟩
  · decide +kernel
  · decide +kernel
  · decide +kernel
  · decide +kernel

example : ∃ r, fitPropagation true none id (1 / 1000) ⟨"rw", 2, 0, true⟩ (path [0, -1, -1]) = .ok r ∧ r.F = [[1], [1], [1]] :=
  ⟨⟨[[1], [1], [1]], 2, some 1⟩, by decide +kernel, rfl⟩
example : SomeLabel (castLabels (path [0, -1, -1]).y) [true, false, false] := fun _ => ⟨0, 0, rfl, rfl, le_refl _⟩

end ModSSC.Transductive.Torch
