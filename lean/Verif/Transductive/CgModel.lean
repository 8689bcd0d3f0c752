import Verif.Transductive.Types
import Mathlib.Algebra.BigOperators.Fin

/-!
# Model of the conjugate gradient solver

`cg_solve` of `backends/numpy_backend.py:85-129` and `backends/torch_backend.py:109-149`, and the wrappers of
`solvers/cg.py`.  Arrays of length `n` are functions on `Fin n`; floats are exact numbers; the square root is a
parameter.
-/

namespace ModSSC.Transductive
open ModSSC

variable {K : Type} [Field K] [LinearOrder K]

/-- `np.dot(u, v)` (numpy_backend.py:103, 111, 117). -/
def dot {n : Nat} (u v : Fin n → K) : K := ∑ i, u i * v i

/-- `CGResult` (solvers/cg.py), and the pair `x, info` of `cg_solve`. -/
structure CGResult (n : Nat) (K : Type) where
  x : Fin n → K
  nIter : Nat
  residualNorm : K
  converged : Bool

/-- The loop of `cg_solve` (numpy_backend.py:109-127, torch_backend.py:131-147): `fuel` rounds are left, `k` are done. -/
def cgLoop {n : Nat} (sqrt : K → K) (matvec : (Fin n → K) → (Fin n → K)) (tol : K) :
    Nat → Nat → (Fin n → K) → (Fin n → K) → (Fin n → K) → K → CGResult n K
  | 0, k, x, _, _, rs => ⟨x, k, sqrt rs, false⟩
  | fuel + 1, k, x, r, p, rs =>
    let Ap := matvec p
    let denom := dot p Ap
    if denom = 0 then ⟨x, k, sqrt rs, false⟩
    else
      let alpha := rs / denom
      let x' := fun i => x i + alpha * p i
      let r' := fun i => r i - alpha * Ap i
      let rs' := dot r' r'
      if sqrt rs' ≤ tol then ⟨x', k + 1, sqrt rs', true⟩
      else cgLoop sqrt matvec tol fuel (k + 1) x' r' (fun i => r' i + rs' / rs * p i) rs'

/-- `cg_solve` (numpy_backend.py:85-129, torch_backend.py:109-149; solvers/cg.py only repackages the result).
`range(int(max_iter))` is empty for a negative `max_iter`. -/
def cgSolve {n : Nat} (sqrt : K → K) (matvec : (Fin n → K) → (Fin n → K)) (b : Fin n → K)
    (x0 : Option (Fin n → K)) (tol : K) (maxIter : Int) : CGResult n K :=
  let x := x0.getD fun _ => 0
  let r := fun i => b i - matvec x i
  let rs := dot r r
  if rs = 0 then ⟨x, 0, 0, true⟩
  else cgLoop sqrt matvec tol maxIter.toNat 0 x r r rs

end ModSSC.Transductive
