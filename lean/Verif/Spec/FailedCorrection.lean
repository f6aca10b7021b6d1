import Verif.Spec.Filter
import Mathlib.LinearAlgebra.Matrix.PosDef
import Mathlib.Data.Real.Basic

/-!
# What is left of a Cholesky decomposition that gave up

The decomposition of a symmetric matrix `S` proceeds column by column and gives up at the first pivot that is not positive. The
library goes on with the matrix as it is then.
-/

namespace Minikalman
namespace Spec

open Matrix

variable {m : Nat}

/-- The decomposition of `S` gave up at the pivot `p` and left the lower triangular matrix `W`. -/
structure Stopped (S : Matrix (Fin m) (Fin m) ℝ) (p : Fin m) (W : Matrix (Fin m) (Fin m) ℝ) : Prop where
  /-- Nothing above the diagonal. -/
  above : ∀ i j, i < j → W i j = 0
  /-- The columns before `p` are those of the Cholesky factor: positive pivots, … -/
  pivots : ∀ j, j < p → 0 < W j j
  /-- … and `W Wᵀ` is `S` in these columns. -/
  columns : ∀ i j, j < p → j ≤ i → (W * Wᵀ) i j = S i j
  /-- What is left of the pivot `p` is not positive. -/
  left : S p p - ∑ k with k < p, W p k ^ 2 ≤ 0
  /-- At the pivot stands what is left, divided by the pivot before; at the very first pivot 0. -/
  first : p.1 = 0 → W p p = 0
  /-- See `first`. -/
  later : ∀ q : Fin m, q.1 + 1 = p.1 → W p p = (S p p - ∑ k with k < p, W p k ^ 2) / W q q
  /-- The rest are the entries of `S`. -/
  rest : ∀ i j, p ≤ j → j ≤ i → ¬ (i = p ∧ j = p) → W i j = S i j

/-- The leading block of size `k`: the innovation covariance of the first `k` components of the measurement. -/
def leading (S : Matrix (Fin m) (Fin m) ℝ) {k : Nat} (hk : k ≤ m) : Matrix (Fin k) (Fin k) ℝ :=
  S.submatrix (Fin.castLE hk) (Fin.castLE hk)

end Spec
end Minikalman
