import Mathlib.Algebra.BigOperators.Intervals
import Verif.Spec.History

/-!
# Stretches of a history without measurements

What happens between two measurements, in closed form. No reference to kernels or filter steps of the model.
-/

namespace Minikalman

open Matrix

variable {n : Nat}

/-- A call that may occur between two measurements: predictions, controls and changes of the model, but no corrections and no
assignments of state or covariance. -/
def Op.OpenLoop : Op ℝ → Prop
  | .correct _ => False
  | .setX _ => False
  | .setP _ => False
  | .predictTuned lambda => lambda ≠ 0
  | _ => True

namespace Spec

/-- The effect of a stretch without measurements: the state `x` becomes `Φ x + d`, the covariance `P` becomes `a (Φ P Φᵀ) + V`. -/
structure Transfer (n : Nat) where
  Φ : Matrix (Fin n) (Fin n) ℝ
  d : Fin n → ℝ
  a : ℝ
  V : Matrix (Fin n) (Fin n) ℝ

/-- `k` time steps of the noise `Q`, each carried on by the transition `A` and weighted with `c`: `Σ c^i A^i Q (A^i)ᵀ`. -/
noncomputable def accumulated (c : ℝ) (A Q : Matrix (Fin n) (Fin n) ℝ) (k : Nat) : Matrix (Fin n) (Fin n) ℝ :=
  ∑ i ∈ Finset.range k, c ^ i • (A ^ i * Q * (A ^ i)ᵀ)

end Spec
end Minikalman
