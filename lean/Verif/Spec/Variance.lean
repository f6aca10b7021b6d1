import Verif.Spec.Float
import Verif.Spec.FixedPoint
import Verif.Model.Filter
import Mathlib.Data.Real.Basic

/-!
# Corrections with one measured component, in any arithmetic
-/

namespace Minikalman
namespace Spec

variable {T : Type} {n : Nat}

/-- The unit vector as the only row of an observation matrix: the `j`-th state is measured directly. -/
def direct [Zero T] [One T] (j : Fin n) : Matrix (Fin 1) (Fin n) T := Matrix.of fun _ k => if k = j then 1 else 0

/-- Bit for bit the same numbers above and below the diagonal. -/
def MirrorSymmetric (P : Matrix (Fin n) (Fin n) T) : Prop := ∀ i j, P i j = P j i

/-- A measurement with noise variance `r` of a state with variance `p` is not too precise for the format: the noise variance is at least
`12 u` times the innovation variance, `u` being the unit roundoff, and innovation variance and its inverse are well inside the range. -/
def NoisyEnough (fmt : Format) (p r : ℝ) : Prop :=
  0 < r ∧ 12 * (1 / 2 ^ fmt.prec) * (p + r) ≤ r ∧ p + r ≤ 2 ^ fmt.frac / 2 ^ (fmt.prec + 2) ∧ 2 < r * fmt.limit

end Spec

/-- Calls that change neither the model of the process nor that of the sensors: predictions, corrections, new measurements, a new state. -/
def Op.KeepsModel {T : Type} : Op T → Prop
  | .predict | .correct _ | .setX _ | .setZ _ _ => True
  | _ => False

end Minikalman
