import Verif.Spec.Forever
import Verif.Spec.ForeverFixed

/-!
# The range of the estimate of a single state: conditions on the numbers
-/

namespace Minikalman
namespace Spec

/-- A system matrix that does not drive a state out of the range `[L, H]`: 1, or between 0 and 1 if the range contains zero. -/
def Steady (L H a : ℝ) : Prop := a = 1 ∨ (0 ≤ a ∧ a ≤ 1 ∧ L ≤ 0 ∧ 0 ≤ H)

/-- The calls: predictions, corrections, new measurements and states between `L` and `H`, new variances between 0 and `B` and new system matrices that do not
drive a state out of the range. -/
def Ranged {fmt : Format} (L H B : ℝ) : Op (Bin fmt) → Prop
  | .predict => True
  | .correct _ => True
  | .setZ _ v => ∀ a ∈ v, a.Finite ∧ L ≤ a.val ∧ a.val ≤ H
  | .setX v => ∀ a ∈ v, a.Finite ∧ L ≤ a.val ∧ a.val ≤ H
  | .setA v => ∀ a ∈ v, a.Finite ∧ Steady L H a.val
  | .setP v => ∀ a ∈ v, a.Finite ∧ 0 ≤ a.val ∧ a.val ≤ B
  | _ => False

/-- The same for fixed point numbers. -/
def RangedFixed {f : Nat} (L H B : ℝ) : Op (FixedPoint f) → Prop
  | .predict => True
  | .correct _ => True
  | .setZ _ v => ∀ a ∈ v, L ≤ a.val ∧ a.val ≤ H
  | .setX v => ∀ a ∈ v, L ≤ a.val ∧ a.val ≤ H
  | .setA v => ∀ a ∈ v, Steady L H a.val
  | .setP v => ∀ a ∈ v, 0 ≤ a.val ∧ a.val ≤ B
  | _ => False

/-- The calls in exact arithmetic: any filter steps but control inputs, new measurements and states between `L` and `H`, new system matrices that do not
drive a state out of the range, and any new covariances. -/
def RangedExact (L H : ℝ) : Op ℝ → Prop
  | .setZ _ v => ∀ a ∈ v, L ≤ a ∧ a ≤ H
  | .setX v => ∀ a ∈ v, L ≤ a ∧ a ≤ H
  | .setA v => ∀ a ∈ v, Steady L H a
  | .control _ => False
  | .setH _ _ => False
  | _ => True

end Spec
end Minikalman
