import Verif.Spec.Forever
import Verif.Spec.CorrectFixed

/-!
# A filter with one state on fixed point numbers that runs forever: conditions on the numbers
-/

namespace Minikalman
namespace Spec
open FixedPoint

/-- The calls: predictions, corrections, new measurements of at most `Z`, new states of at most `X`, new variances between 0 and `B` and new system
matrices of at most 1. -/
def TameFixed {f : Nat} (X Z B : ℝ) : Op (FixedPoint f) → Prop
  | .predict => True
  | .correct _ => True
  | .setZ _ v => ∀ a ∈ v, |a.val| ≤ Z
  | .setX v => ∀ a ∈ v, |a.val| ≤ X
  | .setA v => ∀ a ∈ v, |a.val| ≤ 1
  | .setP v => ∀ a ∈ v, 0 ≤ a.val ∧ a.val ≤ B
  | _ => False

/-- The same with any measurements and states. -/
def TameModelFixed {f : Nat} (B : ℝ) : Op (FixedPoint f) → Prop
  | .setX _ => True
  | .setZ _ _ => True
  | op => TameFixed 0 0 B op

/-- A sensor with noise variance `r` for a state whose variance is at most `B` and grows by `q` with each of at most `N` predictions: the reciprocal of the
root of `r` and its square are in range, the error of the inverse of the innovation variance is small enough for the gain not to exceed 1, and `B` is so much
larger than `r` that the variance is again at most `B` after a correction. -/
structure BalancedFixed (f N : Nat) (q B r : ℝ) : Prop where
  root : res f < √r
  recip : 1 < (√r - res f) * lim f
  inverse : (1 / √r + rootErr f r) ^ 2 < lim f
  gain : (B + N * q) * inverseErr f r 0 * (B + N * q + r) ≤ r
  settle : r + (B + N * q) ^ 2 * inverseErr f r 0 + (B + N * q + 1) * res f ≤ B
  fits : B + N * q + r < lim f

/-- At least two fractional bits; no negative variances; `2 X` and `B + N q` are in range. -/
structure LastingFixed (f : Nat) (X q B : ℝ) (N : Nat) : Prop where
  bits : 2 ≤ f
  noise : 0 ≤ q
  start : 0 ≤ B
  state : 2 * X < lim f
  variance : B + N * q < lim f

end Spec
end Minikalman
