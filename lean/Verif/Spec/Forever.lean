import Verif.Spec.Float
import Verif.Model.Filter
import Mathlib.Data.Real.Basic

/-!
# A filter with one state that runs forever: conditions on the numbers and on the order of the calls
-/

namespace Minikalman
namespace Spec

/-- There are at most `N` predictions without a correction in between. `c` predictions were made since the last correction. -/
def Paced {T : Type} (N : Nat) : Nat → List (Op T) → Prop
  | _, [] => True
  | c, .predict :: ops => c < N ∧ Paced N (c + 1) ops
  | _, .correct _ :: ops => Paced N 0 ops
  | c, _ :: ops => Paced N c ops

/-- The calls: predictions, corrections, new measurements of at most `Z`, new states of at most `X`, new variances between 0 and `B` and new system
matrices of at most 1. -/
def Tame {fmt : Format} (X Z B : ℝ) : Op (Bin fmt) → Prop
  | .predict => True
  | .correct _ => True
  | .setZ _ v => ∀ a ∈ v, a.Finite ∧ |a.val| ≤ Z
  | .setX v => ∀ a ∈ v, a.Finite ∧ |a.val| ≤ X
  | .setA v => ∀ a ∈ v, a.Finite ∧ |a.val| ≤ 1
  | .setP v => ∀ a ∈ v, a.Finite ∧ 0 ≤ a.val ∧ a.val ≤ B
  | _ => False

/-- The same with any measurements and states: any numbers whatsoever, infinities and NaN included. -/
def TameModel {fmt : Format} (B : ℝ) : Op (Bin fmt) → Prop
  | .setX _ => True
  | .setZ _ _ => True
  | op => Tame 0 0 B op

/-- A sensor with noise variance `r` for a state whose variance is at most `B`, which is at least `2 r`, and grows by `q` with each of at most `N` predictions:
with unit roundoff `u = 2^-prec`, the sensor is not too precise compared with the variance (`128 u (B + N q) <= r`). The other conditions
say that these numbers are not near the ends of the range of the format. -/
structure Balanced (fmt : Format) (N : Nat) (q B r : ℝ) : Prop where
  pos : 0 < r
  bound : 2 * r ≤ B
  sensor : 128 * (1 / 2 ^ fmt.prec) * (B + N * q) ≤ r
  large : 2 * (B + N * q) + r ≤ 2 ^ fmt.frac / 2 ^ (fmt.prec + 2)
  small : 2 < r * fmt.limit
  tiny : 8 / 2 ^ fmt.frac ≤ r

/-- The format is like `f32` or `f64`; the process noise `q` and the bound `B` are not negative, `4 X` and `4 (B + N q)` are below the largest
number, and there are at most `2^(prec - 1)` predictions between two corrections (8 million in `f32`). -/
structure Lasting (fmt : Format) (X q B : ℝ) (N : Nat) : Prop where
  prec : 10 ≤ fmt.prec
  frac : 2 * fmt.prec ≤ fmt.frac
  top : 2 * fmt.frac ≤ fmt.top + fmt.prec
  noise : 0 ≤ q
  start : 0 ≤ B
  steps : 2 * N ≤ 2 ^ fmt.prec
  state : 4 * X < fmt.limit
  variance : 4 * (B + N * q) < fmt.limit

end Spec
end Minikalman
