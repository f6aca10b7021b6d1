import Verif.Model.Float
import Mathlib.Data.Real.Basic

/-!
# What correctly rounded floating point arithmetic is

The real value of a floating point number, and what it means to round a real number to nearest, ties to even.
-/

namespace Minikalman

variable {fmt : Format}

namespace Bin

/-- Neither NaN nor an infinity. -/
def Finite : Bin fmt → Prop
  | .fin _ _ _ => True
  | _ => False

instance : (a : Bin fmt) → Decidable a.Finite
  | .fin _ _ _ => isTrue trivial
  | .inf _ => isFalse id
  | .nan => isFalse id

/-- The real value of a finite number (zero for others). -/
noncomputable def val : Bin fmt → ℝ
  | .fin s k _ => (if s then -(k : ℝ) else k) / 2 ^ fmt.frac
  | _ => 0

/-- The sign bit: set for `-0.0`, too. -/
def Negative : Bin fmt → Prop
  | .nan => False
  | .inf s => s = true
  | .fin s _ _ => s = true

/-- The last bit of the significand is zero. -/
def Even : Bin fmt → Prop
  | .fin _ k _ => 2 ^ (fmt.gap k + 1) ∣ k
  | _ => False

end Bin

/-- Where overflow begins: halfway between the largest finite number and the next one if the exponent were unbounded. -/
noncomputable def Format.limit (fmt : Format) : ℝ := 2 ^ fmt.top * (1 - 1 / 2 ^ (fmt.prec + 1)) / 2 ^ fmt.frac

/-- `r` is the real number `x`, rounded to nearest, ties to even: no finite number is nearer, one that is as near is the same
number unless `r` is even; numbers beyond the limit become an infinity of the same sign. -/
def RoundsTo (x : ℝ) (r : Bin fmt) : Prop :=
  (|x| < fmt.limit ∧ r.Finite ∧ ∀ y : Bin fmt, y.Finite →
    |r.val - x| ≤ |y.val - x| ∧ (|y.val - x| = |r.val - x| → y.val = r.val ∨ r.Even)) ∨
  (fmt.limit ≤ x ∧ r = .inf false) ∨ (x ≤ -fmt.limit ∧ r = .inf true)

end Minikalman
