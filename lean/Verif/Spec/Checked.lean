import Verif.Spec.Builder
import Verif.Spec.History
import Verif.Spec.FixedPoint
import Verif.Model.Checked

/-!
# Programs whose temporaries are as the builders make them
-/

namespace Minikalman

variable {T : Type} {n : Nat}

/-- The temporaries of an observation hold zeros. -/
structure RegularObservation.Fresh [Zero T] {m : Nat} (o : RegularObservation n m T) : Prop where
  y : o.y.Filled 0
  S : o.S.Filled 0
  K : o.K.Filled 0
  tempSInv : o.tempSInv.Filled 0
  tempHP : o.tempHP.Filled 0
  tempPHt : o.tempPHt.Filled 0
  tempKHP : o.tempKHP.Filled 0

/-- All temporaries of the program have the size of their matrices and hold zeros, as those the builders make. -/
structure World.Fresh [Zero T] (w : World n T) : Prop where
  predictedX : w.kf.predictedX.Filled 0
  tempP : w.kf.tempP.Filled 0
  ctl : ∀ c ∈ w.ctl, c.2.tempBQ.Filled 0
  obs : ∀ o ∈ w.obs, o.2.Fresh

/-- The type can represent numbers that differ from `x` by less than the resolution, from below. -/
def FixedPoint.Fits (f : Nat) (x : ℝ) : Prop := -lim f ≤ x ∧ x < lim f

/-- What the operators of a fixed point type with `f` integer and `f` fractional bits do in a build with overflow checks, in terms of
the real numbers: exact results, or products rounded down, if they fit, and a panic if they do not. -/
structure CheckedArithmetic (f : Nat) (o : Ops (FixedPoint f)) : Prop where
  zero : o.zero.val = 0
  one : o.one.val = 1
  sumStart : o.sumStart.val = 0
  add : ∀ a b, FixedPoint.Fits f (a.val + b.val) → ∃ r, o.add a b = .ok r ∧ r.val = a.val + b.val
  add_overflow : ∀ a b, ¬ FixedPoint.Fits f (a.val + b.val) → o.add a b = .error .arithmetic
  sub : ∀ a b, FixedPoint.Fits f (a.val - b.val) → ∃ r, o.sub a b = .ok r ∧ r.val = a.val - b.val
  sub_overflow : ∀ a b, ¬ FixedPoint.Fits f (a.val - b.val) → o.sub a b = .error .arithmetic
  mul : ∀ a b, FixedPoint.Fits f (a.val * b.val) →
    ∃ r, o.mul a b = .ok r ∧ r.val ≤ a.val * b.val ∧ a.val * b.val < r.val + FixedPoint.res f
  mul_overflow : ∀ a b, ¬ FixedPoint.Fits f (a.val * b.val) → o.mul a b = .error .arithmetic
  neg : ∀ a, FixedPoint.Fits f (-a.val) → ∃ r, o.neg a = .ok r ∧ r.val = -a.val
  neg_overflow : ∀ a, ¬ FixedPoint.Fits f (-a.val) → o.neg a = .error .arithmetic
  recip : ∀ a, a.val ≠ 0 → |(a.val)⁻¹| < FixedPoint.lim f →
    ∃ r, o.recip a = .ok r ∧ |r.val| ≤ |(a.val)⁻¹| ∧ |r.val - (a.val)⁻¹| ≤ FixedPoint.res f
  recip_zero : ∀ a, a.val = 0 → o.recip a = .error .arithmetic
  recip_overflow : ∀ a, a.val ≠ 0 → FixedPoint.lim f + FixedPoint.res f ≤ |(a.val)⁻¹| → o.recip a = .error .arithmetic
  squareRoot : ∀ a, 0 ≤ a.val → ∃ r, o.squareRoot a = .ok r ∧ r.val ≤ √(a.val) ∧ √(a.val) < r.val + FixedPoint.res f
  squareRoot_negative : ∀ a, a.val < 0 → o.squareRoot a = .error .arithmetic
  le : ∀ a b, ∃ d, o.le a b = .ok d ∧ (d = true ↔ a.val ≤ b.val)

end Minikalman
