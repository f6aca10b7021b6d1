import Verif.Model.Basic
import Mathlib.Algebra.Field.Basic
import Mathlib.Algebra.BigOperators.Group.List.Basic
import Mathlib.Analysis.Real.Sqrt
import Mathlib.Data.Rat.Sqrt

/-!
# Exact element types

The theorems about algebraic meaning assume exact arithmetic. They say nothing about rounding.
What an element type does at `recip(0)` or the root of a negative number is left open on purpose: `f32`/`f64`
return infinities and NaN, fixed point types panic. A theorem that assumes only these classes holds whatever
happens there.
-/

namespace Minikalman

/-- The panic `e` is one that `recip` or `square_root` of the element type itself raises. -/
def ScalarPanic (T : Type) [MDT T] (e : Panic) : Prop :=
  ∃ x : T, MDT.recip x = .error e ∨ MDT.squareRoot x = .error e

/-- Element type whose `recip` and `square_root` never panic (the floating point types). -/
class TotalScalar (T : Type) [MDT T] : Prop where
  recip_ok : ∀ x : T, ∃ y, MDT.recip x = .ok y
  sqrt_ok : ∀ x : T, ∃ y, MDT.squareRoot x = .ok y

theorem not_scalarPanic {T : Type} [MDT T] [TotalScalar T] (e : Panic) : ¬ ScalarPanic T e := by
  rintro ⟨x, h | h⟩
  · obtain ⟨y, hy⟩ := TotalScalar.recip_ok x
    rw [hy] at h; cases h
  · obtain ⟨y, hy⟩ := TotalScalar.sqrt_ok x
    rw [hy] at h; cases h

/-- Element type whose scalar operations are those of a field. -/
class ExactField (T : Type) [Field T] [MDT T] : Prop where
  recip_eq : ∀ x : T, x ≠ 0 → MDT.recip x = .ok x⁻¹
  isum_eq : ∀ l : List T, MDT.isum l = l.sum

/-- Element type whose scalar operations are those of the real numbers. -/
class ExactReal [MDT ℝ] : Prop where
  recip_eq : ∀ x : ℝ, x ≠ 0 → MDT.recip x = .ok x⁻¹
  isum_eq : ∀ l : List ℝ, MDT.isum l = l.sum
  sqrt_eq : ∀ x : ℝ, 0 < x → MDT.squareRoot x = .ok (Real.sqrt x)
  le_iff : ∀ x y : ℝ, MDT.le x y = true ↔ x ≤ y

instance [MDT ℝ] [ExactReal] : ExactField ℝ := ⟨ExactReal.recip_eq, ExactReal.isum_eq⟩

/-- Real numbers with the behaviour of the fixed point types at undefined points: a panic. -/
@[instance_reducible] noncomputable def panickingReal : MDT ℝ where
  recip x := if x = 0 then .error .arithmetic else .ok x⁻¹
  squareRoot x := if x < 0 then .error .arithmetic else .ok (Real.sqrt x)
  le x y := open Classical in decide (x ≤ y)
  isum l := l.sum

/-- Real numbers with total operations (a stand-in for the non-panicking behaviour of floats). -/
@[instance_reducible] noncomputable def totalReal : MDT ℝ where
  recip x := .ok x⁻¹
  squareRoot x := .ok (Real.sqrt x)
  le x y := open Classical in decide (x ≤ y)
  isum l := l.sum

theorem panickingReal_exact : @ExactReal panickingReal :=
  letI := panickingReal
  { recip_eq := fun x hx => by simp [MDT.recip, hx]
    isum_eq := fun _ => rfl
    sqrt_eq := fun x hx => by simp [MDT.squareRoot, not_lt.mpr hx.le]
    le_iff := fun x y => by simp [MDT.le] }

theorem totalReal_exact : @ExactReal totalReal :=
  letI := totalReal
  { recip_eq := fun x _ => rfl
    isum_eq := fun _ => rfl
    sqrt_eq := fun x _ => rfl
    le_iff := fun x y => by simp [MDT.le] }

/-- Rational numbers, used to run the model in examples: `recip 0` panics, and so does the root of a number that
is not a square. -/
instance ratMDT : MDT ℚ where
  recip x := if x = 0 then .error .arithmetic else .ok x⁻¹
  squareRoot x := if Rat.sqrt x * Rat.sqrt x = x then .ok (Rat.sqrt x) else .error .arithmetic
  le x y := decide (x ≤ y)
  isum l := l.sum

instance : ExactField ℚ := ⟨fun x hx => by simp [MDT.recip, hx], fun _ => rfl⟩

end Minikalman
