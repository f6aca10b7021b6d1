import Verif.Model.Car
import Verif.Proofs.Certificate
import Verif.Proofs.FloatNil
import Verif.Proofs.Schedule

/-! # Bounds for the states of recorded programs in floating point arithmetic: helper lemmas -/

set_option linter.unusedSectionVars false

namespace Minikalman

variable {fmt : Format}

namespace Bin

/-- The rational value of a finite number. -/
def rat : Bin fmt → Option ℚ
  | .fin s k _ => some (mkRat (signed s k) (2 ^ fmt.frac))
  | _ => none

theorem rat_val {a : Bin fmt} {q : ℚ} (h : a.rat = some q) : a.Finite ∧ a.val = q := by
  cases a with
  | nan => cases h
  | inf s => cases h
  | fin s k hk =>
    cases h
    refine ⟨trivial, ?_⟩
    rw [val_fin, ← signed_cast, Rat.mkRat_eq_div]
    push_cast
    rfl

theorem finite_of_rounds {x : ℝ} {r : Bin fmt} (h : RoundsTo x r) (hx : |x| < fmt.limit) : r.Finite := by
  rw [abs_lt] at hx
  rcases h with ⟨_, h, _⟩ | ⟨h, _⟩ | ⟨h, _⟩
  · exact h
  · linarith [hx.2]
  · linarith [hx.1]

/-- Floating point numbers as long as nothing exceeds `M`. -/
noncomputable def near (fmt : Format) (ε M : ℚ) (hε : 0 ≤ ε) (hM : (M : ℝ) < fmt.limit)
    (h : (M : ℝ) / 2 ^ fmt.prec + 1 / 2 ^ (fmt.frac + 1) ≤ ε) : Near (Bin fmt) where
  val := val
  ok := Finite
  ε := ε
  M := M
  ε_nonneg := hε
  zero := ⟨trivial, zero_val⟩
  add {a b} ha hb hab := by
    have hf := finite_of_rounds (add_rounds ha hb) (hab.trans_lt hM)
    refine ⟨hf, (add_error hf).trans ?_⟩
    have : 1 / 2 ^ fmt.prec * |a.val + b.val| ≤ (M : ℝ) / 2 ^ fmt.prec := by
      rw [div_mul_eq_mul_div, one_mul]
      exact div_le_div_of_nonneg_right hab (by positivity)
    have : (0 : ℝ) ≤ 1 / 2 ^ (fmt.frac + 1) := by positivity
    linarith
  sub {a b} ha hb hab := by
    have hf := finite_of_rounds (sub_rounds ha hb) (hab.trans_lt hM)
    refine ⟨hf, (sub_error hf).trans ?_⟩
    have : 1 / 2 ^ fmt.prec * |a.val - b.val| ≤ (M : ℝ) / 2 ^ fmt.prec := by
      rw [div_mul_eq_mul_div, one_mul]
      exact div_le_div_of_nonneg_right hab (by positivity)
    have : (0 : ℝ) ≤ 1 / 2 ^ (fmt.frac + 1) := by positivity
    linarith
  mul {a b} ha hb hab := by
    have hf := finite_of_rounds (mul_rounds ha hb) (hab.trans_lt hM)
    refine ⟨hf, (mul_error hf).trans ?_⟩
    have : 1 / 2 ^ fmt.prec * |a.val * b.val| ≤ (M : ℝ) / 2 ^ fmt.prec := by
      rw [div_mul_eq_mul_div, one_mul]
      exact div_le_div_of_nonneg_right hab (by positivity)
    linarith
  rat := rat
  rat_ok := rat_val

end Bin
end Minikalman
