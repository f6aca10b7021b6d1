import Verif.Spec.Rounding
import Mathlib.Tactic.Linarith
import Mathlib.Tactic.NormNum
import Mathlib.Tactic.Positivity
import Mathlib.Data.Int.Order.Units
import Mathlib.Analysis.Real.Sqrt
import Mathlib.Tactic.FieldSimp

/-!
# Two families of rounded arithmetic

Objects for examples: they show that `Rounded` can be met by arithmetic that really rounds.
-/

namespace Minikalman

/-! ## Checked fixed point numbers -/

/-- A fixed point number with 16 fractional bits and 32 bits in total, or an overflow. -/
structure Checked where
  bits : Option Int
  deriving DecidableEq, Repr

namespace Checked

/-- Overflow check. -/
def chk (z : Int) : Option Int := if -2147483648 ≤ z ∧ z < 2147483648 then some z else none

theorem chk_some {z w : Int} (h : chk z = some w) : w = z := by
  unfold chk at h
  split_ifs at h
  exact (Option.some.inj h).symm

instance : Zero Checked := ⟨⟨some 0⟩⟩
instance : One Checked := ⟨⟨some 65536⟩⟩
instance : Add Checked := ⟨fun a b => ⟨a.bits.bind fun x => b.bits.bind fun y => chk (x + y)⟩⟩
instance : Sub Checked := ⟨fun a b => ⟨a.bits.bind fun x => b.bits.bind fun y => chk (x - y)⟩⟩
instance : Neg Checked := ⟨fun a => ⟨a.bits.bind fun x => chk (-x)⟩⟩
instance : Mul Checked := ⟨fun a b => ⟨a.bits.bind fun x => b.bits.bind fun y => chk (x * y / 65536)⟩⟩

instance : MDT Checked where
  recip a := .ok ⟨a.bits.bind fun x => if x = 0 then none else chk (Int.tdiv 4294967296 x)⟩
  squareRoot a := .ok ⟨a.bits.bind fun x => if x < 0 then none else some (Nat.sqrt (x.toNat * 65536) : Int)⟩
  le a b := match a.bits, b.bits with
    | some x, some y => decide (x ≤ y)
    | _, _ => false
  isum l := l.foldl (· + ·) 0

/-- The number `z / 65536`. -/
def of (z : Int) : Checked := ⟨some z⟩

/-- Real value. -/
noncomputable def val (a : Checked) : ℝ := (a.bits.getD 0 : ℝ) / 65536

theorem binop {f : Int → Int → Int} {a b : Checked} (h : (a.bits.bind fun x => b.bits.bind fun y => chk (f x y)).isSome) :
    ∃ x y, a.bits = some x ∧ b.bits = some y ∧ (a.bits.bind fun x => b.bits.bind fun y => chk (f x y)) = some (f x y) := by
  obtain ⟨a⟩ := a
  obtain ⟨b⟩ := b
  cases a with
  | none => simp at h
  | some x =>
    cases b with
    | none => simp at h
    | some y =>
      refine ⟨x, y, rfl, rfl, ?_⟩
      simp only [Option.bind_some] at h ⊢
      obtain ⟨w, hw⟩ := Option.isSome_iff_exists.mp h
      rw [hw, chk_some hw]

/-- Exact sums, products up to the resolution. -/
noncomputable def rounded : Rounded Checked where
  fin a := a.bits.isSome
  val := val
  u := 0
  η := 1 / 65536
  u_nonneg := le_refl _
  η_nonneg := by norm_num
  fin_zero := rfl
  val_zero := by simp [val, show (0 : Checked).bits = some 0 from rfl]
  add_err a b h := by
    obtain ⟨x, y, ha, hb, hc⟩ := binop (f := (· + ·)) h
    refine ⟨by simp [ha], by simp [hb], ?_⟩
    have : (a + b).bits = some (x + y) := hc
    simp only [val, this, ha, hb, Option.getD_some, zero_mul]
    push_cast
    rw [← add_div, sub_self, abs_zero]
  sub_err a b h := by
    obtain ⟨x, y, ha, hb, hc⟩ := binop (f := (· - ·)) h
    refine ⟨by simp [ha], by simp [hb], ?_⟩
    have : (a - b).bits = some (x - y) := hc
    simp only [val, this, ha, hb, Option.getD_some, zero_mul]
    push_cast
    rw [← sub_div, sub_self, abs_zero]
  mul_err a b h := by
    obtain ⟨x, y, ha, hb, hc⟩ := binop (f := fun x y => x * y / 65536) h
    refine ⟨by simp [ha], by simp [hb], ?_⟩
    have : (a * b).bits = some (x * y / 65536) := hc
    simp only [val, this, ha, hb, Option.getD_some, zero_mul, zero_add]
    have h1 := Int.mul_ediv_add_emod (x * y) 65536
    have h2 := Int.emod_nonneg (x * y) (show (65536 : Int) ≠ 0 by decide)
    have h3 := Int.emod_lt_of_pos (x * y) (show (0 : Int) < 65536 by decide)
    set q := x * y / 65536
    set r := x * y % 65536
    have e1 : (65536 : ℝ) * q + r = x * y := by exact_mod_cast h1
    have e2 : (0 : ℝ) ≤ r := by exact_mod_cast h2
    have e3 : (r : ℝ) < 65536 := by exact_mod_cast h3
    rw [div_mul_div_comm, ← e1, abs_le]
    constructor <;> linarith

/-- Square roots and reciprocals up to the resolution. -/
noncomputable def roundedRoots : RoundedRoots Checked where
  toRounded := rounded
  sqrt_err a q h hf := by
    obtain ⟨a⟩ := a
    have hq : q = ⟨a.bind fun x => if x < 0 then none else some (Nat.sqrt (x.toNat * 65536) : Int)⟩ := by
      injection h with h; exact h.symm
    subst hq
    cases a with
    | none => simp [rounded] at hf
    | some x =>
      refine ⟨rfl, ?_⟩
      by_cases hx : x < 0
      · simp [rounded, hx] at hf
      obtain ⟨k, rfl⟩ := Int.eq_ofNat_of_zero_le (not_lt.mp hx)
      simp only [rounded, val, Option.bind_some, if_neg hx, Option.getD_some, zero_mul, zero_add, Int.toNat_natCast,
        Int.cast_natCast]
      have h1 : (Nat.sqrt (k * 65536) : ℝ) ≤ √((k : ℝ) * 65536) := by
        have := Real.nat_sqrt_le_real_sqrt (a := k * 65536)
        push_cast at this; exact this
      have h2 : √((k : ℝ) * 65536) ≤ Nat.sqrt (k * 65536) + 1 := by
        have := Real.real_sqrt_le_nat_sqrt_succ (a := k * 65536)
        push_cast at this; exact this
      have e : √((k : ℝ) / 65536) = √((k : ℝ) * 65536) / 65536 := by
        rw [show (k : ℝ) / 65536 = k * 65536 / 65536 ^ 2 by ring, Real.sqrt_div (by positivity),
          Real.sqrt_sq (by norm_num)]
      rw [e, abs_le]
      constructor <;> linarith
  recip_err a d h ha hf := by
    obtain ⟨a⟩ := a
    have hq : d = ⟨a.bind fun x => if x = 0 then none else chk (Int.tdiv 4294967296 x)⟩ := by
      injection h with h; exact h.symm
    subst hq
    cases a with
    | none => simp [rounded] at ha
    | some x =>
      by_cases hx : x = 0
      · simp [rounded, hx] at hf
      have hxr : (x : ℝ) ≠ 0 := by exact_mod_cast hx
      simp only [rounded, Option.bind_some, if_neg hx] at hf
      obtain ⟨w, hw⟩ := Option.isSome_iff_exists.mp hf
      have hw' := chk_some hw
      simp only [rounded, val, Option.bind_some, if_neg hx, hw, Option.getD_some, zero_mul, zero_add]
      refine ⟨div_ne_zero hxr (by norm_num), ?_⟩
      have h1 := Int.mul_tdiv_add_tmod 4294967296 x
      rw [← hw'] at h1
      have h2 : |(Int.tmod 4294967296 x : ℝ)| ≤ |(x : ℝ)| := by
        have t1 := Int.tmod_lt_of_pos 4294967296 (abs_pos.mpr hx)
        have t2 := Int.tmod_nonneg (a := 4294967296) |x| (by norm_num)
        rw [show Int.tmod 4294967296 |x| = Int.tmod 4294967296 x by
          rcases abs_choice x with hc | hc <;> rw [hc]
          exact Int.tmod_neg _ _] at t1 t2
        rw [abs_of_nonneg (show (0 : ℝ) ≤ (Int.tmod 4294967296 x : ℝ) by exact_mod_cast t2)]
        exact_mod_cast t1.le
      have e1 : (x : ℝ) * w + (Int.tmod 4294967296 x : ℝ) = 4294967296 := by exact_mod_cast h1
      have e2 : (w : ℝ) / 65536 - ((x : ℝ) / 65536)⁻¹ = -((Int.tmod 4294967296 x : ℝ) / x) / 65536 := by
        field_simp
        linarith
      rw [e2, abs_div, abs_neg, abs_div]
      have h3 : |(Int.tmod 4294967296 x : ℝ)| / |(x : ℝ)| ≤ 1 := (div_le_one (abs_pos.mpr hxr)).mpr h2
      have h4 : |(65536 : ℝ)| = 65536 := abs_of_pos (by norm_num)
      rw [h4]
      exact div_le_div_of_nonneg_right h3 (by norm_num)
  le_zero a hf h := by
    obtain ⟨a⟩ := a
    cases a with
    | none => simp [rounded] at hf
    | some x =>
      have : ¬ x ≤ 0 := by
        have h' : decide (x ≤ 0) = false := h
        simpa using h'
      have h0 : (0 : ℝ) < x := by exact_mod_cast (not_le.mp this)
      show (0 : ℝ) < x / 65536
      positivity

end Checked

/-! ## Real numbers rounded after each operation -/

/-- Real numbers where each operation is followed by `fl`. -/
structure Fl (fl : ℝ → ℝ) where
  toReal : ℝ

namespace Fl
variable {fl : ℝ → ℝ}

noncomputable instance : Zero (Fl fl) := ⟨⟨0⟩⟩
noncomputable instance : Add (Fl fl) := ⟨fun a b => ⟨fl (a.toReal + b.toReal)⟩⟩
noncomputable instance : Sub (Fl fl) := ⟨fun a b => ⟨fl (a.toReal - b.toReal)⟩⟩
noncomputable instance : Mul (Fl fl) := ⟨fun a b => ⟨fl (a.toReal * b.toReal)⟩⟩

/-- A rounding function with relative error `u`: floating point numbers with unbounded exponents. -/
noncomputable def rounded {u : ℝ} (hu : 0 ≤ u) (h : ∀ x, |fl x - x| ≤ u * |x|) : Rounded (Fl fl) where
  fin _ := True
  val := toReal
  u := u
  η := 0
  u_nonneg := hu
  η_nonneg := le_refl _
  fin_zero := trivial
  val_zero := rfl
  add_err a b _ := ⟨trivial, trivial, h _⟩
  sub_err a b _ := ⟨trivial, trivial, h _⟩
  mul_err a b _ := ⟨trivial, trivial, by rw [add_zero]; exact h _⟩

end Fl
end Minikalman
