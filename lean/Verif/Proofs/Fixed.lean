import Verif.Spec.FixedPoint
import Verif.Spec.RoundingInv
import Verif.Proofs.Parametric
import Verif.Proofs.Rounding

/-! # Fixed point arithmetic -/

set_option linter.unusedSectionVars false

namespace Minikalman

variable {f : Nat}

theorem toInt_of_inRange {z : Int} (h : InRange f z) : (BitVec.ofInt (2 * f) z).toInt = z := by
  rw [BitVec.toInt_ofInt]
  exact Int.bmod_eq_of_le_mul_two (by have := h.1; push_cast; omega) (by have := h.2; push_cast; omega)

theorem inRange_toInt (a : FixedPoint f) : InRange f a.bits.toInt :=
  ⟨BitVec.le_two_mul_toInt, BitVec.two_mul_toInt_lt⟩

namespace FixedPoint

theorem val_zero : (0 : FixedPoint f).val = 0 := by
  show (((0 : BitVec (2 * f)).toInt : ℝ)) / 2 ^ f = 0
  simp

theorem toInt_one (hf : 2 ≤ f) : (1 : FixedPoint f).bits.toInt = 2 ^ f := by
  show (BitVec.ofNat (2 * f) (2 ^ f)).toInt = 2 ^ f
  rw [BitVec.toInt_ofNat', Int.bmod_eq_of_le_mul_two]
  · push_cast; rfl
  · push_cast
    have h1 : (0 : Int) < 2 ^ (2 * f) := by positivity
    have h2 : (0 : Int) < 2 ^ f := by positivity
    omega
  · push_cast
    have e : (2 : Int) ^ (2 * f) = 2 ^ f * 2 ^ f := by rw [two_mul, pow_add]
    have h4 : (4 : Int) ≤ 2 ^ f := by
      calc (4 : Int) = 2 ^ 2 := by norm_num
        _ ≤ 2 ^ f := pow_le_pow_right₀ (by norm_num) hf
    rw [e]; nlinarith

theorem val_one (hf : 2 ≤ f) : (1 : FixedPoint f).val = 1 := by
  unfold val
  rw [toInt_one hf]
  push_cast
  exact div_self (by positivity)

theorem toInt_add {a b : FixedPoint f} (h : InRange f (a.bits.toInt + b.bits.toInt)) :
    (a + b).bits.toInt = a.bits.toInt + b.bits.toInt := by
  show (a.bits + b.bits).toInt = _
  rw [BitVec.toInt_add]
  exact Int.bmod_eq_of_le_mul_two (by have := h.1; push_cast; omega) (by have := h.2; push_cast; omega)

theorem toInt_sub {a b : FixedPoint f} (h : InRange f (a.bits.toInt - b.bits.toInt)) :
    (a - b).bits.toInt = a.bits.toInt - b.bits.toInt := by
  show (a.bits - b.bits).toInt = _
  rw [BitVec.toInt_sub]
  exact Int.bmod_eq_of_le_mul_two (by have := h.1; push_cast; omega) (by have := h.2; push_cast; omega)

theorem toInt_neg {a : FixedPoint f} (h : InRange f (-a.bits.toInt)) : (-a).bits.toInt = -a.bits.toInt := by
  show (-a.bits).toInt = _
  rw [BitVec.toInt_neg]
  exact Int.bmod_eq_of_le_mul_two (by have := h.1; push_cast; omega) (by have := h.2; push_cast; omega)

theorem toInt_mul {a b : FixedPoint f} (h : InRange f (a.bits.toInt * b.bits.toInt / 2 ^ f)) :
    (a * b).bits.toInt = a.bits.toInt * b.bits.toInt / 2 ^ f := toInt_of_inRange h

theorem val_add {a b : FixedPoint f} (h : InRange f (a.bits.toInt + b.bits.toInt)) : (a + b).val = a.val + b.val := by
  unfold val
  rw [toInt_add h]; push_cast; ring

theorem val_sub {a b : FixedPoint f} (h : InRange f (a.bits.toInt - b.bits.toInt)) : (a - b).val = a.val - b.val := by
  unfold val
  rw [toInt_sub h]; push_cast; ring

theorem val_neg {a : FixedPoint f} (h : InRange f (-a.bits.toInt)) : (-a).val = -a.val := by
  unfold val
  rw [toInt_neg h]; push_cast; ring

theorem floor_bounds (z : Int) : ((z / 2 ^ f : Int) : ℝ) ≤ (z : ℝ) / 2 ^ f ∧ (z : ℝ) / 2 ^ f - 1 < ((z / 2 ^ f : Int) : ℝ) := by
  have hp : (0 : Int) < 2 ^ f := by positivity
  have hp' : (0 : ℝ) < 2 ^ f := by positivity
  have h1 := Int.emod_add_mul_ediv z (2 ^ f)
  have h2 := Int.emod_nonneg z hp.ne'
  have h3 := Int.emod_lt_of_pos z hp
  have e : (z : ℝ) = ((z % 2 ^ f : Int) : ℝ) + 2 ^ f * ((z / 2 ^ f : Int) : ℝ) := by
    exact_mod_cast h1.symm
  have h2' : (0 : ℝ) ≤ ((z % 2 ^ f : Int) : ℝ) := by exact_mod_cast h2
  have h3' : ((z % 2 ^ f : Int) : ℝ) < 2 ^ f := by exact_mod_cast h3
  constructor
  · rw [le_div_iff₀ hp']; nlinarith
  · rw [sub_lt_iff_lt_add, div_lt_iff₀ hp']; nlinarith

theorem val_mul {a b : FixedPoint f} (h : InRange f (a.bits.toInt * b.bits.toInt / 2 ^ f)) :
    (a * b).val ≤ a.val * b.val ∧ a.val * b.val - 1 / 2 ^ f < (a * b).val := by
  have hp' : (0 : ℝ) < 2 ^ f := by positivity
  have := floor_bounds (f := f) (a.bits.toInt * b.bits.toInt)
  have e : a.val * b.val = ((a.bits.toInt * b.bits.toInt : Int) : ℝ) / 2 ^ f / 2 ^ f := by
    unfold val; push_cast; field_simp
  have e' : (a * b).val = ((a.bits.toInt * b.bits.toInt / 2 ^ f : Int) : ℝ) / 2 ^ f := by
    unfold val; rw [toInt_mul h]
  rw [e, e', ← sub_div]
  exact ⟨(div_le_div_iff_of_pos_right hp').2 this.1, (div_lt_div_iff_of_pos_right hp').2 this.2⟩

theorem val_mul_err {a b : FixedPoint f} (h : InRange f (a.bits.toInt * b.bits.toInt / 2 ^ f)) :
    |(a * b).val - a.val * b.val| ≤ 1 / 2 ^ f := by
  obtain ⟨h1, h2⟩ := val_mul h
  rw [abs_le]; constructor <;> linarith [show (0 : ℝ) < 1 / 2 ^ f by positivity]

theorem tdiv_err (u v : Int) (hv : v ≠ 0) : |((Int.tdiv u v : Int) : ℝ) - (u : ℝ) / v| ≤ 1 := by
  have h := Int.mul_tdiv_add_tmod u v
  have h2 : |((Int.tmod u v : Int) : ℝ)| ≤ |(v : ℝ)| := by
    have : (Int.tmod u v).natAbs < v.natAbs := by
      rw [Int.natAbs_tmod]; exact Nat.mod_lt _ (Int.natAbs_pos.2 hv)
    have : |Int.tmod u v| ≤ |v| := by rw [Int.abs_eq_natAbs, Int.abs_eq_natAbs]; omega
    exact_mod_cast this
  have hv' : (v : ℝ) ≠ 0 := by exact_mod_cast hv
  have e : ((Int.tdiv u v : Int) : ℝ) - (u : ℝ) / v = -((Int.tmod u v : Int) : ℝ) / v := by
    have h' : (v : ℝ) * ((Int.tdiv u v : Int) : ℝ) + ((Int.tmod u v : Int) : ℝ) = u := by exact_mod_cast h
    rw [← h']; field_simp; ring
  rw [e, abs_div, abs_neg]
  exact div_le_one_of_le₀ h2 (abs_nonneg _)

theorem recip_ok {a d : FixedPoint f} (h : MDT.recip a = .ok d) :
    a.bits.toInt ≠ 0 ∧ d.bits = BitVec.ofInt (2 * f) (Int.tdiv (2 ^ (2 * f)) a.bits.toInt) := by
  simp only [MDT.recip] at h
  split at h
  · cases h
  · cases h; exact ⟨‹_›, rfl⟩

theorem recip_err {a d : FixedPoint f} (h : MDT.recip a = .ok d) (hr : InRange f (Int.tdiv (2 ^ (2 * f)) a.bits.toInt)) :
    a.val ≠ 0 ∧ |d.val - (a.val)⁻¹| ≤ 1 / 2 ^ f := by
  obtain ⟨h0, h1⟩ := recip_ok h
  have hp : (0 : ℝ) < 2 ^ f := by positivity
  have h0' : (a.bits.toInt : ℝ) ≠ 0 := by exact_mod_cast h0
  refine ⟨div_ne_zero h0' hp.ne', ?_⟩
  have e : d.val = ((Int.tdiv (2 ^ (2 * f)) a.bits.toInt : Int) : ℝ) / 2 ^ f := by
    unfold val; rw [h1, toInt_of_inRange hr]
  have e2 : (a.val)⁻¹ = (((2 ^ (2 * f) : Int) : ℝ) / a.bits.toInt) / 2 ^ f := by
    unfold val; push_cast; generalize (a.bits.toInt : ℝ) = v at h0' ⊢; rw [two_mul, pow_add]; field_simp
  rw [e, e2, ← sub_div, abs_div, abs_of_pos hp]
  exact (div_le_div_iff_of_pos_right hp).2 (tdiv_err _ _ h0)

theorem sqrt_nat_err (k : Nat) : (Nat.sqrt k : ℝ) ≤ √(k : ℝ) ∧ √(k : ℝ) < (Nat.sqrt k : ℝ) + 1 := by
  constructor
  · apply Real.le_sqrt_of_sq_le
    exact_mod_cast Nat.sqrt_le' k
  · rw [Real.sqrt_lt' (by positivity)]
    exact_mod_cast Nat.lt_succ_sqrt' k

theorem sqrt_ok {a q : FixedPoint f} (h : MDT.squareRoot a = .ok q) :
    0 ≤ a.bits.toInt ∧ q.bits = BitVec.ofNat (2 * f) (Nat.sqrt (a.bits.toInt.toNat * 2 ^ f)) := by
  simp only [MDT.squareRoot] at h
  split at h
  · cases h
  · cases h; exact ⟨by omega, rfl⟩

theorem sqrt_inRange (hf : 1 ≤ f) {a : FixedPoint f} : InRange f (Nat.sqrt (a.bits.toInt.toNat * 2 ^ f)) := by
  have h1 := (inRange_toInt a).2
  have hp : (0 : Int) < 2 ^ (2 * f) := by positivity
  refine ⟨by omega, ?_⟩
  have h2 : 2 * a.bits.toInt.toNat < 2 ^ (2 * f) := by
    by_cases h0 : 0 ≤ a.bits.toInt
    · zify; rw [Int.toNat_of_nonneg h0]; exact h1
    · have : a.bits.toInt.toNat = 0 := by omega
      rw [this]; positivity
  have h3 : 2 * Nat.sqrt (a.bits.toInt.toNat * 2 ^ f) < 2 ^ (2 * f) := by
    have hs : Nat.sqrt (a.bits.toInt.toNat * 2 ^ f) < 2 ^ (2 * f - 1) := by
      rw [Nat.sqrt_lt']
      have e1 : 2 ^ (2 * f) = 2 * 2 ^ (2 * f - 1) := by
        rw [← pow_succ', show 2 * f - 1 + 1 = 2 * f by omega]
      have h5 : a.bits.toInt.toNat < 2 ^ (2 * f - 1) := by omega
      calc a.bits.toInt.toNat * 2 ^ f < 2 ^ (2 * f - 1) * 2 ^ f := Nat.mul_lt_mul_of_pos_right h5 (by positivity)
        _ ≤ 2 ^ (2 * f - 1) * 2 ^ (2 * f - 1) := Nat.mul_le_mul_left _ (Nat.pow_le_pow_right (by norm_num) (by omega))
        _ = _ := by rw [sq]
    have e1 : 2 ^ (2 * f) = 2 * 2 ^ (2 * f - 1) := by
      rw [← pow_succ', show 2 * f - 1 + 1 = 2 * f by omega]
    omega
  exact_mod_cast h3

theorem safeRoots (hf : 1 ≤ f) : SafeRoots (FixedPoint f) := by
  constructor
  intro x hx
  have hpos : 0 < x.bits.toInt := by
    have : ¬ (x.bits.toInt ≤ (0 : BitVec (2 * f)).toInt) := by
      simp only [MDT.le, decide_eq_false_iff_not] at hx
      exact hx
    simpa using this
  refine ⟨⟨BitVec.ofNat _ (Nat.sqrt (x.bits.toInt.toNat * 2 ^ f))⟩,
    ⟨BitVec.ofInt _ (Int.tdiv (2 ^ (2 * f)) (BitVec.ofNat (2 * f) (Nat.sqrt (x.bits.toInt.toNat * 2 ^ f))).toInt)⟩, ?_, ?_⟩
  · have : ¬ x.bits.toInt < 0 := by omega
    simp only [MDT.squareRoot, if_neg this]
  · have h1 : 0 < Nat.sqrt (x.bits.toInt.toNat * 2 ^ f) := Nat.sqrt_pos.mpr (Nat.mul_pos (by omega) (by positivity))
    have hq : (BitVec.ofNat (2 * f) (Nat.sqrt (x.bits.toInt.toNat * 2 ^ f))).toInt =
        Nat.sqrt (x.bits.toInt.toNat * 2 ^ f) := by
      have := toInt_of_inRange (sqrt_inRange hf (a := x))
      rwa [BitVec.ofInt_natCast] at this
    have : ¬ (BitVec.ofNat (2 * f) (Nat.sqrt (x.bits.toInt.toNat * 2 ^ f))).toInt = 0 := by omega
    simp only [MDT.recip, if_neg this]

theorem sqrt_err (hf : 1 ≤ f) {a q : FixedPoint f} (h : MDT.squareRoot a = .ok q) :
    0 ≤ a.val ∧ q.val ≤ √(a.val) ∧ √(a.val) < q.val + 1 / 2 ^ f := by
  obtain ⟨h0, h1⟩ := sqrt_ok h
  have hp : (0 : ℝ) < 2 ^ f := by positivity
  have h0' : (0 : ℝ) ≤ a.bits.toInt := by exact_mod_cast h0
  have hq : q.bits.toInt = Nat.sqrt (a.bits.toInt.toNat * 2 ^ f) := by
    have := toInt_of_inRange (sqrt_inRange hf (a := a))
    rw [BitVec.ofInt_natCast] at this
    rw [h1, this]
  have e : √(a.val) = √((a.bits.toInt.toNat * 2 ^ f : Nat) : ℝ) / 2 ^ f := by
    have : a.val = ((a.bits.toInt.toNat * 2 ^ f : Nat) : ℝ) / (2 ^ f) ^ 2 := by
      unfold val
      have hn : ((a.bits.toInt.toNat : Nat) : ℝ) = a.bits.toInt := by
        have := Int.toNat_of_nonneg h0
        exact_mod_cast this
      push_cast
      rw [hn]; field_simp
    rw [this, Real.sqrt_div (by positivity), Real.sqrt_sq hp.le]
  have e' : q.val = (Nat.sqrt (a.bits.toInt.toNat * 2 ^ f) : ℝ) / 2 ^ f := by
    unfold val; rw [hq]; simp
  obtain ⟨s1, s2⟩ := sqrt_nat_err (a.bits.toInt.toNat * 2 ^ f)
  refine ⟨div_nonneg h0' hp.le, ?_, ?_⟩
  · rw [e, e']; exact (div_le_div_iff_of_pos_right hp).2 s1
  · rw [e, e', ← add_div]; exact (div_lt_div_iff_of_pos_right hp).2 s2

theorem le_iff {a b : FixedPoint f} : MDT.le a b = true ↔ a.val ≤ b.val := by
  have hp : (0 : ℝ) < 2 ^ f := by positivity
  simp only [MDT.le, decide_eq_true_eq, val]
  rw [div_le_div_iff_of_pos_right hp]
  exact_mod_cast Iff.rfl

theorem toInt_zero : (0 : FixedPoint f).bits.toInt = 0 := by
  show (0 : BitVec (2 * f)).toInt = 0
  simp

/-! ## Which results fit -/

theorem inRange_of_real (hf : 1 ≤ f) {z : Int} {x : ℝ} (h1 : |x| < 2 ^ f / 2) (h2 : (z : ℝ) / 2 ^ f ≤ x)
    (h3 : x - 1 / 2 ^ f < (z : ℝ) / 2 ^ f) : InRange f z := by
  have hp : (0 : ℝ) < 2 ^ f := by positivity
  rw [abs_lt] at h1
  have e : (2 : ℝ) ^ (2 * f) = 2 ^ f * 2 ^ f := by rw [two_mul, pow_add]
  have k1 : (z : ℝ) ≤ x * 2 ^ f := by rwa [div_le_iff₀ hp] at h2
  have k2 : x * 2 ^ f - 1 < z := by
    have := (lt_div_iff₀ hp).1 h3
    rw [sub_mul, one_div, inv_mul_cancel₀ hp.ne'] at this
    exact this
  obtain ⟨g, hg⟩ : ∃ g : Int, (2 : Int) ^ (2 * f) = 2 * g := ⟨2 ^ (2 * f - 1), by rw [← pow_succ', show 2 * f - 1 + 1 = 2 * f by omega]⟩
  have hg' : (2 : ℝ) ^ f * 2 ^ f = 2 * g := by rw [← e]; exact_mod_cast hg
  unfold InRange
  rw [hg]
  constructor
  · have : (-(g : ℝ)) - 1 < z := by nlinarith
    have : -g - 1 < z := by exact_mod_cast this
    omega
  · have : (z : ℝ) < g := by nlinarith
    have : z < g := by exact_mod_cast this
    omega

theorem inRange_exact (hf : 1 ≤ f) {z : Int} (h : |(z : ℝ) / 2 ^ f| < 2 ^ f / 2) : InRange f z :=
  inRange_of_real hf h le_rfl (by have : (0 : ℝ) < 1 / 2 ^ f := by positivity
                                  linarith)

theorem inRange_add (hf : 1 ≤ f) {a b : FixedPoint f} (h : |a.val + b.val| < 2 ^ f / 2) :
    InRange f (a.bits.toInt + b.bits.toInt) := by
  refine inRange_exact hf ?_
  unfold val at h
  push_cast
  rwa [add_div]

theorem inRange_mul (hf : 1 ≤ f) {a b : FixedPoint f} (h : |a.val * b.val| < 2 ^ f / 2) :
    InRange f (a.bits.toInt * b.bits.toInt / 2 ^ f) := by
  have hp' : (0 : ℝ) < 2 ^ f := by positivity
  have := floor_bounds (f := f) (a.bits.toInt * b.bits.toInt)
  have e : a.val * b.val = ((a.bits.toInt * b.bits.toInt : Int) : ℝ) / 2 ^ f / 2 ^ f := by
    unfold val; push_cast; field_simp
  refine inRange_of_real hf h ?_ ?_
  · rw [e]; exact (div_le_div_iff_of_pos_right hp').2 this.1
  · rw [e, ← sub_div]; exact (div_lt_div_iff_of_pos_right hp').2 this.2

theorem abs_val_le (a : FixedPoint f) : |a.val| ≤ 2 ^ f / 2 := by
  have hp : (0 : ℝ) < 2 ^ f := by positivity
  obtain ⟨h1, h2⟩ := inRange_toInt a
  have h1' : -(2 : ℝ) ^ (2 * f) ≤ 2 * a.bits.toInt := by exact_mod_cast h1
  have h2' : 2 * (a.bits.toInt : ℝ) < 2 ^ (2 * f) := by exact_mod_cast h2
  have e : (2 : ℝ) ^ (2 * f) = 2 ^ f * 2 ^ f := by rw [two_mul, pow_add]
  rw [e] at h1' h2'
  unfold val
  rw [abs_div, abs_of_pos hp, div_le_iff₀ hp, abs_le]
  constructor <;> nlinarith

end FixedPoint

/-! ## Watched numbers -/

namespace Watched

theorem add_clean {a b : Watched f} : (a + b).clean = true ↔
    a.clean = true ∧ b.clean = true ∧ InRange f (a.num.bits.toInt + b.num.bits.toInt) := by
  show (a.clean && b.clean && decide _) = true ↔ _
  simp [and_assoc]

theorem sub_clean {a b : Watched f} : (a - b).clean = true ↔
    a.clean = true ∧ b.clean = true ∧ InRange f (a.num.bits.toInt - b.num.bits.toInt) := by
  show (a.clean && b.clean && decide _) = true ↔ _
  simp [and_assoc]

theorem mul_clean {a b : Watched f} : (a * b).clean = true ↔
    a.clean = true ∧ b.clean = true ∧ InRange f (a.num.bits.toInt * b.num.bits.toInt / 2 ^ f) := by
  show (a.clean && b.clean && decide _) = true ↔ _
  simp [and_assoc]

theorem neg_clean {a : Watched f} : (-a).clean = true ↔ a.clean = true ∧ InRange f (-a.num.bits.toInt) := by
  show (a.clean && decide _) = true ↔ _
  simp

theorem map_ok {α β : Type} {g : α → β} {x : Res α} {y : β} (h : x.map g = .ok y) : ∃ a, x = .ok a ∧ g a = y := by
  cases x with
  | error e => cases h
  | ok a => exact ⟨a, rfl, by cases h; rfl⟩

/-- Clean watched numbers are numbers with an absolute error of at most the resolution in products, roots, reciprocals, and no
error in sums. -/
noncomputable def rounded (hf : 2 ≤ f) : RoundedInverse (Watched f) where
  fin a := a.clean = true
  val a := a.num.val
  u := 0
  η := 1 / 2 ^ f
  u_nonneg := le_rfl
  η_nonneg := by positivity
  fin_zero := rfl
  val_zero := FixedPoint.val_zero
  add_err a b h := by
    obtain ⟨h1, h2, h3⟩ := add_clean.1 h
    refine ⟨h1, h2, ?_⟩
    show |(a.num + b.num).val - _| ≤ _
    rw [FixedPoint.val_add h3]; simp
  sub_err a b h := by
    obtain ⟨h1, h2, h3⟩ := sub_clean.1 h
    refine ⟨h1, h2, ?_⟩
    show |(a.num - b.num).val - _| ≤ _
    rw [FixedPoint.val_sub h3]; simp
  mul_err a b h := by
    obtain ⟨h1, h2, h3⟩ := mul_clean.1 h
    refine ⟨h1, h2, ?_⟩
    rw [zero_mul, zero_add]
    exact FixedPoint.val_mul_err h3
  sqrt_err a q h hq := by
    obtain ⟨p, hp, rfl⟩ := map_ok h
    have h1 : a.clean = true := by
      have : (a.clean && decide _) = true := hq
      rw [Bool.and_eq_true] at this
      exact this.1
    obtain ⟨_, h2, h3⟩ := FixedPoint.sqrt_err (by omega) hp
    refine ⟨h1, ?_⟩
    rw [zero_mul, zero_add, abs_le]
    show -_ ≤ p.val - _ ∧ p.val - _ ≤ _
    have : (0 : ℝ) < 1 / 2 ^ f := by positivity
    constructor <;> linarith
  recip_err a d h _ hd := by
    obtain ⟨p, hp, rfl⟩ := map_ok h
    have h1 : InRange f (Int.tdiv (2 ^ (2 * f)) a.num.bits.toInt) := by
      have : (a.clean && decide _) = true := hd
      rw [Bool.and_eq_true, decide_eq_true_eq] at this
      exact this.2
    rw [zero_mul, zero_add]
    exact FixedPoint.recip_err hp h1
  le_zero a _ h := by
    by_contra hc
    have : MDT.le a.num 0 = true := by
      rw [FixedPoint.le_iff, FixedPoint.val_zero]; exact not_lt.1 hc
    exact Bool.false_ne_true (h.symm.trans this)
  fin_one := rfl
  val_one := FixedPoint.val_one hf
  neg_err a h := by
    obtain ⟨h1, h2⟩ := neg_clean.1 h
    exact ⟨h1, FixedPoint.val_neg h2⟩
  isum_eq := ⟨0, rfl, FixedPoint.val_zero, fun _ => rfl⟩

/-- Forgetting the mark respects all operations. -/
theorem scalarRel : ScalarRel (fun (w : Watched f) (a : FixedPoint f) => w.num = a) where
  zero := rfl
  one := rfl
  add h1 h2 := by subst h1; subst h2; rfl
  sub h1 h2 := by subst h1; subst h2; rfl
  mul h1 h2 := by subst h1; subst h2; rfl
  neg h := by subst h; rfl
  recip {a b} h := by
    subst h
    show Res.Related _ ((MDT.recip a.num).map _) _
    cases MDT.recip a.num with
    | error e => rfl
    | ok d => rfl
  squareRoot {a b} h := by
    subst h
    show Res.Related _ ((MDT.squareRoot a.num).map _) _
    cases MDT.squareRoot a.num with
    | error e => rfl
    | ok d => rfl
  le h1 h2 := by subst h1; subst h2; rfl
  isum {l l'} h := by
    have key : ∀ (l : List (Watched f)) (l' : List (FixedPoint f)) (a : Watched f) (b : FixedPoint f),
        List.Forall₂ (fun w a => w.num = a) l l' → a.num = b →
        (l.foldl (· + ·) a).num = l'.foldl (· + ·) b := by
      intro l l' a b h
      induction h generalizing a b with
      | nil => intro h; exact h
      | cons h0 _ ih => intro h; exact ih _ _ (by subst h0; subst h; rfl)
    exact key l l' 0 0 h rfl

/-! ## Ranges -/

theorem mul_fits (hf : 1 ≤ f) {a b : Watched f} (ha : a.clean = true) (hb : b.clean = true)
    (h : |a.num.val * b.num.val| < 2 ^ f / 2) :
    (a * b).clean = true ∧ |(a * b).num.val - a.num.val * b.num.val| ≤ 1 / 2 ^ f :=
  have h3 := FixedPoint.inRange_mul hf h
  ⟨mul_clean.2 ⟨ha, hb, h3⟩, FixedPoint.val_mul_err h3⟩

theorem add_fits (hf : 1 ≤ f) {a b : Watched f} (ha : a.clean = true) (hb : b.clean = true)
    (h : |a.num.val + b.num.val| < 2 ^ f / 2) : (a + b).clean = true ∧ (a + b).num.val = a.num.val + b.num.val :=
  have h3 := FixedPoint.inRange_add hf h
  ⟨add_clean.2 ⟨ha, hb, h3⟩, FixedPoint.val_add h3⟩

theorem foldl_fits (hf : 1 ≤ f) {k : Nat} {v w : Fin k → Watched f} {init : Watched f} (hi : init.clean = true)
    (hv : ∀ i, (v i).clean = true) (hw : ∀ i, (w i).clean = true)
    (h : |init.num.val| + (∑ i, |(v i).num.val| * |(w i).num.val|) + k * (1 / 2 ^ f) < 2 ^ f / 2) :
    (Spec.dotFrom init v w).clean = true := by
  have hη : (0 : ℝ) < 1 / 2 ^ f := by positivity
  have key : (Spec.dotFrom init v w).clean = true ∧
      |(Spec.dotFrom init v w).num.val| ≤ |init.num.val| + (∑ i, |(v i).num.val| * |(w i).num.val|) + k * (1 / 2 ^ f) := by
    unfold Spec.dotFrom
    induction k with
    | zero => simp [hi]
    | succ k ih =>
      rw [Fin.sum_univ_castSucc] at h ⊢
      have hs : 0 ≤ ∑ i : Fin k, |(v i.castSucc).num.val| * |(w i.castSucc).num.val| :=
        Finset.sum_nonneg fun i _ => mul_nonneg (abs_nonneg _) (abs_nonneg _)
      have hl : 0 ≤ |(v (Fin.last k)).num.val| * |(w (Fin.last k)).num.val| := mul_nonneg (abs_nonneg _) (abs_nonneg _)
      have hk : (0 : ℝ) ≤ k * (1 / 2 ^ f) := by positivity
      push_cast at h ⊢
      obtain ⟨i1, i2⟩ := ih (v := fun i => v i.castSucc) (w := fun i => w i.castSucc) (fun i => hv _) (fun i => hw _)
        (by linarith [add_mul (k : ℝ) 1 (1 / 2 ^ f)])
      rw [Fin.foldl_succ_last]
      generalize Fin.foldl k (fun acc i => acc + v i.castSucc * w i.castSucc) init = g at i1 i2 ⊢
      obtain ⟨m1, m2⟩ := mul_fits hf (hv (Fin.last k)) (hw (Fin.last k)) (by
        rw [abs_mul]; linarith [abs_nonneg init.num.val, add_mul (k : ℝ) 1 (1 / 2 ^ f)])
      have m3 : |(v (Fin.last k) * w (Fin.last k)).num.val| ≤
          |(v (Fin.last k)).num.val| * |(w (Fin.last k)).num.val| + 1 / 2 ^ f := by
        have := abs_sub_abs_le_abs_sub (v (Fin.last k) * w (Fin.last k)).num.val
          ((v (Fin.last k)).num.val * (w (Fin.last k)).num.val)
        rw [abs_mul] at this; linarith
      have s := abs_add_le g.num.val (v (Fin.last k) * w (Fin.last k)).num.val
      obtain ⟨a1, a2⟩ := add_fits hf i1 m1 (by linarith [add_mul (k : ℝ) 1 (1 / 2 ^ f)])
      refine ⟨a1, ?_⟩
      rw [a2]; linarith [add_mul (k : ℝ) 1 (1 / 2 ^ f)]
  exact key.1

theorem dotFirst_fits (hf : 1 ≤ f) {k : Nat} {v w : Fin k → Watched f}
    (hv : ∀ i, (v i).clean = true) (hw : ∀ i, (w i).clean = true)
    (h : (∑ i, |(v i).num.val| * |(w i).num.val|) + k * (1 / 2 ^ f) < 2 ^ f / 2) :
    (Spec.dotFirst v w).clean = true := by
  have hη : (0 : ℝ) < 1 / 2 ^ f := by positivity
  cases k with
  | zero => rfl
  | succ k =>
    rw [Fin.sum_univ_succ] at h
    have hs : 0 ≤ ∑ i : Fin k, |(v i.succ).num.val| * |(w i.succ).num.val| :=
      Finset.sum_nonneg fun i _ => mul_nonneg (abs_nonneg _) (abs_nonneg _)
    have hk : (0 : ℝ) ≤ k * (1 / 2 ^ f) := by positivity
    push_cast at h
    obtain ⟨m1, m2⟩ := mul_fits hf (hv 0) (hw 0) (by rw [abs_mul]; linarith [add_mul (k : ℝ) 1 (1 / 2 ^ f)])
    have m3 : |(v 0 * w 0).num.val| ≤ |(v 0).num.val| * |(w 0).num.val| + 1 / 2 ^ f := by
      have := abs_sub_abs_le_abs_sub (v 0 * w 0).num.val ((v 0).num.val * (w 0).num.val)
      rw [abs_mul] at this; linarith
    exact foldl_fits hf (v := fun i => v i.succ) (w := fun i => w i.succ) m1 (fun i => hv _) (fun i => hw _)
      (by linarith [add_mul (k : ℝ) 1 (1 / 2 ^ f)])

end Watched
end Minikalman
