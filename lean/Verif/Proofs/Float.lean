import Verif.Spec.Float
import Verif.Spec.RoundingInv
import Mathlib.Tactic.Linarith
import Mathlib.Tactic.Ring
import Mathlib.Tactic.Positivity
import Mathlib.Tactic.FieldSimp
import Mathlib.Analysis.Real.Sqrt

/-!
# Floating point arithmetic rounds correctly
-/

namespace Minikalman

variable {fmt : Format}

namespace Format

theorem gap_spec (t : Nat) : t / 2 ^ fmt.gap t < 2 ^ fmt.prec ∧ (fmt.gap t = 0 ∨ 2 ^ (fmt.prec - 1) ≤ t / 2 ^ fmt.gap t) := by
  have h2 := fmt.two_le
  have hlt : t < 2 ^ (t.log2 + 1) := Nat.lt_log2_self
  rw [gap_def]
  rcases Nat.lt_or_ge fmt.prec (t.log2 + 1) with h | h
  · have ht : t ≠ 0 := by
      rintro rfl
      rw [Nat.log2_zero] at h
      omega
    have hle : 2 ^ t.log2 ≤ t := Nat.log2_self_le ht
    refine ⟨?_, Or.inr ?_⟩
    · rw [Nat.div_lt_iff_lt_mul (Nat.two_pow_pos _), ← Nat.pow_add]
      rwa [show fmt.prec + (t.log2 + 1 - fmt.prec) = t.log2 + 1 by omega]
    · rw [Nat.le_div_iff_mul_le (Nat.two_pow_pos _), ← Nat.pow_add]
      rwa [show fmt.prec - 1 + (t.log2 + 1 - fmt.prec) = t.log2 by omega]
  · rw [show t.log2 + 1 - fmt.prec = 0 by omega, Nat.pow_zero, Nat.div_one]
    exact ⟨hlt.trans_le (Nat.pow_le_pow_right (by decide) h), Or.inl rfl⟩

/-- The spacing at `m * 2^s` is at most `2^s` if `m` has at most `prec` bits. -/
theorem gap_le {m s : Nat} (h : m < 2 ^ fmt.prec) : fmt.gap (m * 2 ^ s) ≤ s := by
  rw [gap_def]
  rcases Nat.eq_zero_or_pos m with rfl | hm
  · have := fmt.two_le
    rw [Nat.zero_mul, Nat.log2_zero]; omega
  · have : (m * 2 ^ s).log2 < fmt.prec + s := by
      rw [Nat.log2_lt (Nat.mul_pos hm (Nat.two_pow_pos _)).ne', Nat.pow_add]
      exact Nat.mul_lt_mul_of_pos_right h (Nat.two_pow_pos _)
    omega

theorem gap_pow (s : Nat) : fmt.gap (2 ^ fmt.prec * 2 ^ s) = s + 1 := by
  rw [gap_def, ← Nat.pow_add, Nat.log2_two_pow]; omega

theorem rep_mul {m s : Nat} (hm : m ≤ 2 ^ fmt.prec) (h : m * 2 ^ s < 2 ^ fmt.top) : fmt.Rep (m * 2 ^ s) := by
  refine ⟨h, ?_⟩
  rcases Nat.lt_or_ge m (2 ^ fmt.prec) with h1 | h1
  · exact (Nat.pow_dvd_pow 2 (gap_le h1)).trans (Nat.dvd_mul_left _ _)
  · obtain rfl := le_antisymm hm h1
    have := fmt.two_le
    rw [gap_pow, ← Nat.pow_add]
    exact Nat.pow_dvd_pow 2 (by omega)

theorem even_mul {m s : Nat} (hm : m ≤ 2 ^ fmt.prec) (h : m % 2 = 0) : 2 ^ (fmt.gap (m * 2 ^ s) + 1) ∣ m * 2 ^ s := by
  rcases Nat.lt_or_ge m (2 ^ fmt.prec) with h1 | h1
  · refine (Nat.pow_dvd_pow 2 (Nat.succ_le_succ (gap_le h1))).trans ?_
    rw [Nat.pow_succ, Nat.mul_comm]
    exact Nat.mul_dvd_mul (Nat.dvd_of_mod_eq_zero h) (Nat.dvd_refl _)
  · obtain rfl := le_antisymm hm h1
    have := fmt.two_le
    rw [gap_pow, ← Nat.pow_add]
    exact Nat.pow_dvd_pow 2 (by omega)

/-- There is no number strictly between two neighbours. -/
theorem rep_between {k s f : Nat} (hk : fmt.Rep k) (hs : s = 0 ∨ 2 ^ (fmt.prec - 1) ≤ f) :
    k ≤ f * 2 ^ s ∨ (f + 1) * 2 ^ s ≤ k := by
  by_contra hc
  rw [not_or, not_le, not_le] at hc
  obtain ⟨h1, h2⟩ := hc
  have hs' : s ≤ fmt.gap k := by
    rcases hs with rfl | hs
    · exact Nat.zero_le _
    · have h3 : 2 ^ (fmt.prec - 1 + s) ≤ k := by
        rw [Nat.pow_add]
        exact (Nat.mul_le_mul_right _ hs).trans h1.le
      have h4 : fmt.prec - 1 + s ≤ k.log2 := by
        rw [Nat.le_log2]
        · exact h3
        · exact (lt_of_lt_of_le (Nat.two_pow_pos _) h3).ne'
      have := fmt.two_le
      rw [gap_def]
      omega
  obtain ⟨q, rfl⟩ := (Nat.pow_dvd_pow 2 hs').trans hk.2
  rw [Nat.mul_comm (2 ^ s) q] at h1 h2
  have a := Nat.lt_of_mul_lt_mul_right h1
  have b := Nat.lt_of_mul_lt_mul_right h2
  omega

end Format

namespace Bin

/-- Number of units with sign, as a real number. -/
noncomputable def sgn (neg : Bool) (x : ℝ) : ℝ := if neg then -x else x

theorem sgn_abs (neg : Bool) (x : ℝ) : |sgn neg x| = |x| := by cases neg <;> simp [sgn]

theorem sgn_sub (neg : Bool) (x y : ℝ) : |sgn neg x - sgn neg y| = |x - y| := by
  cases neg
  · simp [sgn]
  · rw [sgn, sgn, if_pos rfl, if_pos rfl, ← abs_neg]; congr 1; ring

theorem sgn_sub' (neg : Bool) (x y : ℝ) : |x - sgn neg y| = |sgn neg x - y| := by
  cases neg
  · simp [sgn]
  · rw [sgn, sgn, if_pos rfl, if_pos rfl, ← abs_neg]; congr 1; ring

theorem val_fin (s : Bool) (k : Nat) (h : fmt.Rep k) : (Bin.fin s k h).val = sgn s k / 2 ^ fmt.frac := rfl

/-- The integer chosen by `settle`. -/
def pick (f : Nat) : Ordering → Nat
  | .lt => f
  | .eq => f + f % 2
  | .gt => f + 1

theorem settle_eq (neg : Bool) (s f : Nat) (mid : Ordering) : (settle neg s f mid : Bin fmt) =
    if h : fmt.Rep (pick f mid * 2 ^ s) then .fin neg (pick f mid * 2 ^ s) h else .inf neg := by
  cases mid <;> rfl

/-- The situation in which `settle` is called: `x` lies between two neighbours, and `mid` compares it with the midpoint. -/
structure Between (fmt : Format) (x : ℝ) (s f : Nat) (mid : Ordering) : Prop where
  lo : (f : ℝ) * 2 ^ s ≤ x
  hi : x < (f + 1) * 2 ^ s
  lt : f < 2 ^ fmt.prec
  norm : s = 0 ∨ 2 ^ (fmt.prec - 1) ≤ f
  mid_lt : mid = .lt → 2 * x < (2 * f + 1) * 2 ^ s
  mid_eq : mid = .eq → 2 * x = (2 * f + 1) * 2 ^ s
  mid_gt : mid = .gt → (2 * f + 1) * 2 ^ s < 2 * x

namespace Between
variable {x : ℝ} {s f : Nat} {mid : Ordering}

theorem pick_cases (h : Between fmt x s f mid) :
    (pick f mid = f ∧ 2 * x ≤ (2 * f + 1) * 2 ^ s) ∨ (pick f mid = f + 1 ∧ (2 * f + 1) * 2 ^ s ≤ 2 * x) := by
  cases mid with
  | lt => exact Or.inl ⟨rfl, (h.mid_lt rfl).le⟩
  | gt => exact Or.inr ⟨rfl, (h.mid_gt rfl).le⟩
  | eq =>
    rcases Nat.mod_two_eq_zero_or_one f with e | e
    · exact Or.inl ⟨by simp [pick, e], (h.mid_eq rfl).le⟩
    · exact Or.inr ⟨by simp [pick, e], (h.mid_eq rfl).ge⟩

theorem pick_le (h : Between fmt x s f mid) : pick f mid ≤ 2 ^ fmt.prec := by
  have := h.lt
  rcases h.pick_cases with ⟨e, _⟩ | ⟨e, _⟩ <;> omega

/-- Half the spacing. -/
theorem pick_err (h : Between fmt x s f mid) : 2 * |((pick f mid * 2 ^ s : Nat) : ℝ) - x| ≤ 2 ^ s := by
  push_cast
  rw [show (2 : ℝ) * |(pick f mid : ℝ) * 2 ^ s - x| = |2 * ((pick f mid : ℝ) * 2 ^ s - x)| by rw [abs_mul]; norm_num, abs_le]
  have h1 := h.lo
  have h2 := h.hi
  rcases h.pick_cases with ⟨e, h3⟩ | ⟨e, h3⟩
  · rw [e]
    constructor <;> nlinarith
  · rw [e]
    push_cast
    constructor <;> nlinarith

theorem finite_iff (h : Between fmt x s f mid) :
    pick f mid * 2 ^ s < 2 ^ fmt.top ↔ x < 2 ^ fmt.top * (1 - 1 / 2 ^ (fmt.prec + 1)) := by
  have h0 := h.lo
  have h1 := h.hi
  have hp2 : (0 : ℝ) < 2 ^ (fmt.prec + 1) := by positivity
  have hs0 : (0 : ℝ) < 2 ^ s := by positivity
  have ht0 : (0 : ℝ) < 2 ^ fmt.top := by positivity
  have hpk : f ≤ pick f mid := by
    rcases h.pick_cases with ⟨e, _⟩ | ⟨e, _⟩ <;> omega
  rcases Nat.lt_or_ge (f * 2 ^ s) (2 ^ fmt.top) with hf | hf
  · have hse : fmt.prec + s ≤ fmt.top := by
      rcases h.norm with hs | hs
      · have := fmt.prec_le; omega
      · have h2 : 2 ^ (fmt.prec - 1 + s) < 2 ^ fmt.top := by
          rw [Nat.pow_add]
          exact lt_of_le_of_lt (Nat.mul_le_mul_right _ hs) hf
        have h3 := (Nat.pow_lt_pow_iff_right (by decide : 1 < 2)).1 h2
        have := fmt.two_le
        omega
    obtain ⟨e, he⟩ := Nat.exists_eq_add_of_le hse
    have hfp : (f : ℝ) + 1 ≤ 2 ^ fmt.prec := by exact_mod_cast h.lt
    rcases Nat.eq_zero_or_pos e with rfl | hpos
    · rw [Nat.add_zero] at he
      have e1 : (2 : ℝ) ^ fmt.top * (1 - 1 / 2 ^ (fmt.prec + 1)) = (2 ^ fmt.prec - 1 / 2) * 2 ^ s := by
        rw [he, pow_add, pow_succ]; field_simp
      rw [e1, he, Nat.pow_add, Nat.mul_lt_mul_right (Nat.two_pow_pos _)]
      constructor
      · intro hk
        have hk' : (pick f mid : ℝ) + 1 ≤ 2 ^ fmt.prec := by exact_mod_cast hk
        cases mid with
        | lt =>
          have h2 := h.mid_lt rfl
          nlinarith
        | gt =>
          have : (pick f .gt : ℝ) = f + 1 := by simp [pick]
          rw [this] at hk'
          nlinarith
        | eq =>
          have h2 := h.mid_eq rfl
          have hev : (2 : Nat) ^ fmt.prec % 2 = 0 := by
            obtain ⟨q, hq⟩ := Nat.exists_eq_add_of_le fmt.two_le
            rw [hq, Nat.pow_add]; omega
          have hlt : f + 1 < 2 ^ fmt.prec := by
            have := h.lt
            simp only [pick] at hk
            omega
          have hlt' : (f : ℝ) + 1 + 1 ≤ 2 ^ fmt.prec := by exact_mod_cast hlt
          nlinarith
      · intro hx
        rcases h.pick_cases with ⟨e, _⟩ | ⟨e, h3⟩
        · rw [e]; exact h.lt
        · by_contra hc
          have : f + 1 = 2 ^ fmt.prec := by have := h.lt; omega
          have h4 : (f : ℝ) + 1 = 2 ^ fmt.prec := by exact_mod_cast this
          nlinarith
    · have e2 : (2 : ℝ) * (2 ^ fmt.prec * 2 ^ s) ≤ 2 ^ fmt.top := by
        rw [he, pow_add, pow_add]
        have : (2 : ℝ) ^ 1 ≤ 2 ^ e := pow_le_pow_right₀ (by norm_num) hpos
        have h5 : (0 : ℝ) < 2 ^ fmt.prec * 2 ^ s := by positivity
        nlinarith
      have e3 : (1 : ℝ) / 2 ≤ 1 - 1 / 2 ^ (fmt.prec + 1) := by
        have h6 : (2 : ℝ) ^ 1 ≤ 2 ^ (fmt.prec + 1) := pow_le_pow_right₀ (by norm_num) (by omega)
        have h7 : (1 : ℝ) / 2 ^ (fmt.prec + 1) ≤ 1 / 2 := by
          apply one_div_le_one_div_of_le (by norm_num); linarith
        linarith
      have h5 : (0 : ℝ) < 2 ^ fmt.prec * 2 ^ s := by positivity
      refine iff_of_true ?_ ?_
      · have : ((pick f mid * 2 ^ s : Nat) : ℝ) < ((2 ^ fmt.top : Nat) : ℝ) := by
          push_cast
          have h6 : (pick f mid : ℝ) ≤ 2 ^ fmt.prec := by exact_mod_cast h.pick_le
          nlinarith
        exact_mod_cast this
      · nlinarith
  · have hf' : (2 : ℝ) ^ fmt.top ≤ f * 2 ^ s := by exact_mod_cast hf
    refine iff_of_false (Nat.not_lt.2 (hf.trans (Nat.mul_le_mul_right _ hpk))) (not_lt.2 ?_)
    have : (0 : ℝ) < 1 / 2 ^ (fmt.prec + 1) := by positivity
    nlinarith

theorem rep_iff (h : Between fmt x s f mid) :
    fmt.Rep (pick f mid * 2 ^ s) ↔ x < 2 ^ fmt.top * (1 - 1 / 2 ^ (fmt.prec + 1)) :=
  ⟨fun hr => h.finite_iff.1 hr.1, fun hx => Format.rep_mul h.pick_le (h.finite_iff.2 hx)⟩

theorem nearest (h : Between fmt x s f mid) {w : ℝ} (hw : w ≤ f * 2 ^ s ∨ (f + 1) * 2 ^ s ≤ w) :
    |((pick f mid * 2 ^ s : Nat) : ℝ) - x| ≤ |w - x| ∧
      (|w - x| = |((pick f mid * 2 ^ s : Nat) : ℝ) - x| → w = ((pick f mid * 2 ^ s : Nat) : ℝ) ∨ pick f mid % 2 = 0) := by
  have h0 := h.lo
  have h1 := h.hi
  push_cast
  have aw : (w ≤ f * 2 ^ s ∧ |w - x| = x - w) ∨ ((f + 1) * 2 ^ s ≤ w ∧ |w - x| = w - x) := by
    rcases hw with hw | hw
    · exact Or.inl ⟨hw, by rw [abs_of_nonpos (by linarith)]; ring⟩
    · exact Or.inr ⟨hw, by rw [abs_of_nonneg (by linarith)]⟩
  cases mid with
  | lt =>
    have h2 := h.mid_lt rfl
    have e : |(pick f .lt : ℝ) * 2 ^ s - x| = x - f * 2 ^ s := by
      rw [show pick f .lt = f from rfl, abs_of_nonpos (by linarith)]; ring
    rw [e]
    rcases aw with ⟨hw, ew⟩ | ⟨hw, ew⟩ <;> rw [ew]
    · exact ⟨by linarith, fun h => Or.inl (by rw [show pick f .lt = f from rfl]; linarith)⟩
    · exact ⟨by linarith, fun h => by exfalso; linarith⟩
  | gt =>
    have h2 := h.mid_gt rfl
    have e : |(pick f .gt : ℝ) * 2 ^ s - x| = (f + 1) * 2 ^ s - x := by
      rw [show pick f .gt = f + 1 from rfl, Nat.cast_add, Nat.cast_one, abs_of_nonneg (by linarith)]
    rw [e]
    rcases aw with ⟨hw, ew⟩ | ⟨hw, ew⟩ <;> rw [ew]
    · exact ⟨by linarith, fun h => by exfalso; linarith⟩
    · exact ⟨by linarith, fun h => Or.inl (by
        rw [show pick f .gt = f + 1 from rfl, Nat.cast_add, Nat.cast_one]; linarith)⟩
  | eq =>
    have h2 := h.mid_eq rfl
    refine ⟨?_, fun _ => Or.inr (by simp only [pick]; omega)⟩
    have e : |(pick f .eq : ℝ) * 2 ^ s - x| = x - f * 2 ^ s := by
      rcases Nat.mod_two_eq_zero_or_one f with e | e
      · rw [show pick f .eq = f by simp [pick, e], abs_of_nonpos (by linarith)]; ring
      · rw [show pick f .eq = f + 1 by simp [pick, e], Nat.cast_add, Nat.cast_one, abs_of_nonneg (by linarith)]
        linarith
    rw [e]
    rcases aw with ⟨hw, ew⟩ | ⟨hw, ew⟩ <;> rw [ew] <;> linarith

/-- Another number is not strictly between the neighbours. -/
theorem other (h : Between fmt x s f mid) (neg t : Bool) {k : Nat} (hk : fmt.Rep k) :
    sgn neg (sgn t k) ≤ f * 2 ^ s ∨ (f + 1) * 2 ^ s ≤ sgn neg (sgn t k) := by
  have hpos : (0 : ℝ) ≤ f * 2 ^ s := by positivity
  have hk0 : (0 : ℝ) ≤ k := Nat.cast_nonneg _
  have : sgn neg (sgn t k) = k ∨ sgn neg (sgn t k) = -k := by
    cases neg <;> cases t <;> simp [sgn]
  rcases this with e | e <;> rw [e]
  · rcases Format.rep_between hk h.norm with h1 | h1
    · exact Or.inl (by exact_mod_cast h1)
    · exact Or.inr (by exact_mod_cast h1)
  · exact Or.inl (by linarith)

theorem roundsTo (h : Between fmt x s f mid) (neg : Bool) :
    RoundsTo (sgn neg x / 2 ^ fmt.frac) (settle neg s f mid : Bin fmt) := by
  have hx0 : 0 ≤ x := le_trans (by positivity) h.lo
  have hfr : (0 : ℝ) < 2 ^ fmt.frac := by positivity
  have habs : |sgn neg x / 2 ^ fmt.frac| = x / 2 ^ fmt.frac := by
    rw [abs_div, sgn_abs, abs_of_nonneg hx0, abs_of_pos hfr]
  rw [settle_eq]
  by_cases hr : fmt.Rep (pick f mid * 2 ^ s)
  · rw [dif_pos hr]
    refine Or.inl ⟨?_, trivial, ?_⟩
    · rw [habs, Format.limit]
      exact (div_lt_div_iff_of_pos_right hfr).2 (h.rep_iff.1 hr)
    · intro y hy
      cases y with
      | nan => exact hy.elim
      | inf _ => exact hy.elim
      | fin t k hk =>
        have hn := h.nearest (h.other neg t hk)
        rw [val_fin, val_fin, ← sub_div, ← sub_div, abs_div, abs_div, sgn_sub, sgn_sub', abs_of_pos hfr]
        refine ⟨(div_le_div_iff_of_pos_right hfr).2 hn.1, fun e => ?_⟩
        rcases hn.2 ((div_left_inj' hfr.ne').1 e) with e | e
        · left
          rw [← e]
          cases neg <;> simp [sgn]
        · exact Or.inr (Format.even_mul h.pick_le e)
  · rw [dif_neg hr]
    have hx := not_lt.1 fun hc => hr (h.rep_iff.2 hc)
    have hl : fmt.limit ≤ x / 2 ^ fmt.frac := (div_le_div_iff_of_pos_right hfr).2 hx
    right
    cases neg
    · exact Or.inl ⟨by simpa [sgn] using hl, rfl⟩
    · exact Or.inr ⟨by simp only [sgn, if_true, neg_div]; linarith, rfl⟩

/-- Half the spacing is at most the relative error of `x`, or half a unit. -/
theorem error (h : Between fmt x s f mid) (neg : Bool) (hf : (settle neg s f mid : Bin fmt).Finite) :
    |(settle neg s f mid : Bin fmt).val - sgn neg x / 2 ^ fmt.frac| ≤
      1 / 2 ^ fmt.prec * |sgn neg x / 2 ^ fmt.frac| + 1 / 2 ^ (fmt.frac + 1) ∧
    ((∃ k : Nat, x = k) → |(settle neg s f mid : Bin fmt).val - sgn neg x / 2 ^ fmt.frac| ≤
      1 / 2 ^ fmt.prec * |sgn neg x / 2 ^ fmt.frac|) := by
  have hx0 : 0 ≤ x := le_trans (by positivity) h.lo
  have hfr : (0 : ℝ) < 2 ^ fmt.frac := by positivity
  have hpr : (0 : ℝ) < 2 ^ fmt.prec := by positivity
  have habs : |sgn neg x / 2 ^ fmt.frac| = x / 2 ^ fmt.frac := by
    rw [abs_div, sgn_abs, abs_of_nonneg hx0, abs_of_pos hfr]
  rw [settle_eq] at hf ⊢
  by_cases hr : fmt.Rep (pick f mid * 2 ^ s)
  · simp only [dif_pos hr]
    rw [habs, val_fin, ← sub_div, abs_div, sgn_sub, abs_of_pos hfr]
    have he := h.pick_err
    obtain ⟨d, hd⟩ : ∃ d, d = |((pick f mid * 2 ^ s : Nat) : ℝ) - x| := ⟨_, rfl⟩
    rw [← hd] at he ⊢
    have key : d ≤ 1 / 2 ^ fmt.prec * x + 1 / 2 ∧ ((∃ k : Nat, x = k) → d ≤ 1 / 2 ^ fmt.prec * x) := by
      have hpx : 0 ≤ 1 / 2 ^ fmt.prec * x := by positivity
      rcases h.norm with rfl | hs
      · refine ⟨by rw [pow_zero] at he; linarith, ?_⟩
        rintro ⟨k, rfl⟩
        have h1 : f ≤ k := by have := h.lo; rw [pow_zero, mul_one] at this; exact_mod_cast this
        have h2 : k < f + 1 := by have := h.hi; rw [pow_zero, mul_one] at this; exact_mod_cast this
        obtain rfl : f = k := by omega
        have hm : mid = .lt := by
          cases mid with
          | lt => rfl
          | eq =>
            have := h.mid_eq rfl
            rw [pow_zero] at this; exfalso; linarith
          | gt =>
            have := h.mid_gt rfl
            rw [pow_zero] at this; exfalso; linarith
        subst hm
        have : d = 0 := by rw [hd]; simp [pick]
        rw [this]; exact hpx
      · have h1 : (2 : ℝ) ^ (fmt.prec - 1) * 2 ^ s ≤ x := by
          refine le_trans ?_ h.lo
          have : (2 : ℝ) ^ (fmt.prec - 1) ≤ f := by exact_mod_cast hs
          exact mul_le_mul_of_nonneg_right this (by positivity)
        have h2 : (2 : ℝ) ^ fmt.prec = 2 * 2 ^ (fmt.prec - 1) := by
          rw [← pow_succ']; congr 1; have := fmt.two_le; omega
        have h3 : d ≤ 1 / 2 ^ fmt.prec * x := by
          rw [div_mul_eq_mul_div, one_mul, le_div_iff₀ hpr, h2]
          nlinarith [show (0 : ℝ) < 2 ^ (fmt.prec - 1) by positivity]
        exact ⟨by linarith, fun _ => h3⟩
    have e1 : (1 : ℝ) / 2 ^ fmt.prec * (x / 2 ^ fmt.frac) = 1 / 2 ^ fmt.prec * x / 2 ^ fmt.frac := by ring
    have e2 : (1 : ℝ) / 2 ^ (fmt.frac + 1) = 1 / 2 / 2 ^ fmt.frac := by rw [pow_succ]; field_simp
    rw [e1, e2, ← add_div]
    exact ⟨(div_le_div_iff_of_pos_right hfr).2 key.1, fun hk => (div_le_div_iff_of_pos_right hfr).2 (key.2 hk)⟩
  · simp only [dif_neg hr] at hf
    exact hf.elim

end Between

/-- Rounding of a fraction. -/
theorem round_between (fmt : Format) {a d : Nat} (hd : 0 < d) :
    Between fmt ((a : ℝ) / d) (fmt.gap (a / d)) (a / d / 2 ^ fmt.gap (a / d))
      (compare (2 * a) ((2 * (a / d / 2 ^ fmt.gap (a / d)) + 1) * 2 ^ fmt.gap (a / d) * d)) := by
  have hg := fmt.gap_spec (a / d)
  generalize fmt.gap (a / d) = s at hg ⊢
  have hd' : (0 : ℝ) < d := by exact_mod_cast hd
  obtain ⟨f, hf⟩ : ∃ f, f = a / d / 2 ^ s := ⟨_, rfl⟩
  rw [← hf] at hg ⊢
  rw [Nat.div_div_eq_div_mul] at hf
  have hpos : 0 < d * 2 ^ s := Nat.mul_pos hd (Nat.two_pow_pos _)
  have h1 : f * (d * 2 ^ s) ≤ a := by rw [hf]; exact Nat.div_mul_le_self _ _
  have h2 : a < (f + 1) * (d * 2 ^ s) := by
    rw [← Nat.div_lt_iff_lt_mul hpos, ← hf]; exact Nat.lt_succ_self _
  have h1' : (f : ℝ) * (d * 2 ^ s) ≤ a := by exact_mod_cast h1
  have h2' : (a : ℝ) < (f + 1) * (d * 2 ^ s) := by exact_mod_cast h2
  refine ⟨?_, ?_, hg.1, hg.2, fun h => ?_, fun h => ?_, fun h => ?_⟩
  · rw [le_div_iff₀ hd']; linarith
  · rw [div_lt_iff₀ hd']; linarith
  · have h3 := Nat.compare_eq_lt.1 h
    have h3' : (2 : ℝ) * a < (2 * f + 1) * 2 ^ s * d := by exact_mod_cast h3
    rw [← mul_div_assoc, div_lt_iff₀ hd']; exact h3'
  · have h3 := Nat.compare_eq_eq.1 h
    have h3' : (2 : ℝ) * a = (2 * f + 1) * 2 ^ s * d := by exact_mod_cast h3
    rw [← mul_div_assoc, div_eq_iff hd'.ne']; exact h3'
  · have h3 := Nat.compare_eq_gt.1 h
    have h3' : (2 * f + 1) * 2 ^ s * d < (2 : ℝ) * a := by exact_mod_cast h3
    rw [← mul_div_assoc, lt_div_iff₀ hd']; exact h3'

/-- Rounding of a square root. -/
theorem roundSqrt_between (fmt : Format) (a : Nat) :
    Between fmt (√(a : ℝ)) (fmt.gap a.sqrt) (a.sqrt / 2 ^ fmt.gap a.sqrt)
      (compare (4 * a) (((2 * (a.sqrt / 2 ^ fmt.gap a.sqrt) + 1) * 2 ^ fmt.gap a.sqrt) ^ 2)) := by
  have hg := fmt.gap_spec a.sqrt
  generalize fmt.gap a.sqrt = s at hg ⊢
  obtain ⟨f, hf⟩ : ∃ f, f = a.sqrt / 2 ^ s := ⟨_, rfl⟩
  rw [← hf] at hg ⊢
  have hpos : 0 < 2 ^ s := Nat.two_pow_pos _
  have h1 : f * 2 ^ s ≤ a.sqrt := by rw [hf]; exact Nat.div_mul_le_self _ _
  have h2 : a.sqrt < (f + 1) * 2 ^ s := by
    rw [← Nat.div_lt_iff_lt_mul hpos, ← hf]; exact Nat.lt_succ_self _
  have h1' : (f : ℝ) * 2 ^ s ≤ a.sqrt := by exact_mod_cast h1
  have h2' : (a.sqrt : ℝ) + 1 ≤ (f + 1) * 2 ^ s := by exact_mod_cast h2
  have r1 := Real.nat_sqrt_le_real_sqrt (a := a)
  have r2 : √(a : ℝ) < a.sqrt + 1 := Real.real_sqrt_lt_nat_sqrt_succ
  have r0 := Real.sqrt_nonneg (a : ℝ)
  have rr : (2 * √(a : ℝ)) ^ 2 = 4 * a := by rw [mul_pow, Real.sq_sqrt (by positivity)]; ring
  have q0 : (0 : ℝ) ≤ (2 * f + 1) * 2 ^ s := by positivity
  refine ⟨by linarith, by linarith, hg.1, hg.2, fun h => ?_, fun h => ?_, fun h => ?_⟩
  · have h3 := Nat.compare_eq_lt.1 h
    have h3' : (4 : ℝ) * a < ((2 * f + 1) * 2 ^ s) ^ 2 := by exact_mod_cast h3
    rw [← rr] at h3'
    exact lt_of_pow_lt_pow_left₀ 2 q0 h3'
  · have h3 := Nat.compare_eq_eq.1 h
    have h3' : (4 : ℝ) * a = ((2 * f + 1) * 2 ^ s) ^ 2 := by exact_mod_cast h3
    rw [← rr] at h3'
    exact (pow_left_inj₀ (by positivity) q0 two_ne_zero).1 h3'
  · have h3 := Nat.compare_eq_gt.1 h
    have h3' : ((2 * f + 1) * 2 ^ s) ^ 2 < (4 : ℝ) * a := by exact_mod_cast h3
    rw [← rr] at h3'
    exact lt_of_pow_lt_pow_left₀ 2 (by positivity) h3'

theorem zero_val : (0 : Bin fmt).val = 0 := by
  show (Bin.fin false 0 fmt.rep_zero).val = 0
  simp [val]

theorem one_val : (1 : Bin fmt).val = 1 := by
  show (Bin.fin false (2 ^ fmt.frac) fmt.rep_one).val = 1
  simp [val]

theorem limit_pos (fmt : Format) : 0 < fmt.limit := by
  unfold Format.limit
  have h7 : (1 : ℝ) / 2 ^ (fmt.prec + 1) < 1 := by
    rw [div_lt_one (by positivity)]
    exact one_lt_pow₀ (by norm_num) (by omega)
  have : (0 : ℝ) < 1 - 1 / 2 ^ (fmt.prec + 1) := by linarith
  positivity

theorem finite_iff (a : Bin fmt) : a.Finite ↔ ∃ s k h, a = .fin s k h := by
  cases a with
  | nan => exact ⟨fun h => h.elim, fun ⟨_, _, _, h⟩ => nomatch h⟩
  | inf _ => exact ⟨fun h => h.elim, fun ⟨_, _, _, h⟩ => nomatch h⟩
  | fin s k h => exact ⟨fun _ => ⟨s, k, h, rfl⟩, fun _ => trivial⟩

theorem add_finite {a b : Bin fmt} (h : (a + b).Finite) : a.Finite ∧ b.Finite := by
  change (Bin.add a b).Finite at h
  cases a <;> cases b <;> simp only [Bin.add] at h
  case inf.inf s t => split_ifs at h <;> exact h.elim
  case fin.fin => exact ⟨trivial, trivial⟩
  all_goals exact h.elim

theorem neg_finite {a : Bin fmt} : (-a).Finite ↔ a.Finite := by
  cases a <;> exact Iff.rfl

theorem neg_val (a : Bin fmt) : (-a).val = -a.val := by
  cases a with
  | nan => show (0 : ℝ) = -0; simp
  | inf s => show (0 : ℝ) = -0; simp
  | fin s k h =>
    show (Bin.fin (!s) k h).val = -(Bin.fin s k h).val
    rw [val_fin, val_fin]
    cases s <;> simp [sgn, neg_div]

theorem mul_finite {a b : Bin fmt} (h : (a * b).Finite) : a.Finite ∧ b.Finite := by
  change (Bin.mul a b).Finite at h
  cases a <;> cases b <;> simp only [Bin.mul] at h
  case inf.fin => split_ifs at h <;> exact h.elim
  case fin.inf => split_ifs at h <;> exact h.elim
  case fin.fin => exact ⟨trivial, trivial⟩
  all_goals exact h.elim

theorem signed_cast (s : Bool) (k : Nat) : ((signed s k : Int) : ℝ) = sgn s k := by
  cases s <;> simp [signed, sgn]

theorem sgn_natAbs (z : Int) : sgn (decide (z < 0)) (z.natAbs : ℝ) = z := by
  rw [Nat.cast_natAbs, Int.cast_abs, sgn]
  by_cases h : z < 0
  · have : (z : ℝ) < 0 := by exact_mod_cast h
    rw [if_pos (by simpa using h), abs_of_neg this]; ring
  · have : (0 : ℝ) ≤ z := by exact_mod_cast not_lt.1 h
    rw [if_neg (by simpa using h), abs_of_nonneg this]

/-- The sum of two finite numbers is an integer number of units, rounded. -/
theorem add_cases (a b : Bin fmt) (ha : a.Finite) (hb : b.Finite) :
    (a.val + b.val = 0 ∧ (a + b).Finite ∧ (a + b).val = 0) ∨
    ∃ z : Int, a.val + b.val = sgn (decide (z < 0)) ((z.natAbs : ℝ) / (1 : Nat)) / 2 ^ fmt.frac ∧
      a + b = round (decide (z < 0)) z.natAbs 1 := by
  obtain ⟨s, k, hk, rfl⟩ := (finite_iff a).1 ha
  obtain ⟨t, l, hl, rfl⟩ := (finite_iff b).1 hb
  have hz : ((signed s k + signed t l : Int) : ℝ) = sgn s k + sgn t l := by
    rw [Int.cast_add, signed_cast, signed_cast]
  have hadd : (Bin.fin s k hk + Bin.fin t l hl : Bin fmt) = if signed s k + signed t l = 0 then
      .fin (s && t) 0 fmt.rep_zero else round (decide (signed s k + signed t l < 0)) (signed s k + signed t l).natAbs 1 := rfl
  by_cases h0 : signed s k + signed t l = 0
  · left
    rw [hadd, if_pos h0, val_fin, val_fin, ← add_div, ← hz, h0]
    refine ⟨by simp, trivial, ?_⟩
    rw [val_fin]; cases (s && t) <;> simp [sgn]
  · refine Or.inr ⟨signed s k + signed t l, ?_, by rw [hadd, if_neg h0]⟩
    rw [Nat.cast_one, div_one, sgn_natAbs, val_fin, val_fin, ← add_div, ← hz]

theorem roundsTo_zero {r : Bin fmt} (h : r.Finite) (h0 : r.val = 0) : RoundsTo 0 r := by
  refine Or.inl ⟨by rw [abs_zero]; exact limit_pos fmt, h, fun y hy => ?_⟩
  rw [h0, sub_zero, abs_zero, sub_zero]
  exact ⟨abs_nonneg _, fun e => Or.inl (abs_eq_zero.1 e)⟩

theorem add_rounds {a b : Bin fmt} (ha : a.Finite) (hb : b.Finite) : RoundsTo (a.val + b.val) (a + b) := by
  rcases add_cases a b ha hb with ⟨h1, h2, h3⟩ | ⟨z, h1, h2⟩
  · rw [h1]; exact roundsTo_zero h2 h3
  · rw [h1, h2]
    exact (round_between fmt Nat.one_pos).roundsTo _

theorem add_error {a b : Bin fmt} (h : (a + b).Finite) :
    |(a + b).val - (a.val + b.val)| ≤ 1 / 2 ^ fmt.prec * |a.val + b.val| := by
  obtain ⟨ha, hb⟩ := add_finite h
  rcases add_cases a b ha hb with ⟨h1, h2, h3⟩ | ⟨z, h1, h2⟩
  · rw [h1, h3]; simp
  · rw [h1]
    rw [h2] at h ⊢
    exact ((round_between fmt Nat.one_pos).error _ h).2 ⟨z.natAbs, by rw [Nat.cast_one, div_one]⟩

theorem sub_def (a b : Bin fmt) : a - b = a + -b := rfl

theorem sub_finite {a b : Bin fmt} (h : (a - b).Finite) : a.Finite ∧ b.Finite := by
  obtain ⟨h1, h2⟩ := add_finite (sub_def a b ▸ h)
  exact ⟨h1, neg_finite.1 h2⟩

theorem sub_rounds {a b : Bin fmt} (ha : a.Finite) (hb : b.Finite) : RoundsTo (a.val - b.val) (a - b) := by
  have := add_rounds ha (neg_finite.2 hb)
  rwa [neg_val, ← sub_eq_add_neg] at this

theorem sub_error {a b : Bin fmt} (h : (a - b).Finite) :
    |(a - b).val - (a.val - b.val)| ≤ 1 / 2 ^ fmt.prec * |a.val - b.val| := by
  have := add_error (sub_def a b ▸ h)
  rwa [neg_val, ← sub_eq_add_neg] at this

theorem sgn_mul (s t : Bool) (x y : ℝ) : sgn s x * sgn t y = sgn (s != t) (x * y) := by
  cases s <;> cases t <;> simp [sgn]

theorem mul_cases (a b : Bin fmt) (ha : a.Finite) (hb : b.Finite) :
    ∃ neg, ∃ k : Nat, a.val * b.val = sgn neg ((k : ℝ) / (2 ^ fmt.frac : Nat)) / 2 ^ fmt.frac ∧ a * b = round neg k (2 ^ fmt.frac) := by
  obtain ⟨s, k, hk, rfl⟩ := (finite_iff a).1 ha
  obtain ⟨t, l, hl, rfl⟩ := (finite_iff b).1 hb
  refine ⟨s != t, k * l, ?_, rfl⟩
  rw [val_fin, val_fin, div_mul_div_comm, sgn_mul]
  push_cast
  cases (s != t)
  · simp only [sgn, Bool.false_eq_true, if_false]; field_simp
  · simp only [sgn, if_true]; field_simp

theorem mul_rounds {a b : Bin fmt} (ha : a.Finite) (hb : b.Finite) : RoundsTo (a.val * b.val) (a * b) := by
  obtain ⟨neg, k, h1, h2⟩ := mul_cases a b ha hb
  rw [h1, h2]
  exact (round_between fmt (Nat.two_pow_pos _)).roundsTo _

theorem mul_error {a b : Bin fmt} (h : (a * b).Finite) :
    |(a * b).val - a.val * b.val| ≤ 1 / 2 ^ fmt.prec * |a.val * b.val| + 1 / 2 ^ (fmt.frac + 1) := by
  obtain ⟨ha, hb⟩ := mul_finite h
  obtain ⟨neg, k, h1, h2⟩ := mul_cases a b ha hb
  rw [h1]
  rw [h2] at h ⊢
  exact ((round_between fmt (Nat.two_pow_pos _)).error _ h).1

theorem recip_cases (a : Bin fmt) (ha : a.Finite) (h0 : a.val ≠ 0) :
    ∃ neg k, 0 < k ∧ (a.val)⁻¹ = sgn neg (((2 ^ (2 * fmt.frac) : Nat) : ℝ) / (k : Nat)) / 2 ^ fmt.frac ∧
      a.recip = round neg (2 ^ (2 * fmt.frac)) k := by
  obtain ⟨s, k, hk, rfl⟩ := (finite_iff a).1 ha
  have hk0 : k ≠ 0 := by
    rintro rfl
    apply h0
    rw [val_fin]; cases s <;> simp [sgn]
  refine ⟨s, k, Nat.pos_of_ne_zero hk0, ?_, if_neg hk0⟩
  have hkr : (k : ℝ) ≠ 0 := by exact_mod_cast hk0
  rw [val_fin, inv_div, two_mul, pow_add]
  push_cast
  cases s
  · simp only [sgn, Bool.false_eq_true, if_false]; field_simp
  · simp only [sgn, if_true]; field_simp

theorem recip_zero {a : Bin fmt} (ha : a.Finite) (h0 : a.val = 0) : ∃ s, a.recip = .inf s := by
  obtain ⟨s, k, hk, rfl⟩ := (finite_iff a).1 ha
  have hk0 : k = 0 := by
    have hf : (2 : ℝ) ^ fmt.frac ≠ 0 := by positivity
    rw [val_fin, div_eq_zero_iff, or_iff_left hf] at h0
    cases s <;> simpa [sgn] using h0
  exact ⟨s, if_pos hk0⟩

theorem recip_rounds {a : Bin fmt} (ha : a.Finite) (h0 : a.val ≠ 0) : RoundsTo (a.val)⁻¹ a.recip := by
  obtain ⟨neg, k, hk, h1, h2⟩ := recip_cases a ha h0
  rw [h1, h2]
  exact (round_between fmt hk).roundsTo _

theorem recip_error {a : Bin fmt} (ha : a.Finite) (h : a.recip.Finite) : a.val ≠ 0 ∧
    |a.recip.val - (a.val)⁻¹| ≤ 1 / 2 ^ fmt.prec * |(a.val)⁻¹| + 1 / 2 ^ (fmt.frac + 1) := by
  have h0 : a.val ≠ 0 := by
    intro h0
    obtain ⟨s, e⟩ := recip_zero ha h0
    rw [e] at h; exact h
  obtain ⟨neg, k, hk, h1, h2⟩ := recip_cases a ha h0
  refine ⟨h0, ?_⟩
  rw [h1]
  rw [h2] at h ⊢
  exact ((round_between fmt hk).error _ h).1

theorem sqrt_cases (a : Bin fmt) (ha : a.Finite) (h0 : 0 < a.val) :
    ∃ k : Nat, √a.val = sgn false (√(k : ℝ)) / 2 ^ fmt.frac ∧ a.sqrt = roundSqrt k := by
  obtain ⟨s, k, hk, rfl⟩ := (finite_iff a).1 ha
  have hfr : (0 : ℝ) < 2 ^ fmt.frac := by positivity
  rw [val_fin] at h0
  have hs : s = false := by
    cases s
    · rfl
    · exfalso
      simp only [sgn, if_true] at h0
      have : -(k : ℝ) / 2 ^ fmt.frac ≤ 0 := div_nonpos_of_nonpos_of_nonneg (by simp) hfr.le
      linarith
  subst hs
  have hk0 : k ≠ 0 := by rintro rfl; simp [sgn] at h0
  refine ⟨k * 2 ^ fmt.frac, ?_, ?_⟩
  · rw [val_fin]
    simp only [sgn, Bool.false_eq_true, if_false]
    push_cast
    rw [show (k : ℝ) / 2 ^ fmt.frac = k * 2 ^ fmt.frac / (2 ^ fmt.frac) ^ 2 by field_simp, Real.sqrt_div (by positivity),
      Real.sqrt_sq hfr.le]
  · simp [Bin.sqrt, hk0]

theorem sqrt_rounds {a : Bin fmt} (ha : a.Finite) (h0 : 0 ≤ a.val) : RoundsTo √a.val a.sqrt := by
  rcases h0.lt_or_eq with h0 | h0
  · obtain ⟨k, h1, h2⟩ := sqrt_cases a ha h0
    rw [h1, h2]
    exact (roundSqrt_between fmt k).roundsTo false
  · obtain ⟨s, k, hk, rfl⟩ := (finite_iff a).1 ha
    have hk0 : k = 0 := by
      have hf : (2 : ℝ) ^ fmt.frac ≠ 0 := by positivity
      rw [val_fin, eq_comm, div_eq_zero_iff, or_iff_left hf] at h0
      cases s <;> simpa [sgn] using h0
    have e : (Bin.fin s k hk : Bin fmt).sqrt = .fin s k hk := if_pos hk0
    rw [← h0, Real.sqrt_zero, e]
    exact roundsTo_zero trivial h0.symm

theorem sqrt_neg {a : Bin fmt} (ha : a.Finite) (h0 : a.val < 0) : a.sqrt = .nan := by
  obtain ⟨s, k, hk, rfl⟩ := (finite_iff a).1 ha
  rw [val_fin] at h0
  have hk0 : k ≠ 0 := by rintro rfl; cases s <;> simp [sgn] at h0
  have hs : s = true := by
    cases s
    · exfalso
      simp only [sgn, Bool.false_eq_true, if_false] at h0
      have : (0 : ℝ) ≤ k / 2 ^ fmt.frac := by positivity
      linarith
    · rfl
  simp [Bin.sqrt, hk0, hs]

theorem sqrt_finite {a : Bin fmt} (h : a.sqrt.Finite) : a.Finite ∧ 0 ≤ a.val := by
  cases a with
  | nan => exact h.elim
  | inf s => cases s <;> exact h.elim
  | fin s k hk =>
    refine ⟨trivial, not_lt.1 fun hc => ?_⟩
    rw [sqrt_neg (a := .fin s k hk) trivial hc] at h
    exact h

theorem sqrt_error {a : Bin fmt} (h : a.sqrt.Finite) :
    |a.sqrt.val - √a.val| ≤ 1 / 2 ^ fmt.prec * √a.val + 1 / 2 ^ (fmt.frac + 1) := by
  obtain ⟨ha, h0⟩ := sqrt_finite h
  rcases h0.lt_or_eq with h0 | h0
  · obtain ⟨k, h1, h2⟩ := sqrt_cases a ha h0
    have := (roundSqrt_between fmt k).error false (h2 ▸ h : (roundSqrt k : Bin fmt).Finite)
    rw [← h1, abs_of_nonneg (Real.sqrt_nonneg _)] at this
    rw [h2]; exact this.1
  · obtain ⟨s, k, hk, rfl⟩ := (finite_iff a).1 ha
    have hk0 : k = 0 := by
      have hf : (2 : ℝ) ^ fmt.frac ≠ 0 := by positivity
      rw [val_fin, eq_comm, div_eq_zero_iff, or_iff_left hf] at h0
      cases s <;> simpa [sgn] using h0
    have e : (Bin.fin s k hk : Bin fmt).sqrt = .fin s k hk := if_pos hk0
    rw [e, ← h0, Real.sqrt_zero]
    simp

theorem settle_negative (neg : Bool) (s f : Nat) (mid : Ordering) :
    (settle neg s f mid : Bin fmt).Negative ↔ neg = true := by
  rw [settle_eq]
  split <;> exact Iff.rfl

theorem signs {a b : Bin fmt} (ha : a.Finite) (hb : b.Finite) :
    ((-a).Negative ↔ ¬ a.Negative) ∧ ((a * b).Negative ↔ ¬ (a.Negative ↔ b.Negative)) ∧
    (∃ d, MDT.recip a = .ok d ∧ (d.Negative ↔ a.Negative)) ∧
    (a.val + b.val = 0 → ((a + b).Negative ↔ a.Negative ∧ b.Negative)) ∧
    (a.val = 0 → MDT.squareRoot a = .ok a) ∧ (0 < a.val → ∃ q, MDT.squareRoot a = .ok q ∧ ¬ q.Negative) := by
  obtain ⟨s, k, h, rfl⟩ := (finite_iff a).1 ha
  obtain ⟨t, l, h', rfl⟩ := (finite_iff b).1 hb
  have hp : (0 : ℝ) < 2 ^ fmt.frac := by positivity
  have hz : (Bin.fin s k h).val = 0 ↔ k = 0 := by
    rw [val_fin]
    cases s <;> simp [sgn]
  refine ⟨?_, ?_, ⟨_, rfl, ?_⟩, fun e => ?_, fun e => ?_, fun e => ⟨_, rfl, ?_⟩⟩
  · show (!s) = true ↔ ¬ s = true
    cases s <;> simp
  · show (round (s != t) (k * l) (2 ^ fmt.frac) : Bin fmt).Negative ↔ ¬ (s = true ↔ t = true)
    unfold round
    rw [settle_negative]
    cases s <;> cases t <;> simp
  · show (if k = 0 then .inf s else round s (2 ^ (2 * fmt.frac)) k : Bin fmt).Negative ↔ s = true
    split
    · exact Iff.rfl
    · exact settle_negative _ _ _ _
  · have e' : signed s k + signed t l = 0 := by
      rw [val_fin, val_fin, ← add_div, div_eq_zero_iff, ← signed_cast, ← signed_cast] at e
      have := e.resolve_right hp.ne'
      exact_mod_cast this
    show (if signed s k + signed t l = 0 then .fin (s && t) 0 fmt.rep_zero
      else round (decide (signed s k + signed t l < 0)) (signed s k + signed t l).natAbs 1 : Bin fmt).Negative ↔ s = true ∧ t = true
    rw [if_pos e']
    show (s && t) = true ↔ _
    simp
  · exact congrArg Except.ok (if_pos (hz.1 e))
  · have hk : k ≠ 0 := fun e0 => e.ne' (hz.2 e0)
    have hs : s = false := by
      cases s with
      | false => rfl
      | true =>
        rw [val_fin] at e
        have : (0 : ℝ) ≤ k := Nat.cast_nonneg k
        have h2 : sgn true (k : ℝ) / 2 ^ fmt.frac ≤ 0 := div_nonpos_of_nonpos_of_nonneg (by simp [sgn]) hp.le
        linarith
    subst hs
    show ¬ (if k = 0 then .fin false k h else if false = true then .nan else roundSqrt (k * 2 ^ fmt.frac) : Bin fmt).Negative
    rw [if_neg hk, if_neg (by decide)]
    unfold roundSqrt
    rw [settle_negative]
    decide

theorem le_iff {a b : Bin fmt} (ha : a.Finite) (hb : b.Finite) : a.le b = true ↔ a.val ≤ b.val := by
  obtain ⟨s, k, hk, rfl⟩ := (finite_iff a).1 ha
  obtain ⟨t, l, hl, rfl⟩ := (finite_iff b).1 hb
  rw [val_fin, val_fin, div_le_div_iff_of_pos_right (by positivity), ← signed_cast, ← signed_cast, Int.cast_le]
  exact decide_eq_true_iff

/-- Floating point numbers with `prec` bits have a relative error of `2^-prec` and an absolute error of half the smallest
positive number. -/
noncomputable def roundedInverse (fmt : Format) : RoundedInverse (Bin fmt) where
  fin := Finite
  val := val
  u := 1 / 2 ^ fmt.prec
  η := 1 / 2 ^ (fmt.frac + 1)
  u_nonneg := by positivity
  η_nonneg := by positivity
  fin_zero := trivial
  val_zero := zero_val
  add_err a b h := ⟨(add_finite h).1, (add_finite h).2, add_error h⟩
  sub_err a b h := ⟨(sub_finite h).1, (sub_finite h).2, sub_error h⟩
  mul_err a b h := ⟨(mul_finite h).1, (mul_finite h).2, mul_error h⟩
  sqrt_err a q h hf := by
    obtain rfl : a.sqrt = q := by injection h
    exact ⟨(sqrt_finite hf).1, sqrt_error hf⟩
  recip_err a d h ha hf := by
    obtain rfl : a.recip = d := by injection h
    exact recip_error ha hf
  le_zero a ha h := by
    by_contra hc
    have := (le_iff (b := 0) ha trivial).2 (by rw [zero_val]; exact not_lt.1 hc)
    rw [show MDT.le a 0 = a.le 0 from rfl, this] at h
    cases h
  fin_one := trivial
  val_one := one_val
  neg_err a h := ⟨neg_finite.1 h, neg_val a⟩
  isum_eq := ⟨.fin fmt.sumNeg 0 fmt.rep_zero, trivial, by rw [val_fin]; cases fmt.sumNeg <;> simp [sgn], fun _ => rfl⟩

end Bin
end Minikalman
