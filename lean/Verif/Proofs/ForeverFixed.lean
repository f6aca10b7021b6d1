import Verif.Spec.ForeverFixed
import Verif.Proofs.Forever
import Verif.Props.Fixed

/-!
# A filter with one state on fixed point numbers that runs forever
-/

set_option linter.unusedSectionVars false

namespace Minikalman

open Matrix

namespace FixedPoint
variable {f : Nat}

theorem add_fits (hf : 1 ≤ f) {a b : Watched f} (ha : a.clean = true) (hb : b.clean = true) (h : |a.num.val + b.num.val| < lim f) :
    (a + b).clean = true ∧ (a + b).num.val = a.num.val + b.num.val := by
  have hr : InRange f (a.num.bits.toInt + b.num.bits.toInt) := by
    refine inRange_exact hf ?_
    push_cast
    rw [add_div]
    exact h
  exact ⟨Watched.add_clean.2 ⟨ha, hb, hr⟩, val_add hr⟩

theorem sub_fits (hf : 1 ≤ f) {a b : Watched f} (ha : a.clean = true) (hb : b.clean = true) (h : |a.num.val - b.num.val| < lim f) :
    (a - b).clean = true ∧ (a - b).num.val = a.num.val - b.num.val := by
  have hr : InRange f (a.num.bits.toInt - b.num.bits.toInt) := by
    refine inRange_exact hf ?_
    push_cast
    rw [sub_div]
    exact h
  exact ⟨Watched.sub_clean.2 ⟨ha, hb, hr⟩, val_sub hr⟩

/-- A product with a factor of at most 1: it fits, is rounded down, has the right sign and is not larger than the other factor. -/
theorem mul_shrinks (hf : 1 ≤ f) {a p : Watched f} (ha : a.clean = true) (hp : p.clean = true) (ha1 : |a.num.val| ≤ 1) (hlim : |p.num.val| < lim f) :
    (a * p).clean = true ∧ (a * p).num.val ≤ a.num.val * p.num.val ∧ a.num.val * p.num.val - res f < (a * p).num.val ∧
      |(a * p).num.val| ≤ |p.num.val| ∧ (0 ≤ a.num.val * p.num.val → 0 ≤ (a * p).num.val) := by
  have h2 : (0 : Int) < 2 ^ f := by positivity
  have h2r : (0 : ℝ) < 2 ^ f := by positivity
  have ha' : |a.num.bits.toInt| ≤ 2 ^ f := by
    unfold val at ha1
    rw [abs_div, abs_of_pos h2r, div_le_one h2r] at ha1
    exact_mod_cast ha1
  have hap : |a.num.bits.toInt * p.num.bits.toInt| ≤ |p.num.bits.toInt| * 2 ^ f := by
    rw [abs_mul, mul_comm]
    exact mul_le_mul_of_nonneg_left ha' (abs_nonneg _)
  have hz : |a.num.bits.toInt * p.num.bits.toInt / 2 ^ f| ≤ |p.num.bits.toInt| := by
    have := abs_le.1 hap
    refine abs_le.2 ⟨?_, ?_⟩
    · rw [Int.le_ediv_iff_mul_le h2]; linarith
    · refine Int.le_of_lt_add_one ((Int.ediv_lt_iff_lt_mul h2).2 ?_)
      nlinarith
  have hr : InRange f (a.num.bits.toInt * p.num.bits.toInt / 2 ^ f) := by
    refine inRange_exact hf (lt_of_le_of_lt ?_ hlim)
    unfold val
    rw [abs_div, abs_div, div_le_div_iff_of_pos_right (abs_pos.2 h2r.ne')]
    exact_mod_cast hz
  have hv := val_mul hr
  refine ⟨Watched.mul_clean.2 ⟨ha, hp, hr⟩, hv.1, hv.2, ?_, fun h0 => ?_⟩
  · show |(a.num * p.num).val| ≤ _
    unfold val
    rw [toInt_mul hr, abs_div, abs_div, div_le_div_iff_of_pos_right (abs_pos.2 h2r.ne')]
    exact_mod_cast hz
  · show 0 ≤ (a.num * p.num).val
    unfold val at h0 ⊢
    rw [toInt_mul hr]
    refine div_nonneg ?_ h2r.le
    rw [div_mul_div_comm] at h0
    have h3 : (0 : ℝ) ≤ ((a.num.bits.toInt * p.num.bits.toInt : Int) : ℝ) := by
      push_cast
      by_contra hc
      exact absurd h0 (not_le.2 (div_neg_of_neg_of_pos (not_le.1 hc) (by positivity)))
    have h4 : 0 ≤ a.num.bits.toInt * p.num.bits.toInt := by exact_mod_cast h3
    exact_mod_cast Int.ediv_nonneg h4 h2.le

theorem mul_one_clean (hf : 2 ≤ f) {a : Watched f} (ha : a.clean = true) : a * 1 = a := by
  rw [Watched.mul_comm', one_mul_clean hf ha]

/-- The variance after a prediction. -/
theorem predict_grows (hf : 2 ≤ f) {a p q : Watched f} (ha : a.clean = true) (ha1 : |a.num.val| ≤ 1) (hq : q.clean = true) (hq0 : 0 ≤ q.num.val)
    (hp : p.clean = true) (hp0 : 0 ≤ p.num.val) (hlim : p.num.val + q.num.val < lim f) :
    (0 + (0 + a * p) * a + q).clean = true ∧ 0 ≤ (0 + (0 + a * p) * a + q).num.val ∧
      (0 + (0 + a * p) * a + q).num.val ≤ p.num.val + q.num.val := by
  have h1f : 1 ≤ f := by omega
  obtain ⟨c1, v1, v2, v3, v4⟩ := mul_shrinks h1f ha hp ha1 (by rw [abs_of_nonneg hp0]; linarith)
  rw [zero_add_clean c1, Watched.mul_comm' (a * p) a]
  obtain ⟨c2, w1, w2, w3, w4⟩ := mul_shrinks h1f ha c1 ha1 (lt_of_le_of_lt v3 (by rw [abs_of_nonneg hp0]; linarith))
  rw [zero_add_clean c2]
  have hs : 0 ≤ a.num.val * (a * p).num.val := by
    rcases le_total 0 a.num.val with h | h
    · exact mul_nonneg h (v4 (mul_nonneg h hp0))
    · exact mul_nonneg_of_nonpos_of_nonpos h (v1.trans (mul_nonpos_of_nonpos_of_nonneg h hp0))
  have h0 := w4 hs
  have h1 : (a * (a * p)).num.val ≤ p.num.val := by
    rw [abs_of_nonneg h0] at w3
    rw [abs_of_nonneg hp0] at v3
    linarith
  obtain ⟨c3, e3⟩ := add_fits h1f c2 hq (by rw [abs_of_nonneg (by linarith)]; linarith)
  exact ⟨c3, by rw [e3]; linarith, by rw [e3]; linarith⟩

set_option maxHeartbeats 1000000 in
/-- A correction of a single state; the predicted measurement `hx` need not be the state. -/
theorem correct_one (hf : 2 ≤ f) {p R x z h q d : Watched f} {X M B r : ℝ} (hp : p.clean = true) (hp0 : 0 ≤ p.num.val) (hpM : p.num.val ≤ M)
    (hR : R.clean = true) (hr : R.num.val = r) (hroot : res f < √r) (hrec : 1 < (√r - res f) * lim f) (hinv : (1 / √r + rootErr f r) ^ 2 < lim f)
    (hgain : M * inverseErr f r 0 * (M + r) ≤ r) (hset : r + M ^ 2 * inverseErr f r 0 + (M + 1) * res f ≤ B) (hfit : M + r < lim f)
    (hx : x.clean = true) (hxX : |x.num.val| ≤ X) (hz : z.clean = true) (hh : h.clean = true)
    (hzX : |z.num.val - (h.num.val - x.num.val)| ≤ X) (hX : 2 * X < lim f)
    (hq : MDT.squareRoot (p + R) = .ok q) (hd : MDT.recip q = .ok d) :
    (p - (0 + (0 + p * scalarInverse d) * p)).clean = true ∧ 0 ≤ (p - (0 + (0 + p * scalarInverse d) * p)).num.val ∧
    (p - (0 + (0 + p * scalarInverse d) * p)).num.val ≤ B ∧
    (x + (0 + p * scalarInverse d) * (z - h)).clean = true ∧ |(x + (0 + p * scalarInverse d) * (z - h)).num.val| ≤ X := by
  have h1f : 1 ≤ f := by omega
  have hres : 0 < res f := res_pos
  have hr0 : 0 < r := Real.sqrt_pos.1 (hres.trans hroot)
  obtain ⟨ε, hε⟩ : ∃ ε, ε = inverseErr f r 0 := ⟨_, rfl⟩
  -- the innovation variance
  obtain ⟨c1, e1⟩ := add_fits h1f hp hR (by rw [hr, abs_of_nonneg (by linarith)]; linarith)
  rw [hr] at e1
  obtain ⟨v, hv⟩ : ∃ v, v = p.num.val + r := ⟨_, rfl⟩
  have hv0 : 0 < v := by linarith
  obtain ⟨⟨c2, e2⟩, _, _⟩ := inverse_fit hf (S := p + R) (v := v) (E := 0) (s := r) ⟨c1, by rw [e1, hv, sub_self, abs_zero]⟩
    (by linarith) hroot hrec hinv hq hd
  rw [← hε] at e2 hgain hset
  have hε0 : 0 ≤ ε := le_trans (abs_nonneg _) e2
  -- the inverse is not negative
  have hd0 : 0 ≤ (scalarInverse d).num.val := by
    by_contra hc
    have hdc : d.clean = true := (Watched.mul_clean.1 c2).2.1
    rw [scalarInverse_clean hf hdc] at hc c2
    have hh := Watched.mul_int c2
    refine hc ?_
    unfold val
    rw [hh]
    refine div_nonneg ?_ (by positivity)
    exact_mod_cast Int.ediv_nonneg (mul_self_nonneg _) (by positivity)
  generalize scalarInverse d = s at c2 e2 hd0 ⊢
  have e2' := abs_le.1 e2
  have hM0 : 0 ≤ M := hp0.trans hpM
  have hMr : 0 < M + r := by linarith
  -- the gain is at most 1
  have hps : p.num.val * s.num.val ≤ 1 := by
    have h1 : p.num.val * s.num.val ≤ p.num.val * (1 / v + ε) := mul_le_mul_of_nonneg_left (by linarith) hp0
    have h2 : M * ε ≤ r / (M + r) := by rw [le_div_iff₀ hMr]; exact hgain
    have h3 : p.num.val * ε ≤ M * ε := mul_le_mul_of_nonneg_right hpM hε0
    have h4 : r / (M + r) ≤ r / v := by
      refine div_le_div_of_nonneg_left hr0.le hv0 (by linarith)
    have h5 : p.num.val * (1 / v) + r / v = 1 := by rw [mul_one_div, ← add_div, hv]; exact div_self (by linarith)
    linarith
  have hps0 : 0 ≤ p.num.val * s.num.val := mul_nonneg hp0 hd0
  have hKc : (p * s).clean = true ∧ 0 ≤ (p * s).num.val ∧ (p * s).num.val ≤ 1 ∧ p.num.val * s.num.val - res f < (p * s).num.val := by
    have hlim1 : 1 < lim f := by
      unfold lim
      have : (2 : ℝ) ^ 2 ≤ 2 ^ f := pow_le_pow_right₀ (by norm_num) hf
      linarith
    have hrng : InRange f (p.num.bits.toInt * s.num.bits.toInt / 2 ^ f) :=
      inRange_mul h1f (show |p.num.val * s.num.val| < lim f by rw [abs_of_nonneg hps0]; linarith)
    have hvm := val_mul hrng
    have hc : (p * s).clean = true := Watched.mul_clean.2 ⟨hp, c2, hrng⟩
    refine ⟨hc, ?_, hvm.1.trans hps, hvm.2⟩
    have hh := Watched.mul_int hc
    unfold val
    rw [hh]
    refine div_nonneg ?_ (by positivity)
    have hp' : 0 ≤ p.num.bits.toInt := by
      unfold val at hp0
      have := (div_nonneg_iff.1 hp0).resolve_right fun h => absurd h.2 (not_le.2 (by positivity))
      exact_mod_cast this.1
    have hs' : 0 ≤ s.num.bits.toInt := by
      unfold val at hd0
      have := (div_nonneg_iff.1 hd0).resolve_right fun h => absurd h.2 (not_le.2 (by positivity))
      exact_mod_cast this.1
    exact_mod_cast Int.ediv_nonneg (mul_nonneg hp' hs') (by positivity)
  obtain ⟨cK, hK0, hK1, hK2⟩ := hKc
  rw [zero_add_clean cK]
  generalize p * s = K at cK hK0 hK1 hK2 ⊢
  have hKa : |K.num.val| ≤ 1 := by rw [abs_of_nonneg hK0]; exact hK1
  -- the variance
  obtain ⟨cT, t1, t2, t3, t4⟩ := mul_shrinks h1f cK hp hKa (by rw [abs_of_nonneg hp0]; linarith)
  rw [zero_add_clean cT]
  have hT0 := t4 (mul_nonneg hK0 hp0)
  rw [abs_of_nonneg hT0, abs_of_nonneg hp0] at t3
  obtain ⟨cP, eP⟩ := sub_fits h1f hp cT (by rw [abs_of_nonneg (by linarith)]; linarith)
  have hP' : p.num.val - (K * p).num.val ≤ B := by
    have h1 : p.num.val * (1 / v - ε) ≤ p.num.val * s.num.val := mul_le_mul_of_nonneg_left (by linarith) hp0
    have h2 : (p.num.val * (1 / v - ε) - res f) * p.num.val ≤ K.num.val * p.num.val := mul_le_mul_of_nonneg_right (by linarith) hp0
    have h3 : p.num.val - p.num.val * (1 / v) * p.num.val ≤ r := by
      have e : p.num.val - p.num.val * (1 / v) * p.num.val = p.num.val * r / v := by
        rw [hv]
        field_simp
        ring
      rw [e, div_le_iff₀ hv0]
      nlinarith
    have h4 : p.num.val * ε * p.num.val ≤ M ^ 2 * ε := by
      have : p.num.val * p.num.val ≤ M * M := mul_le_mul hpM hpM hp0 hM0
      have := mul_le_mul_of_nonneg_right this hε0
      linarith
    have h5 : res f * p.num.val ≤ res f * M := mul_le_mul_of_nonneg_left hpM hres.le
    linarith
  -- the state
  have hxb := abs_le.1 hxX
  have hzb := abs_le.1 hzX
  have ez : z.num.val - h.num.val = (z.num.val - (h.num.val - x.num.val)) - x.num.val := by ring
  obtain ⟨cy, ey⟩ := sub_fits h1f hz hh (by
    rw [ez]
    exact lt_of_le_of_lt (abs_le.2 ⟨by linarith, by linarith⟩) hX)
  rw [ez] at ey
  generalize z - h = y at cy ey ⊢
  generalize z.num.val - (h.num.val - x.num.val) = ζ at ey hzb
  obtain ⟨ck, k1, k2, k3, k4⟩ := mul_shrinks h1f cK cy hKa (by
    rw [ey]
    exact lt_of_le_of_lt (abs_le.2 ⟨by linarith, by linarith⟩) hX)
  have key : -X ≤ x.num.val + (K * y).num.val ∧ x.num.val + (K * y).num.val ≤ X := by
    rcases le_total 0 y.num.val with h | h
    · have h0 := k4 (mul_nonneg hK0 h)
      rw [abs_of_nonneg h0, abs_of_nonneg h] at k3
      constructor <;> linarith
    · have h0 : (K * y).num.val ≤ 0 := k1.trans (mul_nonpos_of_nonneg_of_nonpos hK0 h)
      rw [abs_of_nonpos h0, abs_of_nonpos h] at k3
      constructor <;> linarith
  obtain ⟨cx, ex⟩ := add_fits h1f hx ck (lt_of_le_of_lt (abs_le.2 key) (by
    have := (abs_nonneg x.num.val).trans hxX
    linarith))
  exact ⟨cP, by rw [eP]; linarith, by rw [eP]; exact hP', cx, by rw [ex]; exact abs_le.2 key⟩

end FixedPoint

/-! ## Histories -/

section Forever
variable {f : Nat}

/-- The numbers of a filter with one state that runs forever, `c` predictions after the last correction. -/
structure World.RunsFixed (w : World 1 (Watched f)) (X Z q B : ℝ) (N c : Nat) : Prop where
  kf : ∃ x A P Q, w.kf.Reps x A P Q ∧ (A 0 0).clean = true ∧ |(A 0 0).num.val| ≤ 1 ∧ (Q 0 0).clean = true ∧ (Q 0 0).num.val = q ∧
    (x 0).clean = true ∧ |(x 0).num.val| ≤ X ∧ (P 0 0).clean = true ∧ 0 ≤ (P 0 0).num.val ∧ (P 0 0).num.val ≤ B + c * q
  obs : ∀ s ∈ w.obs, ∃ (o : RegularObservation 1 1 (Watched f)) (z : _) (R : _), s = ⟨1, o⟩ ∧ o.Reps (Spec.direct 0) z R ∧
    (z 0).clean = true ∧ |(z 0).num.val| ≤ Z ∧ (R 0 0).clean = true ∧ Spec.BalancedFixed f N q B (R 0 0).num.val

theorem Spec.LastingFixed.bound {X q B : ℝ} {N c : Nat} (h : Spec.LastingFixed f X q B N) (hc : c ≤ N) : B + c * q ≤ B + N * q := by
  have : (c : ℝ) * q ≤ N * q := mul_le_mul_of_nonneg_right (Nat.cast_le.2 hc) h.noise
  linarith

open FixedPoint in
/-- The update with the innovation `z - hx`, where `hx` is a predicted measurement near the state. -/
theorem forever_update_fixed (bld : Build) {X q B : ℝ} {N c : Nat} (hl : Spec.LastingFixed f X q B N) (hcN : c ≤ N)
    {xm : Mat 1 1 (Watched f)} {Pm : Mat 1 1 (Watched f)} {o : RegularObservation 1 1 (Watched f)} {x P R Y} {z hx : Watched f} (ho : o.Valid)
    (hHm : o.H.Reps (Spec.direct 0)) (hRm : o.R.Reps R) (hPm : Pm.Reps P) (hxm : xm.RepsV x) (hYm : o.y.RepsV Y) (hY : Y 0 = z - hx)
    (hxc : (x 0).clean = true) (hxX : |(x 0).num.val| ≤ X) (hp : (P 0 0).clean = true)
    (hp0 : 0 ≤ (P 0 0).num.val) (hp1 : (P 0 0).num.val ≤ B + c * q) (hz : z.clean = true) (hhx : hx.clean = true)
    (hzX : |z.num.val - (hx.num.val - (x 0).num.val)| ≤ X) (hRc : (R 0 0).clean = true) (hR : Spec.BalancedFixed f N q B (R 0 0).num.val) :
    ∃ r x' P', o.updateWithInnovation bld xm Pm = .ok r ∧ o.Frame r.1 ∧ r.2.1.RepsV x' ∧ r.2.2.Reps P' ∧ (x' 0).clean = true ∧ |(x' 0).num.val| ≤ X ∧
      (P' 0 0).clean = true ∧ 0 ≤ (P' 0 0).num.val ∧ (P' 0 0).num.val ≤ B := by
  have h2 := hl.bits
  have hpB := hp1.trans (hl.bound hcN)
  have d0 : (Spec.direct (T := Watched f) (0 : Fin 1)) 0 0 = 1 := rfl
  have c1 : Spec.mulSeq P (Spec.direct 0)ᵀ 0 0 = P 0 0 := by
    rw [mulSeq_one, transpose_apply, d0, mul_one_clean h2 hp, zero_add_clean hp]
  have c2 : Spec.mulSeq (Spec.direct 0) P 0 0 = P 0 0 := by
    rw [mulSeq_one, d0, one_mul_clean h2 hp, zero_add_clean hp]
  have c3 : Spec.mulSeq (Spec.mulSeq (Spec.direct 0) P) (Spec.direct 0)ᵀ 0 0 = P 0 0 := by
    rw [mulSeq_one, transpose_apply, d0, c2, mul_one_clean h2 hp, zero_add_clean hp]
  have hr0 : 0 < (R 0 0).num.val := Real.sqrt_pos.1 (res_pos.trans hR.root)
  have hle : MDT.le (P 0 0 + R 0 0) 0 = false := by
    rw [Bool.eq_false_iff]
    intro hc
    obtain ⟨_, e⟩ := add_fits (by omega) hp hRc (by
      rw [abs_of_nonneg (by linarith)]
      linarith [hR.fits])
    have h3 : (P 0 0 + R 0 0).num.val ≤ (0 : FixedPoint f).val := FixedPoint.le_iff.1 (show MDT.le (P 0 0 + R 0 0).num 0 = true from hc)
    rw [e, val_zero] at h3
    linarith
  have := safeRoots_watched (f := f) (by omega)
  obtain ⟨r, sq, d, k1, k2, k3, _, k5, k6, k7⟩ := scalar_update_ok bld Nat.one_pos ho hHm hRm hPm hxm hYm (c3.symm ▸ hle)
  rw [c3] at k2
  rw [hY] at k5
  obtain ⟨r1, r2, r3, r4, r5⟩ := correct_one h2 hp hp0 hpB hRc rfl hR.root hR.recip hR.inverse hR.gain hR.settle hR.fits hxc hxX hz hhx hzX hl.state k2 k3
  refine ⟨r, _, _, k1, k7, k5, k6, ?_, ?_, ?_, ?_, ?_⟩
  · show (x 0 + (0 + Spec.mulSeq P (Spec.direct 0)ᵀ 0 0 * scalarInverse d) * (z - hx)).clean = true
    rw [c1]; exact r4
  · show |(x 0 + (0 + Spec.mulSeq P (Spec.direct 0)ᵀ 0 0 * scalarInverse d) * (z - hx)).num.val| ≤ X
    rw [c1]; exact r5
  · show (P 0 0 - (0 + (0 + Spec.mulSeq P (Spec.direct 0)ᵀ 0 0 * scalarInverse d) * Spec.mulSeq (Spec.direct 0) P 0 0)).clean = true
    rw [c1, c2]; exact r1
  · show 0 ≤ (P 0 0 - (0 + (0 + Spec.mulSeq P (Spec.direct 0)ᵀ 0 0 * scalarInverse d) * Spec.mulSeq (Spec.direct 0) P 0 0)).num.val
    rw [c1, c2]; exact r2
  · show (P 0 0 - (0 + (0 + Spec.mulSeq P (Spec.direct 0)ᵀ 0 0 * scalarInverse d) * Spec.mulSeq (Spec.direct 0) P 0 0)).num.val ≤ B
    rw [c1, c2]; exact r3

open FixedPoint in
theorem forever_correct_fixed (bld : Build) {X q B : ℝ} {N c : Nat} (hl : Spec.LastingFixed f X q B N) (hcN : c ≤ N)
    {k : RegularKalman 1 (Watched f)} {o : RegularObservation 1 1 (Watched f)} {x A P Q z R} (hf : k.Reps x A P Q)
    (ho : o.Reps (Spec.direct 0) z R) (hx : (x 0).clean = true) (hxX : |(x 0).num.val| ≤ X) (hp : (P 0 0).clean = true)
    (hp0 : 0 ≤ (P 0 0).num.val) (hp1 : (P 0 0).num.val ≤ B + c * q)
    (hz : (z 0).clean = true) (hzX : |(z 0).num.val| ≤ X) (hRc : (R 0 0).clean = true) (hR : Spec.BalancedFixed f N q B (R 0 0).num.val) :
    ∃ k' o' x' P', k.correct bld o = .ok (k', o') ∧ k'.x.RepsV x' ∧ k'.P.Reps P' ∧ (x' 0).clean = true ∧ |(x' 0).num.val| ≤ X ∧
      (P' 0 0).clean = true ∧ 0 ≤ (P' 0 0).num.val ∧ (P' 0 0).num.val ≤ B := by
  obtain ⟨y1, y2, h1, h2, h3, h4⟩ := innovation_any Nat.one_pos ho.valid ho.H ho.z hf.x
  have hhx : Spec.mulVecSeq (Spec.direct (T := Watched f) (0 : Fin 1)) x 0 = x 0 := one_mul_clean hl.bits hx
  obtain ⟨r, x', P', k1, _, k2⟩ := forever_update_fixed bld hl hcN (o := { o with y := y2 }) (z := z 0) (hx := x 0)
    (obs_with_y_valid ho.valid h4) ho.H ho.R hf.P hf.x h3 (by show z 0 - _ = _; rw [hhx]) hx hxX hp hp0 hp1 hz hx
    (by rw [sub_self, sub_zero]; exact hzX) hRc hR
  refine ⟨{ k with x := r.2.1, P := r.2.2 }, r.1, x', P', ?_, k2⟩
  unfold RegularKalman.correct RegularObservation.correct
  simp only [h1, h2, res_bind_ok, k1]
  rfl

/-- The calls, for watched numbers. -/
def TameWatched (X Z B : ℝ) : Op (Watched f) → Prop
  | .predict => True
  | .correct _ => True
  | .setZ _ v => ∀ a ∈ v, a.clean = true ∧ |a.num.val| ≤ Z
  | .setX v => ∀ a ∈ v, a.clean = true ∧ |a.num.val| ≤ X
  | .setA v => ∀ a ∈ v, a.clean = true ∧ |a.num.val| ≤ 1
  | .setP v => ∀ a ∈ v, a.clean = true ∧ 0 ≤ a.num.val ∧ a.num.val ≤ B
  | _ => False

theorem copy_ok {T : Type} {R C : Nat} (m : Mat R C T) (v : List T) (h : v.length = m.data.length) : m.copyFromSlice v = .ok ⟨v⟩ := by
  unfold Mat.copyFromSlice
  exact if_pos h

theorem forever_step_fixed (bld : Build) {X Z q B : ℝ} {N c : Nat} (hl : Spec.LastingFixed f X q B N) (hZ : Z ≤ X) (hcN : c ≤ N) {w : World 1 (Watched f)}
    (hw : w.RunsFixed X Z q B N c) {op : Op (Watched f)} {ops : List (Op (Watched f))} (hop : op.WellFormed w) (hpc : Spec.Paced N c (op :: ops))
    (ht : TameWatched X Z B op) :
    ∃ w' c', w.step bld op = .ok w' ∧ c' ≤ N ∧ Spec.Paced N c' ops ∧ w'.RunsFixed X Z q B N c' ∧ (∀ i, op = .correct i → c' = 0) := by
  obtain ⟨⟨x, A, P, Q, hk, ha, ha1, hq, hqv, hx, hxX, hp, hp0, hp1⟩, hobs⟩ := hw
  have hkv : w.kf.Valid := ⟨hk.x.valid, hk.A.valid, hk.P.valid, hk.Q.valid, hk.predictedX, hk.tempP⟩
  cases op with
  | predict =>
    obtain ⟨hc, hpc⟩ : c < N ∧ Spec.Paced N (c + 1) ops := hpc
    obtain ⟨f', h1, h3, h5, h6⟩ := predict_any Nat.one_pos hkv hk.x hk.A hk.P hk.Q
    have hb := hl.bound (c := c + 1) hc
    push_cast at hb
    have hlim : (P 0 0).num.val + (Q 0 0).num.val < FixedPoint.lim f := by
      have := hl.variance
      rw [hqv]
      linarith
    obtain ⟨v1, v2, v3⟩ := FixedPoint.predict_grows hl.bits ha ha1 hq (hqv ▸ hl.noise) hp hp0 hlim
    have e : (Spec.mulSeq (Spec.mulSeq A P) A.transpose + Q) 0 0 = 0 + (0 + A 0 0 * P 0 0) * A 0 0 + Q 0 0 := by
      show Spec.mulSeq (Spec.mulSeq A P) A.transpose 0 0 + Q 0 0 = _
      rw [mulSeq_one, mulSeq_one]
      rfl
    have hX0 := (abs_nonneg _).trans hxX
    obtain ⟨s1, _, _, s4, _⟩ := FixedPoint.mul_shrinks (by have := hl.bits; omega) ha hx ha1 (lt_of_le_of_lt hxX (by linarith [hl.state]))
    have ex : Spec.mulVecSeq A x 0 = A 0 0 * x 0 := rfl
    refine ⟨{ w with kf := f' }, c + 1, ?_, hc, hpc, ⟨⟨_, A, _, Q, ⟨h3, h6.A ▸ hk.A, h5, h6.Q ▸ hk.Q, h6.predictedX.valid hk.predictedX, h6.tempP.valid hk.tempP⟩,
      ha, ha1, hq, hqv, ?_, ?_, ?_, ?_, ?_⟩, hobs⟩, fun _ h => nomatch h⟩
    · unfold World.step
      simp only [h1, res_bind_ok]
      rfl
    · rw [ex]; exact s1
    · rw [ex]; exact s4.trans hxX
    · rw [e]; exact v1
    · rw [e]; exact v2
    · rw [e]
      rw [hqv] at v3
      push_cast
      linarith
  | correct i =>
    have hpc : Spec.Paced N 0 ops := hpc
    have hi : i < w.obs.length := hop
    obtain ⟨o, z, R, e, ho, hzf, hzX, hRc, hR⟩ := hobs _ (List.getElem_mem hi)
    have hg : w.obs[i]? = some ⟨1, o⟩ := by rw [List.getElem?_eq_getElem hi, e]
    obtain ⟨f', o', x', P', h1, g2, g3, g4, g5, g6, g7, g8⟩ := forever_correct_fixed bld hl hcN hk ho hx hxX hp hp0 hp1 hzf (hzX.trans hZ) hRc hR
    have hfr : ∃ r, o.correct bld w.kf.x w.kf.P = .ok r ∧ f' = { w.kf with x := r.2.1, P := r.2.2 } ∧ o' = r.1 := by
      have h1 := h1
      unfold RegularKalman.correct at h1
      obtain ⟨r, q1, q2⟩ := bind_ok h1
      cases q2
      exact ⟨r, q1, rfl, rfl⟩
    obtain ⟨r, q1, rfl, rfl⟩ := hfr
    rcases correct_safe bld Nat.one_pos Nat.one_pos ho.valid hkv.x hkv.P with ⟨e', q2, _⟩ | ⟨r', q2, q3, q4, q5⟩
    · rw [q1] at q2; cases q2
    rw [q1] at q2; cases q2
    have hov := q3.valid ho.valid
    refine ⟨{ w with kf := { w.kf with x := r.2.1, P := r.2.2 }, obs := w.obs.set i ⟨1, r.1⟩ }, 0, ?_, Nat.zero_le _, hpc,
      ⟨⟨x', A, P', Q, ⟨g2, hk.A, g3, hk.Q, hk.predictedX, hk.tempP⟩, ha, ha1, hq, hqv, g4, g5, g6, g7, ?_⟩,
      fun s hs => ?_⟩, fun _ _ => rfl⟩
    · unfold World.step
      simp only [hg, h1, res_bind_ok]
      rfl
    · simp only [Nat.cast_zero, zero_mul, add_zero]
      exact g8
    rcases List.mem_or_eq_of_mem_set hs with hs | rfl
    · exact hobs s hs
    · exact ⟨r.1, z, R, rfl, ⟨q3.H ▸ ho.H, q3.z ▸ ho.z, q3.R ▸ ho.R, hov.y, hov.S, hov.K, hov.tempSInv, hov.tempHP, hov.tempPHt, hov.tempKHP⟩,
        hzf, hzX, hRc, hR⟩
  | setZ i v =>
    have hpc : Spec.Paced N c ops := hpc
    cases hg : w.obs[i]? with
    | none =>
      have : (w.obs[i]?.map fun o => o.2.z.data.length) = some v.length := hop
      rw [hg] at this
      cases this
    | some s =>
      obtain ⟨o, z, R, rfl, ho, hzf, hzX, hRc, hR⟩ := hobs s (List.mem_of_getElem? hg)
      have hlen : v.length = o.z.data.length := by
        have : (w.obs[i]?.map fun o => o.2.z.data.length) = some v.length := hop
        rw [hg] at this
        exact (Option.some.inj this).symm
      have hzv : (⟨v⟩ : Mat 1 1 (Watched f)).Valid := (show 1 * 1 ≤ o.z.data.length from ho.z.valid).trans_eq hlen.symm
      have hmem := Mat.repsV_iff.1 hzv.repsV 0 0
      have hfin := ht _ (List.mem_of_getElem? hmem)
      refine ⟨{ w with obs := w.obs.set i ⟨1, { o with z := ⟨v⟩ }⟩ }, c, ?_, hcN, hpc, ⟨⟨x, A, P, Q, hk, ha, ha1, hq, hqv, hx, hxX, hp, hp0, hp1⟩, fun s hs => ?_⟩,
        fun _ h => nomatch h⟩
      · unfold World.step
        dsimp only
        unfold World.withObs
        simp only [hg, copy_ok _ _ hlen, res_bind_ok]
        rfl
      rcases List.mem_or_eq_of_mem_set hs with hs | rfl
      · exact hobs s hs
      · exact ⟨_, _, R, rfl, ⟨ho.H, hzv.repsV, ho.R, ho.y, ho.S, ho.K, ho.tempSInv, ho.tempHP, ho.tempPHt, ho.tempKHP⟩, hfin.1, hfin.2, hRc, hR⟩
  | setX v =>
    have hpc : Spec.Paced N c ops := hpc
    have hlen : v.length = w.kf.x.data.length := hop
    have hxv : (⟨v⟩ : Mat 1 1 (Watched f)).Valid := (show 1 * 1 ≤ w.kf.x.data.length from hkv.x).trans_eq hlen.symm
    have hmem := Mat.repsV_iff.1 hxv.repsV 0 0
    have hfin := ht _ (List.mem_of_getElem? hmem)
    refine ⟨{ w with kf := { w.kf with x := ⟨v⟩ } }, c, ?_, hcN, hpc,
      ⟨⟨_, A, P, Q, ⟨hxv.repsV, hk.A, hk.P, hk.Q, hk.predictedX, hk.tempP⟩, ha, ha1, hq, hqv, hfin.1, hfin.2, hp, hp0, hp1⟩, hobs⟩, fun _ h => nomatch h⟩
    unfold World.step
    simp only [copy_ok _ _ hlen, res_bind_ok]
    rfl
  | setA v =>
    have hpc : Spec.Paced N c ops := hpc
    have hlen : v.length = w.kf.A.data.length := hop
    have hAv : (⟨v⟩ : Mat 1 1 (Watched f)).Valid := (show 1 * 1 ≤ w.kf.A.data.length from hkv.A).trans_eq hlen.symm
    have hmem := hAv.reps 0 0
    have hfin := ht _ (List.mem_of_getElem? hmem)
    refine ⟨{ w with kf := { w.kf with A := ⟨v⟩ } }, c, ?_, hcN, hpc,
      ⟨⟨x, _, P, Q, ⟨hk.x, hAv.reps, hk.P, hk.Q, hk.predictedX, hk.tempP⟩, hfin.1, hfin.2, hq, hqv, hx, hxX, hp, hp0, hp1⟩, hobs⟩, fun _ h => nomatch h⟩
    unfold World.step
    simp only [copy_ok _ _ hlen, res_bind_ok]
    rfl
  | setP v =>
    have hpc : Spec.Paced N c ops := hpc
    have hlen : v.length = w.kf.P.data.length := hop
    have hPv : (⟨v⟩ : Mat 1 1 (Watched f)).Valid := (show 1 * 1 ≤ w.kf.P.data.length from hkv.P).trans_eq hlen.symm
    have hmem := hPv.reps 0 0
    have hfin := ht _ (List.mem_of_getElem? hmem)
    refine ⟨{ w with kf := { w.kf with P := ⟨v⟩ } }, c, ?_, hcN, hpc,
      ⟨⟨x, A, _, Q, ⟨hk.x, hk.A, hPv.reps, hk.Q, hk.predictedX, hk.tempP⟩, ha, ha1, hq, hqv, hx, hxX, hfin.1, hfin.2.1,
      hfin.2.2.trans ?_⟩, hobs⟩, fun _ h => nomatch h⟩
    · unfold World.step
      simp only [copy_ok _ _ hlen, res_bind_ok]
      rfl
    · have h8 : 0 ≤ (c : ℝ) * q := mul_nonneg (Nat.cast_nonneg _) hl.noise
      linarith
  | predictTuned _ => exact ht.elim
  | control _ => exact ht.elim
  | setQ _ => exact ht.elim
  | setU _ _ => exact ht.elim
  | setB _ _ => exact ht.elim
  | setQc _ _ => exact ht.elim
  | setH _ _ => exact ht.elim
  | setR _ _ => exact ht.elim

theorem forever_run_fixed (bld : Build) {X Z q B : ℝ} {N c : Nat} (hl : Spec.LastingFixed f X q B N) (hZ : Z ≤ X) (hcN : c ≤ N) {w : World 1 (Watched f)} (hv : w.Valid)
    (hw : w.RunsFixed X Z q B N c) {ops rest : List (Op (Watched f))} (hop : ∀ op ∈ ops, op.WellFormed w) (hpc : Spec.Paced N c (ops ++ rest))
    (ht : ∀ op ∈ ops, TameWatched X Z B op) :
    ∃ w' c', w.run bld ops = .ok w' ∧ w'.Valid ∧ w.SameShape w' ∧ c' ≤ N ∧ Spec.Paced N c' rest ∧ w'.RunsFixed X Z q B N c' := by
  induction ops generalizing w c with
  | nil => exact ⟨w, c, rfl, hv, .refl _, hcN, hpc, hw⟩
  | cons op ops ih =>
    obtain ⟨w1, c', h1, k1, k2, k3, _⟩ := forever_step_fixed bld hl hZ hcN hw (hop op List.mem_cons_self) hpc (ht op List.mem_cons_self)
    obtain ⟨hv1, hs1⟩ := step_keeps hv (hop op List.mem_cons_self) h1
    obtain ⟨w2, c2, j1, j2, j3, j4, j5, j6⟩ := ih k1 hv1 k3 (fun o ho => Op.WellFormed.congr hs1 (hop o (List.mem_cons_of_mem _ ho))) k2
      (fun o ho => ht o (List.mem_cons_of_mem _ ho))
    refine ⟨w2, c2, ?_, j2, hs1.trans j3, j4, j5, j6⟩
    simp only [World.run, h1, res_bind_ok]
    exact j1

end Forever

end Minikalman
