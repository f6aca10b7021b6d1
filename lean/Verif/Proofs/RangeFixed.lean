import Verif.Spec.Range
import Verif.Proofs.Range
import Verif.Proofs.ForeverFixed

/-!
# The range of the estimate of a single state on fixed point numbers
-/

set_option linter.unusedSectionVars false

namespace Minikalman

open Matrix

namespace FixedPoint
variable {f : Nat}

theorem mul_signs {a b : Watched f} (h : (a * b).clean = true) (ha0 : 0 ≤ a.num.val) (ha1 : a.num.val ≤ 1) :
    (0 ≤ b.num.val → 0 ≤ (a * b).num.val ∧ (a * b).num.val ≤ b.num.val) ∧
      (b.num.val ≤ 0 → b.num.val ≤ (a * b).num.val ∧ (a * b).num.val ≤ 0) := by
  obtain ⟨_, _, hr⟩ := Watched.mul_clean.1 h
  have hv := val_mul hr
  have h2 : (0 : Int) < 2 ^ f := by positivity
  have h2r : (0 : ℝ) < 2 ^ f := by positivity
  have hi : (a * b).num.val = ((a.num.bits.toInt * b.num.bits.toInt / 2 ^ f : Int) : ℝ) / 2 ^ f := by
    show (a.num * b.num).val = _
    unfold val
    rw [toInt_mul hr]
  have hva : a.num.val = (a.num.bits.toInt : ℝ) / 2 ^ f := rfl
  have hvb : b.num.val = (b.num.bits.toInt : ℝ) / 2 ^ f := rfl
  have hA0 : 0 ≤ a.num.bits.toInt := by
    rw [hva] at ha0
    by_contra hc
    have : (a.num.bits.toInt : ℝ) < 0 := by exact_mod_cast not_le.1 hc
    exact absurd ha0 (not_le.2 (div_neg_of_neg_of_pos this h2r))
  have hA1 : a.num.bits.toInt ≤ 2 ^ f := by
    rw [hva, div_le_one h2r] at ha1
    exact_mod_cast ha1
  rw [hi, hvb]
  refine ⟨fun hb => ?_, fun hb => ?_⟩
  · have hB0 : 0 ≤ b.num.bits.toInt := by
      by_contra hc
      have : (b.num.bits.toInt : ℝ) < 0 := by exact_mod_cast not_le.1 hc
      exact absurd hb (not_le.2 (div_neg_of_neg_of_pos this h2r))
    refine ⟨div_nonneg (by exact_mod_cast Int.ediv_nonneg (mul_nonneg hA0 hB0) h2.le) h2r.le, ?_⟩
    rw [div_le_div_iff_of_pos_right h2r]
    have : a.num.bits.toInt * b.num.bits.toInt / 2 ^ f ≤ b.num.bits.toInt := by
      refine Int.le_of_lt_add_one ((Int.ediv_lt_iff_lt_mul h2).2 ?_)
      nlinarith
    exact_mod_cast this
  · have hB0 : b.num.bits.toInt ≤ 0 := by
      by_contra hc
      have : (0 : ℝ) < (b.num.bits.toInt : ℝ) := by exact_mod_cast not_le.1 hc
      exact absurd hb (not_le.2 (div_pos this h2r))
    refine ⟨?_, div_nonpos_of_nonpos_of_nonneg ?_ h2r.le⟩
    · rw [div_le_div_iff_of_pos_right h2r]
      have : b.num.bits.toInt ≤ a.num.bits.toInt * b.num.bits.toInt / 2 ^ f := by
        rw [Int.le_ediv_iff_mul_le h2]
        nlinarith
      exact_mod_cast this
    · have : a.num.bits.toInt * b.num.bits.toInt / 2 ^ f ≤ 0 := by
        refine Int.le_of_lt_add_one ((Int.ediv_lt_iff_lt_mul h2).2 ?_)
        nlinarith
      exact_mod_cast this

/-- A correction with a gain between 0 and 1 leads to a state between the old one and the measurement. -/
theorem correct_range {K x z : Watched f} {L H : ℝ} (hK0 : 0 ≤ K.num.val) (hK1 : K.num.val ≤ 1) (hlx : L ≤ x.num.val) (hxh : x.num.val ≤ H)
    (hlz : L ≤ z.num.val) (hzh : z.num.val ≤ H) (hfin : (x + K * (z - x)).clean = true) :
    L ≤ (x + K * (z - x)).num.val ∧ (x + K * (z - x)).num.val ≤ H := by
  obtain ⟨_, hk, hr⟩ := Watched.add_clean.1 hfin
  obtain ⟨_, hy, _⟩ := Watched.mul_clean.1 hk
  obtain ⟨_, _, hr2⟩ := Watched.sub_clean.1 hy
  have e1 : (x + K * (z - x)).num.val = x.num.val + (K * (z - x)).num.val := val_add hr
  have e2 : (z - x).num.val = z.num.val - x.num.val := val_sub hr2
  obtain ⟨h1, h2⟩ := mul_signs hk hK0 hK1
  rw [e1]
  rcases le_total 0 (z - x).num.val with h | h
  · obtain ⟨h3, h4⟩ := h1 h
    constructor <;> linarith
  · obtain ⟨h3, h4⟩ := h2 h
    constructor <;> linarith

theorem val_inj {a b : FixedPoint f} (h : a.val = b.val) : a = b := by
  unfold val at h
  have h2r : (2 : ℝ) ^ f ≠ 0 := by positivity
  have h3 : (a.bits.toInt : ℝ) = b.bits.toInt := (div_left_inj' h2r).1 h
  have h4 : a.bits.toInt = b.bits.toInt := by exact_mod_cast h3
  cases a; cases b
  congr 1
  exact BitVec.eq_of_toInt_eq h4

theorem predict_range (hf : 2 ≤ f) {a x : Watched f} {L H : ℝ} (ha : a.clean = true) (hs : Spec.Steady L H a.num.val) (hx : x.clean = true)
    (hlx : L ≤ x.num.val) (hxh : x.num.val ≤ H) (hfin : (a * x).clean = true) : L ≤ (a * x).num.val ∧ (a * x).num.val ≤ H := by
  rcases hs with h1 | ⟨h0, h1, h2, h3⟩
  · have e : a = 1 := by
      have : a.num = 1 := val_inj (by rw [h1, val_one hf])
      cases a
      cases this
      cases ha
      rfl
    rw [e, one_mul_clean hf hx]
    exact ⟨hlx, hxh⟩
  · obtain ⟨k1, k2⟩ := mul_signs hfin h0 h1
    rcases le_total 0 x.num.val with h | h
    · obtain ⟨j1, j2⟩ := k1 h
      constructor <;> linarith
    · obtain ⟨j1, j2⟩ := k2 h
      constructor <;> linarith

set_option maxHeartbeats 1000000 in
/-- The gain is between 0 and 1. -/
theorem gain_unit (hf : 2 ≤ f) {p R q d : Watched f} {M r : ℝ} (hp : p.clean = true) (hp0 : 0 ≤ p.num.val) (hpM : p.num.val ≤ M)
    (hR : R.clean = true) (hr : R.num.val = r) (hroot : res f < √r) (hrec : 1 < (√r - res f) * lim f) (hinv : (1 / √r + rootErr f r) ^ 2 < lim f)
    (hgain : M * inverseErr f r 0 * (M + r) ≤ r) (hfit : M + r < lim f)
    (hq : MDT.squareRoot (p + R) = .ok q) (hd : MDT.recip q = .ok d) :
    0 ≤ (0 + p * scalarInverse d).num.val ∧ (0 + p * scalarInverse d).num.val ≤ 1 := by
  have h1f : 1 ≤ f := by omega
  have hres : 0 < res f := res_pos
  have hr0 : 0 < r := Real.sqrt_pos.1 (hres.trans hroot)
  obtain ⟨ε, hε⟩ : ∃ ε, ε = inverseErr f r 0 := ⟨_, rfl⟩
  obtain ⟨c1, e1⟩ := add_fits h1f hp hR (by rw [hr, abs_of_nonneg (by linarith)]; linarith)
  rw [hr] at e1
  obtain ⟨v, hv⟩ : ∃ v, v = p.num.val + r := ⟨_, rfl⟩
  have hv0 : 0 < v := by linarith
  obtain ⟨⟨c2, e2⟩, _, _⟩ := inverse_fit hf (S := p + R) (v := v) (E := 0) (s := r) ⟨c1, by rw [e1, hv, sub_self, abs_zero]⟩
    (by linarith) hroot hrec hinv hq hd
  rw [← hε] at e2 hgain
  have hε0 : 0 ≤ ε := le_trans (abs_nonneg _) e2
  have hd0 : 0 ≤ (scalarInverse d).num.val := by
    by_contra hc
    have hdc : d.clean = true := (Watched.mul_clean.1 c2).2.1
    rw [scalarInverse_clean hf hdc] at hc c2
    have hh := Watched.mul_int c2
    refine hc ?_
    unfold val
    rw [hh]
    refine div_nonneg ?_ (by positivity)
    exact_mod_cast Int.ediv_nonneg (mul_self_nonneg _) (by positivity)
  generalize scalarInverse d = s at c2 e2 hd0 ⊢
  have e2' := abs_le.1 e2
  have hM0 : 0 ≤ M := hp0.trans hpM
  have hMr : 0 < M + r := by linarith
  have hps : p.num.val * s.num.val ≤ 1 := by
    have h1 : p.num.val * s.num.val ≤ p.num.val * (1 / v + ε) := mul_le_mul_of_nonneg_left (by linarith) hp0
    have h2 : M * ε ≤ r / (M + r) := by rw [le_div_iff₀ hMr]; exact hgain
    have h3 : p.num.val * ε ≤ M * ε := mul_le_mul_of_nonneg_right hpM hε0
    have h4 : r / (M + r) ≤ r / v := by
      refine div_le_div_of_nonneg_left hr0.le hv0 (by linarith)
    have h5 : p.num.val * (1 / v) + r / v = 1 := by rw [mul_one_div, ← add_div, hv]; exact div_self (by linarith)
    linarith
  have hps0 : 0 ≤ p.num.val * s.num.val := mul_nonneg hp0 hd0
  have hlim1 : 1 < lim f := by
    unfold lim
    have : (2 : ℝ) ^ 2 ≤ 2 ^ f := pow_le_pow_right₀ (by norm_num) hf
    linarith
  have hrng : InRange f (p.num.bits.toInt * s.num.bits.toInt / 2 ^ f) :=
    inRange_mul h1f (show |p.num.val * s.num.val| < lim f by rw [abs_of_nonneg hps0]; linarith)
  have hvm := val_mul hrng
  have hc : (p * s).clean = true := Watched.mul_clean.2 ⟨hp, c2, hrng⟩
  rw [zero_add_clean hc]
  refine ⟨?_, hvm.1.trans hps⟩
  have hh := Watched.mul_int hc
  unfold val
  rw [hh]
  refine div_nonneg ?_ (by positivity)
  have hp' : 0 ≤ p.num.bits.toInt := by
    unfold val at hp0
    have := (div_nonneg_iff.1 hp0).resolve_right fun h => absurd h.2 (not_le.2 (by positivity))
    exact_mod_cast this.1
  have hs' : 0 ≤ s.num.bits.toInt := by
    unfold val at hd0
    have := (div_nonneg_iff.1 hd0).resolve_right fun h => absurd h.2 (not_le.2 (by positivity))
    exact_mod_cast this.1
  exact_mod_cast Int.ediv_nonneg (mul_nonneg hp' hs') (by positivity)

end FixedPoint

section Range
variable {f : Nat}

open FixedPoint in
/-- A correction moves the state by the innovation times a gain between 0 and 1. -/
theorem range_correct_fixed (bld : Build) {X q B : ℝ} {N c : Nat} (hl : Spec.LastingFixed f X q B N) (hcN : c ≤ N)
    {k k' : RegularKalman 1 (Watched f)} {o o' : RegularObservation 1 1 (Watched f)} {x A P Q z R} (hf : k.Reps x A P Q)
    (ho : o.Reps (Spec.direct 0) z R) (hx : (x 0).clean = true) (hp : (P 0 0).clean = true)
    (hp0 : 0 ≤ (P 0 0).num.val) (hp1 : (P 0 0).num.val ≤ B + c * q) (hRc : (R 0 0).clean = true) (hR : Spec.BalancedFixed f N q B (R 0 0).num.val)
    (h : k.correct bld o = .ok (k', o')) :
    ∃ K : Watched f, 0 ≤ K.num.val ∧ K.num.val ≤ 1 ∧ k'.x.RepsV (fun _ => x 0 + K * (z 0 - x 0)) := by
  obtain ⟨y1, y2, h1, h2, h3, h4⟩ := innovation_any Nat.one_pos ho.valid ho.H ho.z hf.x
  have hhx : Spec.mulVecSeq (Spec.direct (T := Watched f) (0 : Fin 1)) x 0 = x 0 := one_mul_clean hl.bits hx
  unfold RegularKalman.correct RegularObservation.correct at h
  simp only [h1, h2, res_bind_ok] at h
  obtain ⟨r', hr', h⟩ := bind_ok h
  cases h
  have h2 := hl.bits
  have hpB := hp1.trans (hl.bound hcN)
  have d0 : (Spec.direct (T := Watched f) (0 : Fin 1)) 0 0 = 1 := rfl
  have c1 : Spec.mulSeq P (Spec.direct 0)ᵀ 0 0 = P 0 0 := by
    rw [mulSeq_one, transpose_apply, d0, mul_one_clean h2 hp, zero_add_clean hp]
  have c2 : Spec.mulSeq (Spec.direct 0) P 0 0 = P 0 0 := by
    rw [mulSeq_one, d0, one_mul_clean h2 hp, zero_add_clean hp]
  have c3 : Spec.mulSeq (Spec.mulSeq (Spec.direct 0) P) (Spec.direct 0)ᵀ 0 0 = P 0 0 := by
    rw [mulSeq_one, transpose_apply, d0, c2, mul_one_clean h2 hp, zero_add_clean hp]
  have hr0 : 0 < (R 0 0).num.val := Real.sqrt_pos.1 (res_pos.trans hR.root)
  have hle : MDT.le (P 0 0 + R 0 0) 0 = false := by
    rw [Bool.eq_false_iff]
    intro hc
    obtain ⟨_, e⟩ := add_fits (by omega) hp hRc (by
      rw [abs_of_nonneg (by linarith)]
      linarith [hR.fits])
    have h3 : (P 0 0 + R 0 0).num.val ≤ (0 : FixedPoint f).val := FixedPoint.le_iff.1 (show MDT.le (P 0 0 + R 0 0).num 0 = true from hc)
    rw [e, val_zero] at h3
    linarith
  have := safeRoots_watched (f := f) (by omega)
  obtain ⟨r, sq, d, k1, k2, k3, _, k5, _, _⟩ := scalar_update_ok bld (o := { o with y := y2 }) Nat.one_pos (obs_with_y_valid ho.valid h4) ho.H ho.R
    hf.P hf.x h3 (c3.symm ▸ hle)
  rw [k1] at hr'
  cases hr'
  rw [c3] at k2
  obtain ⟨j1, j2⟩ := gain_unit h2 hp hp0 hpB hRc rfl hR.root hR.recip hR.inverse hR.gain hR.fits k2 k3
  refine ⟨_, j1, j2, fun i => ?_⟩
  rw [k5 i, Subsingleton.elim i 0]
  show some (x 0 + (0 + Spec.mulSeq P (Spec.direct 0)ᵀ 0 0 * scalarInverse d) * (z 0 - Spec.mulVecSeq (Spec.direct 0) x 0)) = _
  rw [c1, hhx]

/-- The state and the measurements are within the range. -/
structure World.WithinFixed (w : World 1 (Watched f)) (L H : ℝ) : Prop where
  kf : ∃ x A, w.kf.x.RepsV x ∧ w.kf.A.Reps A ∧ L ≤ (x 0).num.val ∧ (x 0).num.val ≤ H ∧ Spec.Steady L H (A 0 0).num.val
  obs : ∀ s ∈ w.obs, ∃ (o : RegularObservation 1 1 (Watched f)) (z : _), s = ⟨1, o⟩ ∧ o.z.RepsV z ∧ L ≤ (z 0).num.val ∧ (z 0).num.val ≤ H

/-- The calls, for watched numbers. -/
def RangedWatched (L H B : ℝ) : Op (Watched f) → Prop
  | .predict => True
  | .correct _ => True
  | .setZ _ v => ∀ a ∈ v, a.clean = true ∧ L ≤ a.num.val ∧ a.num.val ≤ H
  | .setX v => ∀ a ∈ v, a.clean = true ∧ L ≤ a.num.val ∧ a.num.val ≤ H
  | .setA v => ∀ a ∈ v, a.clean = true ∧ Spec.Steady L H a.num.val
  | .setP v => ∀ a ∈ v, a.clean = true ∧ 0 ≤ a.num.val ∧ a.num.val ≤ B
  | _ => False

theorem ranged_tame_fixed {M B L H : ℝ} (hlM : |L| ≤ M) (hhM : |H| ≤ M) {op : Op (Watched f)}
    (ht : RangedWatched L H B op) : TameWatched M M B op := by
  have h1 := abs_le.1 hlM
  have h2 := abs_le.1 hhM
  cases op with
  | predict => trivial
  | correct => trivial
  | setZ i v =>
    intro a ha
    obtain ⟨g1, g2, g3⟩ := ht a ha
    exact ⟨g1, abs_le.2 ⟨by linarith, by linarith⟩⟩
  | setX v =>
    intro a ha
    obtain ⟨g1, g2, g3⟩ := ht a ha
    exact ⟨g1, abs_le.2 ⟨by linarith, by linarith⟩⟩
  | setA v =>
    intro a ha
    obtain ⟨g1, g2⟩ := ht a ha
    refine ⟨g1, ?_⟩
    rcases g2 with g2 | ⟨g2, g3, _⟩
    · rw [g2, abs_one]
    · rw [abs_of_nonneg g2]; exact g3
  | setP v => exact ht
  | _ => exact ht.elim

set_option maxHeartbeats 400000 in
theorem range_step_fixed (bld : Build) {M q B L H : ℝ} {N c : Nat} (hl : Spec.LastingFixed f M q B N) (hcN : c ≤ N) {w w' : World 1 (Watched f)}
    (hw : w.RunsFixed M M q B N c) (hw2 : w.WithinFixed L H) {c' : Nat} (hw' : w'.RunsFixed M M q B N c') {op : Op (Watched f)} (hop : op.WellFormed w)
    (ht : RangedWatched L H B op) (hs : w.step bld op = .ok w') : w'.WithinFixed L H := by
  obtain ⟨⟨x, A, P, Q, hk, ha, _, _, _, hx, _, hp, hp0, hp1⟩, hobs⟩ := hw
  obtain ⟨⟨x0, A0, e1, e2, hlx, hxh, hst⟩, hobs2⟩ := hw2
  obtain rfl := Mat.RepsV.unique e1 hk.x
  obtain rfl := Mat.Reps.unique e2 hk.A
  obtain ⟨⟨x', A', _, _, hk', _, _, _, _, hx', _⟩, _⟩ := hw'
  have hkv : w.kf.Valid := ⟨hk.x.valid, hk.A.valid, hk.P.valid, hk.Q.valid, hk.predictedX, hk.tempP⟩
  cases op with
  | predict =>
    obtain ⟨f', h1, h3, _, h6⟩ := predict_any Nat.one_pos hkv hk.x hk.A hk.P hk.Q
    unfold World.step at hs
    simp only [h1, res_bind_ok] at hs
    cases hs
    obtain rfl := Mat.RepsV.unique h3 hk'.x
    have ex : Spec.mulVecSeq A0 x0 0 = A0 0 0 * x0 0 := rfl
    rw [ex] at hx'
    obtain ⟨g1, g2⟩ := FixedPoint.predict_range hl.bits ha hst hx hlx hxh hx'
    exact ⟨⟨_, A0, h3, h6.A ▸ hk.A, by rw [ex]; exact g1, by rw [ex]; exact g2, hst⟩, hobs2⟩
  | correct i =>
    have hi : i < w.obs.length := hop
    obtain ⟨o, z, R, e, ho, hzf, _, hRc, hR⟩ := hobs _ (List.getElem_mem hi)
    obtain ⟨o0, z0, e0, ho0, hzlo, hzhi⟩ := hobs2 _ (List.getElem_mem hi)
    rw [e] at e0
    cases e0
    obtain rfl := Mat.RepsV.unique ho.z ho0
    unfold World.step at hs
    have hg : w.obs[i]? = some ⟨1, o⟩ := by rw [List.getElem?_eq_getElem hi, e]
    simp only [hg] at hs
    obtain ⟨⟨f', o'⟩, h1, hs⟩ := bind_ok hs
    cases hs
    obtain ⟨K, k2, k3, k4⟩ := range_correct_fixed bld hl hcN hk ho hx hp hp0 hp1 hRc hR h1
    have hfr : ∃ r, o.correct bld w.kf.x w.kf.P = .ok r ∧ f' = { w.kf with x := r.2.1, P := r.2.2 } ∧ o' = r.1 := by
      unfold RegularKalman.correct at h1
      obtain ⟨r, q1, q2⟩ := bind_ok h1
      cases q2
      exact ⟨r, q1, rfl, rfl⟩
    obtain ⟨r, q1, rfl, rfl⟩ := hfr
    rcases correct_safe bld Nat.one_pos Nat.one_pos ho.valid hkv.x hkv.P with ⟨e', q2, _⟩ | ⟨r', q2, q3, _⟩
    · rw [q1] at q2; cases q2
    rw [q1] at q2; cases q2
    obtain rfl := Mat.RepsV.unique k4 hk'.x
    obtain ⟨g1, g2⟩ := FixedPoint.correct_range k2 k3 hlx hxh hzlo hzhi hx'
    refine ⟨⟨_, A0, k4, hk.A, g1, g2, hst⟩, fun s hs => ?_⟩
    rcases List.mem_or_eq_of_mem_set hs with hs | rfl
    · exact hobs2 s hs
    · exact ⟨r.1, z, rfl, q3.z ▸ ho.z, hzlo, hzhi⟩
  | setZ i v =>
    unfold World.step at hs
    dsimp only at hs
    unfold World.withObs at hs
    cases hg : w.obs[i]? with
    | none => rw [hg] at hs; cases hs
    | some s =>
      obtain ⟨o, z, rfl, ho, _, _⟩ := hobs2 s (List.mem_of_getElem? hg)
      simp only [hg] at hs
      obtain ⟨o', h1, hs⟩ := bind_ok hs
      obtain ⟨z', h3, h1⟩ := bind_ok h1
      cases h1
      cases hs
      obtain ⟨hz', hlen⟩ := copy_data h3
      have hzv : z'.Valid := (show 1 * 1 ≤ o.z.data.length from ho.valid).trans_eq (by rw [hz', hlen])
      have hmem := Mat.repsV_iff.1 hzv.repsV 0 0
      rw [hz'] at hmem
      have hfin := ht _ (List.mem_of_getElem? hmem)
      refine ⟨⟨x0, A0, e1, e2, hlx, hxh, hst⟩, fun s hs => ?_⟩
      rcases List.mem_or_eq_of_mem_set hs with hs | rfl
      · exact hobs2 s hs
      · exact ⟨_, _, rfl, hzv.repsV, hfin.2⟩
  | setX v =>
    unfold World.step at hs
    obtain ⟨x1, h1, hs⟩ := bind_ok hs
    cases hs
    obtain ⟨hz', hlen⟩ := copy_data h1
    have hzv : x1.Valid := (show 1 * 1 ≤ w.kf.x.data.length from hkv.x).trans_eq (by rw [hz', hlen])
    have hmem := Mat.repsV_iff.1 hzv.repsV 0 0
    rw [hz'] at hmem
    have hfin := ht _ (List.mem_of_getElem? hmem)
    exact ⟨⟨_, A0, hzv.repsV, e2, hfin.2.1, hfin.2.2, hst⟩, hobs2⟩
  | setA v =>
    unfold World.step at hs
    obtain ⟨A1, h1, hs⟩ := bind_ok hs
    cases hs
    obtain ⟨hz', hlen⟩ := copy_data h1
    have hAv : A1.Valid := (show 1 * 1 ≤ w.kf.A.data.length from hkv.A).trans_eq (by rw [hz', hlen])
    have hmem := hAv.reps 0 0
    rw [hz'] at hmem
    have hfin := ht _ (List.mem_of_getElem? hmem)
    exact ⟨⟨x0, _, e1, hAv.reps, hlx, hxh, hfin.2⟩, hobs2⟩
  | setP v =>
    unfold World.step at hs
    obtain ⟨P1, h1, hs⟩ := bind_ok hs
    cases hs
    exact ⟨⟨x0, A0, e1, e2, hlx, hxh, hst⟩, hobs2⟩
  | predictTuned _ => exact ht.elim
  | control _ => exact ht.elim
  | setQ _ => exact ht.elim
  | setU _ _ => exact ht.elim
  | setB _ _ => exact ht.elim
  | setQc _ _ => exact ht.elim
  | setH _ _ => exact ht.elim
  | setR _ _ => exact ht.elim

theorem range_run_fixed (bld : Build) {M q B L H : ℝ} {N c : Nat} (hl : Spec.LastingFixed f M q B N) (hcN : c ≤ N)
    (hlM : |L| ≤ M) (hhM : |H| ≤ M) {w : World 1 (Watched f)} (hv : w.Valid)
    (hw : w.RunsFixed M M q B N c) (hw2 : w.WithinFixed L H) {ops rest : List (Op (Watched f))} (hop : ∀ op ∈ ops, op.WellFormed w)
    (hpc : Spec.Paced N c (ops ++ rest)) (ht : ∀ op ∈ ops, RangedWatched L H B op) :
    ∃ w' c', w.run bld ops = .ok w' ∧ c' ≤ N ∧ Spec.Paced N c' rest ∧ w'.RunsFixed M M q B N c' ∧ w'.WithinFixed L H := by
  induction ops generalizing w c with
  | nil => exact ⟨w, c, rfl, hcN, hpc, hw, hw2⟩
  | cons op ops ih =>
    have ho := hop op List.mem_cons_self
    have hto := ht op List.mem_cons_self
    obtain ⟨w1, c', h1, k1, k2, k3, _⟩ := forever_step_fixed bld hl le_rfl hcN hw ho hpc (ranged_tame_fixed hlM hhM hto)
    obtain ⟨hv1, hs1⟩ := step_keeps hv ho h1
    obtain ⟨w2, c2, j1, j4, j5, j6, j7⟩ := ih k1 hv1 k3 (range_step_fixed bld hl hcN hw hw2 k3 ho hto h1)
      (fun o ho => Op.WellFormed.congr hs1 (hop o (List.mem_cons_of_mem _ ho))) k2 (fun o ho => ht o (List.mem_cons_of_mem _ ho))
    refine ⟨w2, c2, ?_, j4, j5, j6, j7⟩
    simp only [World.run, h1, res_bind_ok]
    exact j1

end Range

end Minikalman
