import Verif.Spec.Range
import Verif.Proofs.Forever

/-!
# The range of the estimate of a single state in floating point
-/

set_option linter.unusedSectionVars false

namespace Minikalman

open Matrix

namespace Bin
variable {fmt : Format}

/-- Integer multiples of the smallest number that are not too large are numbers. -/
theorem small_is {k : Int} (h : k.natAbs < 2 ^ fmt.prec) (ht : fmt.prec ≤ fmt.top) : ∃ c : Bin fmt, c.Is ((k : ℝ) / 2 ^ fmt.frac) := by
  have hr : fmt.Rep k.natAbs := by
    have := Format.rep_mul (fmt := fmt) (m := k.natAbs) (s := 0) h.le (by rw [pow_zero, mul_one]; exact lt_of_lt_of_le h (Nat.pow_le_pow_right (by norm_num) ht))
    rwa [pow_zero, mul_one] at this
  refine ⟨.fin (decide (k < 0)) k.natAbs hr, trivial, ?_⟩
  rw [val_fin, sgn_natAbs]

theorem units {a : Bin fmt} (ha : a.Finite) : ∃ k : Int, a.val = (k : ℝ) / 2 ^ fmt.frac := by
  obtain ⟨s, k, hk, rfl⟩ := (finite_iff a).1 ha
  exact ⟨signed s k, by rw [val_fin, signed_cast]⟩

/-- Small differences are exact. -/
theorem sub_small {a b : Bin fmt} (ha : a.Finite) (hb : b.Finite) (ht : fmt.prec ≤ fmt.top) (h : |a.val - b.val| < 2 ^ fmt.prec / 2 ^ fmt.frac) :
    ∃ c : Bin fmt, c.Is (a.val - b.val) := by
  obtain ⟨k, e⟩ := units ha
  obtain ⟨j, e'⟩ := units hb
  have hF : (0 : ℝ) < 2 ^ fmt.frac := by positivity
  have e2 : a.val - b.val = ((k - j : Int) : ℝ) / 2 ^ fmt.frac := by rw [e, e', ← sub_div]; push_cast; rfl
  rw [e2] at h ⊢
  refine small_is ?_ ht
  rw [abs_div, abs_of_pos hF, div_lt_div_iff_of_pos_right hF, ← Int.cast_abs, Int.abs_eq_natAbs] at h
  exact_mod_cast h

/-- A correction with a gain between 0 and 1, and not too near to 1, leads to a state between the old one and the measurement. -/
theorem correct_between {K x z hx : Bin fmt} {u η : ℝ} (hu : u = 1 / 2 ^ fmt.prec) (hη : η = 1 / 2 ^ (fmt.frac + 1)) (hu' : u ≤ 1 / 1024)
    (ht : fmt.prec ≤ fmt.top) (hK : K.Finite) (hK0 : 0 ≤ K.val) (hK1 : K.val ≤ 1 - 8 * u) (hxf : x.Finite) (hzf : z.Finite)
    (hhx : hx.Is x.val) (hfin : (x + K * (z - hx)).Finite) :
    min x.val z.val ≤ (x + K * (z - hx)).val ∧ (x + K * (z - hx)).val ≤ max x.val z.val := by
  have hkf := (add_finite hfin).2
  have hyf := (mul_finite hkf).2
  have hyr := sub_rounds hzf hhx.1
  have hye := sub_error hyf
  have hkr := mul_rounds hK hyf
  have hke := mul_error hkf
  have hsr := add_rounds hxf hkf
  rw [hhx.2] at hyr hye
  have hu0 : 0 < u := by rw [hu]; positivity
  have hη0 : 0 < η := by rw [hη]; positivity
  rw [← hu] at hye
  rw [← hu, ← hη] at hke
  -- either the innovation is exact, or it is so large that underflow does not matter
  have hex : (z - hx).val = z.val - x.val ∨ η ≤ u * |z.val - x.val| := by
    rcases lt_or_ge |z.val - x.val| (2 ^ fmt.prec / 2 ^ fmt.frac) with h | h
    · obtain ⟨c, hc⟩ := sub_small hzf hxf ht h
      exact .inl (RoundsTo.exact hyr hc.1 hc.2).2
    · right
      have h1 : η ≤ u * (2 ^ fmt.prec / 2 ^ fmt.frac) := by
        have e : u * (2 ^ fmt.prec / 2 ^ fmt.frac) = 1 / 2 ^ fmt.frac := by
          rw [hu]
          field_simp
        rw [e, hη]
        exact one_div_le_one_div_of_le (by positivity) (pow_le_pow_right₀ (by norm_num) (by omega))
      exact h1.trans (mul_le_mul_of_nonneg_left h hu0.le)
  generalize z - hx = y at hkf hyf hyr hye hkr hke hsr hfin hex ⊢
  have hye := abs_le.1 hye
  -- the change of the state is at most the difference
  have key : |(K * y).val| ≤ |z.val - x.val| := by
    rcases hex with h | h
    · have hm : |K.val * y.val| ≤ |y.val| := by
        rw [abs_mul, abs_of_nonneg hK0]
        exact mul_le_of_le_one_left (abs_nonneg _) (by linarith)
      have hm' := abs_le.1 hm
      rw [← h]
      rcases le_total 0 y.val with hy | hy
      · rw [abs_of_nonneg hy] at hm' ⊢
        refine abs_le.2 ⟨?_, rounds_le_fin hkr hkf hyf hm'.2⟩
        have := rounds_ge_fin hkr hkf (y := -y) (neg_finite.2 hyf) (by rw [neg_val]; exact hm'.1)
        rwa [neg_val] at this
      · rw [abs_of_nonpos hy] at hm' ⊢
        refine abs_le.2 ⟨?_, ?_⟩
        · rw [neg_neg] at hm' ⊢
          exact rounds_ge_fin hkr hkf hyf hm'.1
        · have := rounds_le_fin hkr hkf (y := -y) (neg_finite.2 hyf) (by rw [neg_val]; exact hm'.2)
          rwa [neg_val] at this
    · have h1 : |y.val| ≤ (1 + u) * |z.val - x.val| := by
        have h2 : |y.val| ≤ |y.val - (z.val - x.val)| + |z.val - x.val| := by
          have := abs_add_le (y.val - (z.val - x.val)) (z.val - x.val)
          rwa [sub_add_cancel] at this
        have h3 : |y.val - (z.val - x.val)| ≤ u * |z.val - x.val| := abs_le.2 hye
        linarith
      have h2 : |K.val * y.val| ≤ (1 - 8 * u) * ((1 + u) * |z.val - x.val|) := by
        rw [abs_mul, abs_of_nonneg hK0]
        exact mul_le_mul hK1 h1 (abs_nonneg _) (by linarith)
      have h3 : |(K * y).val| ≤ |(K * y).val - K.val * y.val| + |K.val * y.val| := by
        have := abs_add_le ((K * y).val - K.val * y.val) (K.val * y.val)
        rwa [sub_add_cancel] at this
      have h4 : u * |K.val * y.val| ≤ u * ((1 - 8 * u) * ((1 + u) * |z.val - x.val|)) := mul_le_mul_of_nonneg_left h2 hu0.le
      have hd := abs_nonneg (z.val - x.val)
      generalize |z.val - x.val| = D at *
      have h5 : (1 - 8 * u) * ((1 + u) * D) ≤ (1 - 7 * u) * D := by
        have : 0 ≤ u * u * D := by positivity
        nlinarith
      have h6 : u * ((1 - 8 * u) * ((1 + u) * D)) ≤ u * D := by
        refine mul_le_mul_of_nonneg_left (h5.trans ?_) hu0.le
        have : 0 ≤ u * D := by positivity
        linarith
      have h7 : 0 ≤ u * D := by positivity
      linarith
  have key' := abs_le.1 key
  rcases le_total 0 (z.val - x.val) with hzx | hzx
  · have hy0 : 0 ≤ y.val := by
      have := rounds_ge_fin hyr hyf (y := 0) trivial (by rw [zero_val]; exact hzx)
      rwa [zero_val] at this
    have hk0 : 0 ≤ (K * y).val := by
      have := rounds_ge_fin hkr hkf (y := 0) trivial (by rw [zero_val]; exact mul_nonneg hK0 hy0)
      rwa [zero_val] at this
    rw [abs_of_nonneg hzx] at key'
    rw [min_eq_left (by linarith), max_eq_right (by linarith)]
    exact ⟨rounds_ge_fin hsr hfin hxf (by linarith), rounds_le_fin hsr hfin hzf (by linarith)⟩
  · have hy0 : y.val ≤ 0 := by
      have := rounds_le_fin hyr hyf (y := 0) trivial (by rw [zero_val]; exact hzx)
      rwa [zero_val] at this
    have hk0 : (K * y).val ≤ 0 := by
      have := rounds_le_fin hkr hkf (y := 0) trivial (by rw [zero_val]; exact mul_nonpos_of_nonneg_of_nonpos hK0 hy0)
      rwa [zero_val] at this
    rw [abs_of_nonpos hzx] at key'
    rw [min_eq_right (by linarith), max_eq_left (by linarith)]
    exact ⟨rounds_ge_fin hsr hfin hzf (by linarith), rounds_le_fin hsr hfin hxf (by linarith)⟩

theorem predict_range {a x : Bin fmt} {L H : ℝ} (ha : a.Finite) (hs : Spec.Steady L H a.val) (hxf : x.Finite)
    (hlx : L ≤ x.val) (hxh : x.val ≤ H) (hfin : (a * x).Finite) : L ≤ (a * x).val ∧ (a * x).val ≤ H := by
  have hr := mul_rounds ha hxf
  rcases hs with h1 | ⟨h0, h1, h2, h3⟩
  · rw [h1, one_mul] at hr
    rw [(RoundsTo.exact hr hxf rfl).2]
    exact ⟨hlx, hxh⟩
  · rcases le_total 0 x.val with h | h
    · have k1 := rounds_ge_fin hr hfin (y := 0) trivial (by rw [zero_val]; exact mul_nonneg h0 h)
      rw [zero_val] at k1
      have k2 := rounds_le_fin hr hfin hxf (mul_le_of_le_one_left h h1)
      constructor <;> linarith
    · have k1 := rounds_le_fin hr hfin (y := 0) trivial (by rw [zero_val]; exact mul_nonpos_of_nonneg_of_nonpos h0 h)
      rw [zero_val] at k1
      have k2 := rounds_ge_fin hr hfin hxf (by
        have := mul_le_mul_of_nonneg_right h1 (neg_nonneg.2 h)
        linarith)
      constructor <;> linarith

/-- The gain is between 0 and 1, and not too near to 1. -/
theorem gain_unit {p r u : ℝ} {c s : Bin fmt} (hu : u = 1 / 2 ^ fmt.prec) (hu' : u ≤ 1 / 1024) (hfr : fmt.prec ≤ fmt.frac) (hp0 : 0 ≤ p)
    (hpr : 64 * u * p ≤ r) (hc : c.Is p) (hs : s.Finite) (hs0 : 0 ≤ s.val) (hs1 : p * s.val ≤ 1) (hs2 : s.val * (p + r) ≤ 1 + 16 * u) :
    (0 + c * s).Finite ∧ 0 ≤ (0 + c * s).val ∧ (0 + c * s).val ≤ 1 - 8 * u := by
  have hps : 0 ≤ p * s.val := mul_nonneg hp0 hs0
  have hu0 : 0 < u := by rw [hu]; positivity
  have hcr := mul_rounds hc.1 hs
  rw [hc.2] at hcr
  have h3 : (c * s).Finite := rounds_fin hcr (y := 1) trivial (by rw [one_val, abs_one, abs_of_nonneg hps]; exact hs1)
  have hK0 : 0 ≤ (c * s).val := by
    have := rounds_ge_fin hcr h3 (y := 0) trivial (by rw [zero_val]; exact hps)
    rwa [zero_val] at this
  have hKI := nil_add nil_zero h3
  rw [hKI.2]
  refine ⟨hKI.1, hK0, ?_⟩
  have he := mul_error h3
  rw [hc.2, abs_of_nonneg hps, ← hu] at he
  have he := (abs_le.1 he).2
  have hη : (1 : ℝ) / 2 ^ (fmt.frac + 1) ≤ u := by
    rw [hu]
    exact one_div_le_one_div_of_le (by positivity) (pow_le_pow_right₀ (by norm_num) (by omega))
  -- `p s (1 + 64 u) <= s (p + r) <= 1 + 16 u`
  have h4 : p * s.val * (1 + 64 * u) ≤ 1 + 16 * u := by
    have := mul_le_mul_of_nonneg_left hpr hs0
    linarith
  have h5 : p * s.val ≤ 1 - 16 * u := by
    have h6 : 1 + 16 * u ≤ (1 - 16 * u) * (1 + 64 * u) := by nlinarith
    exact le_of_mul_le_mul_right (h4.trans h6) (by linarith)
  have h6 : u * (p * s.val) ≤ u * 1 := mul_le_mul_of_nonneg_left hs1 hu0.le
  linarith

end Bin

section Range
variable {fmt : Format}

set_option maxHeartbeats 1000000 in
/-- A correction leads to a state between the old one and the measurement. -/
theorem range_correct (bld : Build) {X q B : ℝ} {N c : Nat} (hl : Spec.Lasting fmt X q B N) (hcN : c ≤ N)
    {f f' : RegularKalman 1 (Bin fmt)} {o o' : RegularObservation 1 1 (Bin fmt)} {x A P Q z R} (hf : f.Reps x A P Q)
    (ho : o.Reps (Spec.direct 0) z R) (hx : (x 0).Finite) (hz : (z 0).Finite) (hp : (P 0 0).Finite) (hp0 : 0 ≤ (P 0 0).val)
    (hp1 : (P 0 0).val ≤ (1 + 1 / 2 ^ fmt.prec) ^ c * (B + c * q)) (hR : Spec.Balanced fmt N q B (R 0 0).val)
    (h : f.correct bld o = .ok (f', o')) :
    ∃ x', f'.x.RepsV x' ∧ ((x' 0).Finite → min (x 0).val (z 0).val ≤ (x' 0).val ∧ (x' 0).val ≤ max (x 0).val (z 0).val) := by
  obtain ⟨y1, y2, h1, h2, h3, h4⟩ := innovation_any Nat.one_pos ho.valid ho.H ho.z hf.x
  unfold RegularKalman.correct RegularObservation.correct at h
  simp only [h1, h2, res_bind_ok] at h
  obtain ⟨r', hr', h⟩ := bind_ok h
  cases h
  obtain ⟨u, hu⟩ : ∃ u : ℝ, u = 1 / 2 ^ fmt.prec := ⟨_, rfl⟩
  have hu0 : 0 < u := by rw [hu]; positivity
  have hu' : u ≤ 1 / 1024 := by
    rw [hu]
    refine one_div_le_one_div_of_le (by norm_num) ?_
    calc (1024 : ℝ) = 2 ^ 10 := by norm_num
      _ ≤ 2 ^ fmt.prec := pow_le_pow_right₀ (by norm_num) hl.prec
  have hpB := hp1.trans (hl.bound hcN)
  have hsens := hR.sensor
  have hlarge := hR.large
  have hr0 := hR.pos
  rw [← hu] at hsens
  have hhi : 64 * u * (P 0 0).val ≤ (R 0 0).val := by
    have h1 : 64 * u * (P 0 0).val ≤ 64 * u * (2 * (B + N * q)) := mul_le_mul_of_nonneg_left hpB (by positivity)
    linarith
  have h12 : 12 * (1 / 2 ^ fmt.prec) * ((P 0 0).val + (R 0 0).val) ≤ (R 0 0).val := by
    rw [← hu]
    have h1 : u * (R 0 0).val ≤ 1 / 1024 * (R 0 0).val := mul_le_mul_of_nonneg_right hu' hr0.le
    linarith
  have hbig : (P 0 0).val + (R 0 0).val ≤ 2 ^ fmt.frac / 2 ^ (fmt.prec + 2) := by linarith
  have hPf : ∀ i k, (P i k).Finite := by
    intro i k
    rw [Subsingleton.elim i 0, Subsingleton.elim k 0]; exact hp
  have c1 : (Spec.mulSeq P (Spec.direct 0)ᵀ 0 0).Is (P 0 0).val := Bin.mul_direct fun k => hPf 0 k
  have c2 : (Spec.mulSeq (Spec.direct 0) P 0 0).Is (P 0 0).val := Bin.direct_mul fun k => hPf k 0
  have c3 : (Spec.mulSeq (Spec.mulSeq (Spec.direct 0) P) (Spec.direct 0)ᵀ 0 0).Is (P 0 0).val := by
    have := Bin.mul_direct (j := (0 : Fin 1)) (B := Spec.mulSeq (Spec.direct 0) P) (l := 0) fun k =>
      (Bin.direct_mul (j := (0 : Fin 1)) (B := P) (l := k) fun i => hPf i k).1
    exact ⟨this.1, this.2.trans c2.2⟩
  obtain ⟨S, hS⟩ : ∃ S, S = Spec.mulSeq (Spec.mulSeq (Spec.direct 0) P) (Spec.direct 0)ᵀ 0 0 + R 0 0 := ⟨_, rfl⟩
  have hSr := Bin.add_rounds c3.1 (Bin.fin_of_pos hr0)
  rw [c3.2, ← hS] at hSr
  have hSfin : S.Finite ∧ (0 : ℝ) < S.val := by
    have hlim := Bin.limit_gt hl.top hbig
    have hfinS : S.Finite := by
      rcases hSr with ⟨_, h, _⟩ | ⟨h, _⟩ | ⟨h, _⟩
      · exact h
      · linarith
      · linarith
    refine ⟨hfinS, ?_⟩
    have := Bin.rounds_ge_fin hSr hfinS (Bin.fin_of_pos hr0) (by linarith)
    linarith
  have hle : MDT.le S 0 = false := by
    rw [Bool.eq_false_iff]
    intro hc
    have := (Bin.le_iff hSfin.1 (b := 0) trivial).1 hc
    rw [Bin.zero_val] at this
    linarith [hSfin.2]
  obtain ⟨r, sq, d, k1, k2, k3, _, k5, _, _⟩ := scalar_update_ok bld (o := { o with y := y2 }) Nat.one_pos
    (obs_with_y_valid ho.valid h4) ho.H ho.R hf.P hf.x h3 (hS ▸ hle)
  rw [k1] at hr'
  cases hr'
  rw [← hS] at k2
  have hq : sq = S.sqrt := (Except.ok.inj k2).symm
  have hd : d = sq.recip := (Except.ok.inj k3).symm
  have h4 : 4 ≤ fmt.prec := le_trans (by norm_num) hl.prec
  obtain ⟨g0, g1, g2, _, g3⟩ := Bin.gain_bounds (s := scalarInverse d) h4 hl.frac hl.top hp0 hr0 h12 hbig c3 hS hq hd rfl (.inr hR.small)
  have hf1 := hl.frac
  have hf2 := hl.top
  obtain ⟨j1, j2, j3⟩ := Bin.gain_unit hu hu' (by omega) hp0 hhi c1 g0 g1 g2 (by rw [hu]; exact g3)
  have hhx : (Spec.mulVecSeq (Spec.direct 0) x 0).Is (x 0).val := by
    have : Spec.mulVecSeq (Spec.direct (T := Bin fmt) (0 : Fin 1)) x 0 = 1 * x 0 := rfl
    rw [this]
    exact Bin.one_mul_is hx
  exact ⟨_, k5, fun hfin => Bin.correct_between hu rfl hu' (by omega) j1 j2 j3 hx hz hhx hfin⟩

/-- The state and the measurements are within the range. -/
structure World.Within (w : World 1 (Bin fmt)) (L H : ℝ) : Prop where
  kf : ∃ x A, w.kf.x.RepsV x ∧ w.kf.A.Reps A ∧ L ≤ (x 0).val ∧ (x 0).val ≤ H ∧ Spec.Steady L H (A 0 0).val
  obs : ∀ s ∈ w.obs, ∃ (o : RegularObservation 1 1 (Bin fmt)) (z : _), s = ⟨1, o⟩ ∧ o.z.RepsV z ∧ L ≤ (z 0).val ∧ (z 0).val ≤ H

theorem ranged_tame {M B L H : ℝ} (hlM : |L| ≤ M) (hhM : |H| ≤ M) {op : Op (Bin fmt)}
    (ht : Spec.Ranged L H B op) : Spec.Tame (2 * M) M B op := by
  have h1 := abs_le.1 hlM
  have h2 := abs_le.1 hhM
  cases op with
  | predict => trivial
  | correct => trivial
  | setZ i v =>
    intro a ha
    obtain ⟨g1, g2, g3⟩ := ht a ha
    exact ⟨g1, abs_le.2 ⟨by linarith, by linarith⟩⟩
  | setX v =>
    intro a ha
    obtain ⟨g1, g2, g3⟩ := ht a ha
    exact ⟨g1, abs_le.2 ⟨by linarith, by linarith⟩⟩
  | setA v =>
    intro a ha
    obtain ⟨g1, g2⟩ := ht a ha
    refine ⟨g1, ?_⟩
    rcases g2 with g2 | ⟨g2, g3, _⟩
    · rw [g2, abs_one]
    · rw [abs_of_nonneg g2]; exact g3
  | setP v => exact ht
  | _ => exact ht.elim

theorem copy_data {T : Type} {R C : Nat} {m m' : Mat R C T} {v : List T} (h : m.copyFromSlice v = .ok m') : m'.data = v ∧ v.length = m.data.length := by
  unfold Mat.copyFromSlice at h
  split at h
  · rename_i hc
    cases h; exact ⟨rfl, hc⟩
  · cases h

set_option maxHeartbeats 400000 in
theorem range_step (bld : Build) {M q B L H : ℝ} {N c : Nat} (hl : Spec.Lasting fmt (2 * M) q B N) (hcN : c ≤ N) {w w' : World 1 (Bin fmt)}
    (hw : w.Runs (2 * M) M q B N c) (hw2 : w.Within L H) {c' : Nat} (hw' : w'.Runs (2 * M) M q B N c') {op : Op (Bin fmt)} (hop : op.WellFormed w)
    (ht : Spec.Ranged L H B op) (hs : w.step bld op = .ok w') : w'.Within L H := by
  obtain ⟨⟨x, A, P, Q, hk, ha, _, _, _, hx, _, hp, hp0, hp1⟩, hobs⟩ := hw
  obtain ⟨⟨x0, A0, e1, e2, hlx, hxh, hst⟩, hobs2⟩ := hw2
  obtain rfl := Mat.RepsV.unique e1 hk.x
  obtain rfl := Mat.Reps.unique e2 hk.A
  obtain ⟨⟨x', A', _, _, hk', _, _, _, _, hx', _⟩, _⟩ := hw'
  have hkv : w.kf.Valid := ⟨hk.x.valid, hk.A.valid, hk.P.valid, hk.Q.valid, hk.predictedX, hk.tempP⟩
  cases op with
  | predict =>
    obtain ⟨f', h1, h3, _, h6⟩ := predict_any Nat.one_pos hkv hk.x hk.A hk.P hk.Q
    unfold World.step at hs
    simp only [h1, res_bind_ok] at hs
    cases hs
    obtain rfl := Mat.RepsV.unique h3 hk'.x
    have ex : Spec.mulVecSeq A0 x0 0 = A0 0 0 * x0 0 := rfl
    rw [ex] at hx'
    obtain ⟨g1, g2⟩ := Bin.predict_range ha hst hx hlx hxh hx'
    exact ⟨⟨_, A0, h3, h6.A ▸ hk.A, by rw [ex]; exact g1, by rw [ex]; exact g2, hst⟩, hobs2⟩
  | correct i =>
    have hi : i < w.obs.length := hop
    obtain ⟨o, z, R, e, ho, hzf, _, hR⟩ := hobs _ (List.getElem_mem hi)
    obtain ⟨o0, z0, e0, ho0, hzlo, hzhi⟩ := hobs2 _ (List.getElem_mem hi)
    rw [e] at e0
    cases e0
    obtain rfl := Mat.RepsV.unique ho.z ho0
    unfold World.step at hs
    have hg : w.obs[i]? = some ⟨1, o⟩ := by rw [List.getElem?_eq_getElem hi, e]
    simp only [hg] at hs
    obtain ⟨⟨f', o'⟩, h1, hs⟩ := bind_ok hs
    cases hs
    obtain ⟨x2, k4, k5⟩ := range_correct bld hl hcN hk ho hx hzf hp hp0 hp1 hR h1
    have hfr : ∃ r, o.correct bld w.kf.x w.kf.P = .ok r ∧ f' = { w.kf with x := r.2.1, P := r.2.2 } ∧ o' = r.1 := by
      unfold RegularKalman.correct at h1
      obtain ⟨r, q1, q2⟩ := bind_ok h1
      cases q2
      exact ⟨r, q1, rfl, rfl⟩
    obtain ⟨r, q1, rfl, rfl⟩ := hfr
    rcases correct_safe bld Nat.one_pos Nat.one_pos ho.valid hkv.x hkv.P with ⟨e', q2, _⟩ | ⟨r', q2, q3, _⟩
    · rw [q1] at q2; cases q2
    rw [q1] at q2; cases q2
    obtain rfl := Mat.RepsV.unique k4 hk'.x
    obtain ⟨g1, g2⟩ := k5 hx'
    have g1 := (le_min hlx hzlo).trans g1
    have g2 := g2.trans (max_le hxh hzhi)
    refine ⟨⟨_, A0, k4, hk.A, g1, g2, hst⟩, fun s hs => ?_⟩
    rcases List.mem_or_eq_of_mem_set hs with hs | rfl
    · exact hobs2 s hs
    · exact ⟨r.1, z, rfl, q3.z ▸ ho.z, hzlo, hzhi⟩
  | setZ i v =>
    unfold World.step at hs
    dsimp only at hs
    unfold World.withObs at hs
    cases hg : w.obs[i]? with
    | none => rw [hg] at hs; cases hs
    | some s =>
      obtain ⟨o, z, rfl, ho, _, _⟩ := hobs2 s (List.mem_of_getElem? hg)
      simp only [hg] at hs
      obtain ⟨o', h1, hs⟩ := bind_ok hs
      obtain ⟨z', h3, h1⟩ := bind_ok h1
      cases h1
      cases hs
      obtain ⟨hz', hlen⟩ := copy_data h3
      have hzv : z'.Valid := (show 1 * 1 ≤ o.z.data.length from ho.valid).trans_eq (by rw [hz', hlen])
      have hmem := Mat.repsV_iff.1 hzv.repsV 0 0
      rw [hz'] at hmem
      have hfin := ht _ (List.mem_of_getElem? hmem)
      refine ⟨⟨x0, A0, e1, e2, hlx, hxh, hst⟩, fun s hs => ?_⟩
      rcases List.mem_or_eq_of_mem_set hs with hs | rfl
      · exact hobs2 s hs
      · exact ⟨_, _, rfl, hzv.repsV, hfin.2⟩
  | setX v =>
    unfold World.step at hs
    obtain ⟨x1, h1, hs⟩ := bind_ok hs
    cases hs
    obtain ⟨hz', hlen⟩ := copy_data h1
    have hzv : x1.Valid := (show 1 * 1 ≤ w.kf.x.data.length from hkv.x).trans_eq (by rw [hz', hlen])
    have hmem := Mat.repsV_iff.1 hzv.repsV 0 0
    rw [hz'] at hmem
    have hfin := ht _ (List.mem_of_getElem? hmem)
    exact ⟨⟨_, A0, hzv.repsV, e2, hfin.2.1, hfin.2.2, hst⟩, hobs2⟩
  | setA v =>
    unfold World.step at hs
    obtain ⟨A1, h1, hs⟩ := bind_ok hs
    cases hs
    obtain ⟨hz', hlen⟩ := copy_data h1
    have hAv : A1.Valid := (show 1 * 1 ≤ w.kf.A.data.length from hkv.A).trans_eq (by rw [hz', hlen])
    have hmem := hAv.reps 0 0
    rw [hz'] at hmem
    have hfin := ht _ (List.mem_of_getElem? hmem)
    exact ⟨⟨x0, _, e1, hAv.reps, hlx, hxh, hfin.2⟩, hobs2⟩
  | setP v =>
    unfold World.step at hs
    obtain ⟨P1, h1, hs⟩ := bind_ok hs
    cases hs
    exact ⟨⟨x0, A0, e1, e2, hlx, hxh, hst⟩, hobs2⟩
  | predictTuned _ => exact ht.elim
  | control _ => exact ht.elim
  | setQ _ => exact ht.elim
  | setU _ _ => exact ht.elim
  | setB _ _ => exact ht.elim
  | setQc _ _ => exact ht.elim
  | setH _ _ => exact ht.elim
  | setR _ _ => exact ht.elim

theorem range_run (bld : Build) {M q B L H : ℝ} {N c : Nat} (hl : Spec.Lasting fmt (2 * M) q B N) (hcN : c ≤ N)
    (hlM : |L| ≤ M) (hhM : |H| ≤ M) {w w' : World 1 (Bin fmt)} (hv : w.Valid)
    (hw : w.Runs (2 * M) M q B N c) (hw2 : w.Within L H) {ops rest : List (Op (Bin fmt))} (hop : ∀ op ∈ ops, op.WellFormed w)
    (hpc : Spec.Paced N c (ops ++ rest)) (ht : ∀ op ∈ ops, Spec.Ranged L H B op) (hs : w.run bld ops = .ok w') :
    ∃ c', c' ≤ N ∧ Spec.Paced N c' rest ∧ w'.Runs (2 * M) M q B N c' ∧ w'.Within L H := by
  induction ops generalizing w c with
  | nil => cases hs; exact ⟨c, hcN, hpc, hw, hw2⟩
  | cons op ops ih =>
    obtain ⟨w1, h1, h3⟩ := bind_ok (show (w.step bld op >>= fun v => v.run bld ops) = .ok w' from hs)
    have ho := hop op List.mem_cons_self
    have hto := ht op List.mem_cons_self
    obtain ⟨hv1, hs1⟩ := step_keeps hv ho h1
    obtain ⟨c', k1, k2, k3, _⟩ := forever_step bld hl le_rfl hcN hw ho hpc (ranged_tame hlM hhM hto) h1
    exact ih k1 hv1 k3 (range_step bld hl hcN hw hw2 k3 ho hto h1)
      (fun o ho => Op.WellFormed.congr hs1 (hop o (List.mem_cons_of_mem _ ho))) k2 (fun o ho => ht o (List.mem_cons_of_mem _ ho)) h3

end Range

end Minikalman
