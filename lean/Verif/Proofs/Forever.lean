import Verif.Spec.Forever
import Verif.Props.CorrectFixed
import Verif.Props.Variance

/-!
# A filter with one state in floating point that runs forever
-/

set_option linter.unusedSectionVars false

namespace Minikalman

open Matrix

/-- The update of a filter with one measured component does not panic if the innovation variance is positive. -/
theorem scalar_update_ok {T : Type} {n : Nat} [Zero T] [One T] [Add T] [Sub T] [Mul T] [Neg T] [MDT T] [SafeRoots T] (bld : Build)
    {o : RegularObservation n 1 T} {x : Mat n 1 T} {P : Mat n n T} {H R : Matrix _ _ T} {Pm X Y} (hn : 0 < n)
    (ho : o.Valid) (hH : o.H.Reps H) (hR : o.R.Reps R) (hP : P.Reps Pm) (hX : x.RepsV X) (hY : o.y.RepsV Y)
    (hle : MDT.le (Spec.mulSeq (Spec.mulSeq H Pm) Hᵀ 0 0 + R 0 0) 0 = false) :
    ∃ r q d, o.updateWithInnovation bld x P = .ok r ∧
      MDT.squareRoot (Spec.mulSeq (Spec.mulSeq H Pm) Hᵀ 0 0 + R 0 0) = .ok q ∧ MDT.recip q = .ok d ∧
      r.1.K.Reps (Matrix.of fun i _ => scalarGain Pm H d i) ∧
      r.2.1.RepsV (fun i => X i + scalarGain Pm H d i * Y 0) ∧
      r.2.2.Reps (Matrix.of fun i j => Pm i j - (0 + scalarGain Pm H d i * Spec.mulSeq H Pm 0 j)) ∧ o.Frame r.1 := by
  obtain ⟨f', o', _, _, h1, _⟩ := scalar_correct_full bld (f := ⟨x, P, P, P, x, P⟩) (o := o) (A := Pm) (Q := Pm) hn
    ⟨hX, hP, hP, hP, hX.valid, hP.valid⟩
    ⟨hH, ho.z.repsV, hR, ho.y, ho.S, ho.K, ho.tempSInv, ho.tempHP, ho.tempPHt, ho.tempKHP⟩ hle
  obtain ⟨y1, y2, k1, k2, k3, k4⟩ := innovation_any hn ho hH ho.z.repsV hX
  unfold RegularKalman.correct RegularObservation.correct at h1
  simp only [k1, k2, res_bind_ok] at h1
  obtain ⟨s, hs, _⟩ := bind_ok h1
  have hov := obs_with_y_valid ho k4
  rcases update_rel bld (o := o) (o' := { o with y := y2 }) Nat.one_pos ho hov hP.valid (Mat.Agree.refl _) (Mat.Agree.refl _) (Mat.Agree.refl P)
    hX hY hX k3 with ⟨e, _, g⟩ | ⟨r, b, g1, _, g3, _⟩
  · rw [hs] at g; cases g
  · obtain ⟨q, d, j⟩ := scalar_update_full bld ho hH hR hP hX hY hle r g1
    exact ⟨r, q, d, g1, j.1, j.2.1, j.2.2.1, j.2.2.2.1, j.2.2.2.2, g3⟩

namespace Bin
variable {fmt : Format}

/-- The gain is not much smaller than `p / (p + r)`; multiplied out. -/
theorem real_K {p r u η s K : ℝ} (hp : 0 ≤ p) (hr : 0 < r) (hu : 0 < u) (hu' : u ≤ 1 / 1024)
    (hs : 1 - 12 * u ≤ s * (p + r)) (hK : p * s - (u * (p * s) + η) ≤ K) :
    p * (1 - 13 * u) ≤ (K + η) * (p + r) := by
  have h1 : p * s * (1 - u) ≤ K + η := by linarith
  have h2 : p * (1 - 12 * u) ≤ p * (s * (p + r)) := mul_le_mul_of_nonneg_left hs hp
  have h3 : p * s * (1 - u) * (p + r) ≤ (K + η) * (p + r) := mul_le_mul_of_nonneg_right h1 (by linarith)
  have h4 : p * (1 - 12 * u) * (1 - u) ≤ p * (s * (p + r)) * (1 - u) := mul_le_mul_of_nonneg_right h2 (by linarith)
  have h5 : p * (1 - 13 * u) ≤ p * (1 - 12 * u) * (1 - u) := by
    have : 0 ≤ p * u ^ 2 := by positivity
    nlinarith
  calc p * (1 - 13 * u) ≤ p * (1 - 12 * u) * (1 - u) := h5
    _ ≤ p * (s * (p + r)) * (1 - u) := h4
    _ = p * s * (1 - u) * (p + r) := by ring
    _ ≤ _ := h3

theorem real_variance {p r u η K T : ℝ} (hp : 0 ≤ p) (hr : 0 < r) (hu : 0 < u) (hη : η ≤ u)
    (hpr : 64 * u * p ≤ r) (hηr : 16 * η ≤ r) (hK0 : 0 ≤ K) (hK1 : K ≤ 1) (hK : p * (1 - 13 * u) ≤ (K + η) * (p + r))
    (hT : K * p - (u * (K * p) + η) ≤ T) : p - T ≤ 3 / 2 * r := by
  have h0 : 0 ≤ K * p := mul_nonneg hK0 hp
  have h1 : K * p ≤ p := by nlinarith
  have h2 : u * (K * p) ≤ u * p := mul_le_mul_of_nonneg_left h1 hu.le
  -- `p - K p <= r + 13 u p + η (p + r)`
  have h3 : (p - K * p) * (p + r) ≤ (r + 13 * u * p + η * p) * (p + r) := by
    have e : (p - K * p) * (p + r) = p * (p + r) - p * (K * (p + r)) := by ring
    have h4 : p * (p * (1 - 13 * u)) ≤ p * ((K + η) * (p + r)) := mul_le_mul_of_nonneg_left hK hp
    have h5 : 0 ≤ 13 * u * p * r := by positivity
    nlinarith [mul_nonneg hr.le hr.le]
  have h4 : p - K * p ≤ r + 13 * u * p + η * p := le_of_mul_le_mul_right h3 (by linarith)
  have h5 : η * p ≤ u * p := mul_le_mul_of_nonneg_right hη hp
  linarith

/-! ## One prediction and one correction -/

theorem predict_scaled {a p : Bin fmt} (ha : a.Finite) (ha1 : |a.val| ≤ 1) (hp : p.Finite) (hp0 : 0 ≤ p.val) :
    (0 + (0 + a * p) * a).Finite ∧ 0 ≤ (0 + (0 + a * p) * a).val ∧ (0 + (0 + a * p) * a).val ≤ p.val := by
  obtain ⟨h1, h2, h3⟩ := predict_variance ha ha1 nil_zero hp hp0
  have h4 := (add_finite h1).1
  have h5 := add_nil h4 nil_zero
  rw [h5.2] at h2 h3
  exact ⟨h4, h2, h3⟩

/-- The variance after a prediction. -/
theorem predict_grows {a p q : Bin fmt} (ha : a.Finite) (ha1 : |a.val| ≤ 1) (hq : q.Finite) (hq0 : 0 ≤ q.val) (hp : p.Finite) (hp0 : 0 ≤ p.val)
    (hlim : p.val + q.val < fmt.limit) :
    (0 + (0 + a * p) * a + q).Finite ∧ 0 ≤ (0 + (0 + a * p) * a + q).val ∧ (1 - 1 / 2 ^ fmt.prec) * q.val ≤ (0 + (0 + a * p) * a + q).val ∧
      (0 + (0 + a * p) * a + q).val ≤ (1 + 1 / 2 ^ fmt.prec) * (p.val + q.val) := by
  obtain ⟨h1, h2, h3⟩ := predict_scaled ha ha1 hp hp0
  generalize 0 + (0 + a * p) * a = m at h1 h2 h3 ⊢
  have hr := add_rounds h1 hq
  have hfin : (m + q).Finite := by
    rcases hr with ⟨_, h, _⟩ | ⟨h, _⟩ | ⟨h, _⟩
    · exact h
    · linarith
    · linarith [limit_pos fmt]
  have he := add_error hfin
  rw [abs_of_nonneg (show 0 ≤ m.val + q.val by linarith), abs_le] at he
  obtain ⟨u, hu⟩ : ∃ u : ℝ, u = 1 / 2 ^ fmt.prec := ⟨_, rfl⟩
  have hu0 : 0 ≤ u := by rw [hu]; positivity
  have hu1 : u ≤ 1 := by
    rw [hu]
    exact (div_le_one (by positivity)).2 (one_le_pow₀ (by norm_num))
  rw [← hu] at he ⊢
  have h4 : 0 ≤ (1 - u) * m.val := mul_nonneg (by linarith) h2
  have h5 : 0 ≤ (1 - u) * q.val := mul_nonneg (by linarith) hq0
  have h6 : (1 + u) * m.val ≤ (1 + u) * p.val := mul_le_mul_of_nonneg_left h3 (by linarith)
  exact ⟨hfin, by linarith, by linarith, by linarith⟩

/-- The state after a prediction. -/
theorem predict_state {a x : Bin fmt} (ha : a.Finite) (ha1 : |a.val| ≤ 1) (hx : x.Finite) : (a * x).Finite ∧ |(a * x).val| ≤ |x.val| := by
  have h1 := mul_rounds ha hx
  have hab : |a.val * x.val| ≤ |x.val| := by
    rw [abs_mul]
    calc |a.val| * |x.val| ≤ 1 * |x.val| := mul_le_mul_of_nonneg_right ha1 (abs_nonneg _)
      _ = |x.val| := one_mul _
  have h2 : (a * x).Finite := rounds_fin h1 hx hab
  refine ⟨h2, ?_⟩
  have hab' := abs_le.1 hab
  rcases le_total 0 x.val with h | h
  · rw [abs_of_nonneg h] at hab' ⊢
    refine abs_le.2 ⟨?_, rounds_le_fin h1 h2 hx hab'.2⟩
    have := rounds_ge_fin h1 h2 (y := -x) (neg_finite.2 hx) (by rw [neg_val]; exact hab'.1)
    rwa [neg_val] at this
  · rw [abs_of_nonpos h, neg_neg] at hab'
    rw [abs_of_nonpos h]
    refine abs_le.2 ⟨?_, ?_⟩
    · rw [neg_neg]; exact rounds_ge_fin h1 h2 hx hab'.1
    · have := rounds_le_fin h1 h2 (y := -x) (neg_finite.2 hx) (by rw [neg_val]; exact hab'.2)
      rwa [neg_val] at this

/-- The state after a correction with a gain between 0 and 1. -/
theorem correct_state {K x y : Bin fmt} {X ζ : ℝ} (h10 : 10 ≤ fmt.prec) (hK : K.Finite) (hK0 : 0 ≤ K.val) (hK1 : K.val ≤ 1)
    (hxf : x.Finite) (hxx : |x.val| ≤ X) (hzz : 2 * |ζ| ≤ X) (hyr : RoundsTo (ζ - x.val) y)
    (hye : |y.val - (ζ - x.val)| ≤ 1 / 2 ^ fmt.prec * |ζ - x.val|) (hyf : y.Finite)
    (hlim : 4 * X < fmt.limit) : (x + K * y).Finite ∧ |(x + K * y).val| ≤ X := by
  obtain ⟨u, hu⟩ : ∃ u : ℝ, u = 1 / 2 ^ fmt.prec := ⟨_, rfl⟩
  have hu0 : 0 < u := by rw [hu]; positivity
  have hu' : u ≤ 1 / 1024 := by
    rw [hu]
    refine one_div_le_one_div_of_le (by norm_num) ?_
    calc (1024 : ℝ) = 2 ^ 10 := by norm_num
      _ ≤ 2 ^ fmt.prec := pow_le_pow_right₀ (by norm_num) h10
  rw [← hu] at hye
  have hX0 : 0 ≤ X := le_trans (abs_nonneg _) hxx
  have hk : |K.val * y.val| ≤ |y.val| := by
    rw [abs_mul, abs_of_nonneg hK0]
    calc K.val * |y.val| ≤ 1 * |y.val| := mul_le_mul_of_nonneg_right hK1 (abs_nonneg _)
      _ = |y.val| := one_mul _
  have hkr := mul_rounds hK hyf
  have hkf : (K * y).Finite := rounds_fin hkr hyf hk
  have hx2 := abs_le.1 hxx
  have hz2 := abs_le.1 (show |ζ| ≤ X / 2 by linarith)
  have hye2 := abs_le.1 hye
  have hzx : |ζ - x.val| ≤ 3 / 2 * X := abs_le.2 ⟨by linarith, by linarith⟩
  have hud : u * |ζ - x.val| ≤ 1 / 1024 * (3 / 2 * X) := mul_le_mul hu' hzx (abs_nonneg _) (by norm_num)
  have hr := add_rounds hxf hkf
  -- the correction goes towards the measurement and hardly beyond it
  have key : (0 ≤ (K * y).val ∧ x.val + (K * y).val ≤ X / 2 + 1 / 1024 * (3 / 2 * X)) ∨
      ((K * y).val ≤ 0 ∧ -(X / 2 + 1 / 1024 * (3 / 2 * X)) ≤ x.val + (K * y).val) := by
    rcases le_total 0 (ζ - x.val) with h | h
    · refine .inl ?_
      have hy0 : 0 ≤ y.val := by
        have := rounds_ge_fin hyr hyf (y := 0) trivial (by rw [zero_val]; exact h)
        rwa [zero_val] at this
      have hk0 : 0 ≤ (K * y).val := by
        have := rounds_ge_fin hkr hkf (y := 0) trivial (by rw [zero_val]; exact mul_nonneg hK0 hy0)
        rwa [zero_val] at this
      have hk1 : (K * y).val ≤ y.val := rounds_le_fin hkr hkf hyf (by rw [abs_of_nonneg hy0] at hk; exact (abs_le.1 hk).2)
      exact ⟨hk0, by linarith⟩
    · refine .inr ?_
      have hy0 : y.val ≤ 0 := by
        have := rounds_le_fin hyr hyf (y := 0) trivial (by rw [zero_val]; exact h)
        rwa [zero_val] at this
      have hk0 : (K * y).val ≤ 0 := by
        have := rounds_le_fin hkr hkf (y := 0) trivial (by rw [zero_val]; exact mul_nonpos_of_nonneg_of_nonpos hK0 hy0)
        rwa [zero_val] at this
      have hk1 : y.val ≤ (K * y).val := rounds_ge_fin hkr hkf hyf (by rw [abs_of_nonpos hy0] at hk; linarith [(abs_le.1 hk).1])
      exact ⟨hk0, by linarith⟩
  have hfin : (x + K * y).Finite := by
    rcases hr with ⟨_, h, _⟩ | ⟨h, _⟩ | ⟨h, _⟩
    · exact h
    · exfalso
      rcases key with k | k <;> linarith
    · exfalso
      rcases key with k | k <;> linarith
  refine ⟨hfin, ?_⟩
  have he := add_error hfin
  rw [← hu] at he
  have he2 := abs_le.1 he
  rcases key with ⟨k1, k2⟩ | ⟨k1, k2⟩
  · have hlo := rounds_ge_fin hr hfin hxf (by linarith)
    refine abs_le.2 ⟨by linarith, ?_⟩
    rcases le_total 0 (x.val + (K * y).val) with h | h
    · rw [abs_of_nonneg h] at he2
      have : u * (x.val + (K * y).val) ≤ 1 / 1024 * (X / 2 + 1 / 1024 * (3 / 2 * X)) := mul_le_mul hu' k2 h (by norm_num)
      linarith
    · have := rounds_le_fin hr hfin (y := 0) trivial (by rw [zero_val]; exact h)
      rw [zero_val] at this
      linarith
  · have hhi := rounds_le_fin hr hfin hxf (by linarith)
    refine abs_le.2 ⟨?_, by linarith⟩
    rcases le_total 0 (x.val + (K * y).val) with h | h
    · have := rounds_ge_fin hr hfin (y := 0) trivial (by rw [zero_val]; exact h)
      rw [zero_val] at this
      linarith
    · rw [abs_of_nonpos h] at he2
      have : u * -(x.val + (K * y).val) ≤ 1 / 1024 * (X / 2 + 1 / 1024 * (3 / 2 * X)) := mul_le_mul hu' (by linarith) (by linarith) (by norm_num)
      linarith

set_option maxHeartbeats 1000000 in
/-- A correction of a single state; the predicted measurement `hx` need not be the state. -/
theorem correct_one {p R x z c c' s hx : Bin fmt} {X : ℝ} (h10 : 10 ≤ fmt.prec) (h2 : 2 * fmt.prec ≤ fmt.frac)
    (hp : p.Finite) (hp0 : 0 ≤ p.val) (hR0 : 0 < R.val)
    (hhi : 64 * (1 / 2 ^ fmt.prec) * p.val ≤ R.val) (htiny : 8 / 2 ^ fmt.frac ≤ R.val)
    (hc : c.Is p.val) (hc' : c'.Is p.val) (hs : s.Finite) (hs0 : 0 ≤ s.val) (hs1 : p.val * s.val ≤ 1)
    (hs2 : 1 - 12 * (1 / 2 ^ fmt.prec) ≤ s.val * (p.val + R.val))
    (hxf : x.Finite) (hzf : z.Finite) (hxx : |x.val| ≤ X) (hhx : hx.Finite) (hzz : 2 * |z.val - (hx.val - x.val)| ≤ X)
    (hlim : 4 * X < fmt.limit) :
    (p - (0 + (0 + c * s) * c')).Finite ∧ 0 ≤ (p - (0 + (0 + c * s) * c')).val ∧ (p - (0 + (0 + c * s) * c')).val ≤ 2 * R.val ∧
    (x + (0 + c * s) * (z - hx)).Finite ∧ |(x + (0 + c * s) * (z - hx)).val| ≤ X := by
  obtain ⟨v1, v2, _⟩ := variance_bounds hp0 hp hc hc' hs hs0 hs1
  obtain ⟨u, hu⟩ : ∃ u : ℝ, u = 1 / 2 ^ fmt.prec := ⟨_, rfl⟩
  have hQ : (0 : ℝ) < 2 ^ fmt.prec := by positivity
  have hu0 : 0 < u := by rw [hu]; positivity
  have hu' : u ≤ 1 / 1024 := by
    rw [hu]
    refine one_div_le_one_div_of_le (by norm_num) ?_
    calc (1024 : ℝ) = 2 ^ 10 := by norm_num
      _ ≤ 2 ^ fmt.prec := pow_le_pow_right₀ (by norm_num) h10
  obtain ⟨η, hη⟩ : ∃ η : ℝ, η = 1 / 2 ^ (fmt.frac + 1) := ⟨_, rfl⟩
  have hη0 : 0 < η := by rw [hη]; positivity
  have hηu : η ≤ u := by
    rw [hη, hu]
    exact one_div_le_one_div_of_le (by positivity) (pow_le_pow_right₀ (by norm_num) (by omega))
  have hηR : 16 * η ≤ R.val := by
    have : 16 * η = 8 / 2 ^ fmt.frac := by rw [hη, pow_succ]; field_simp; norm_num
    linarith
  have hX0 : 0 ≤ X := le_trans (abs_nonneg _) hxx
  rw [← hu] at hhi hs2
  -- the gain
  have hps : 0 ≤ p.val * s.val := mul_nonneg hp0 hs0
  have hcr := mul_rounds hc.1 hs
  rw [hc.2] at hcr
  have h3 : (c * s).Finite := rounds_fin hcr (y := 1) trivial (by rw [one_val, abs_one, abs_of_nonneg hps]; exact hs1)
  have hKle : (c * s).val ≤ 1 := by
    have := rounds_le_fin hcr h3 (y := 1) trivial (by rw [one_val]; exact hs1)
    rwa [one_val] at this
  have hK0 : 0 ≤ (c * s).val := by
    have := rounds_ge_fin hcr h3 (y := 0) trivial (by rw [zero_val]; exact hps)
    rwa [zero_val] at this
  have hKe := mul_error h3
  rw [hc.2, abs_of_nonneg hps, ← hu, ← hη] at hKe
  have hKI := nil_add nil_zero h3
  have hK1 : p.val * s.val - (u * (p.val * s.val) + η) ≤ (c * s).val := by
    have := (abs_le.1 hKe).1
    linarith
  rw [← hKI.2] at hKle hK0 hK1
  generalize 0 + c * s = K at hKI hKle hK0 hK1 v1 v2 ⊢
  have hKf := hKI.1
  have hKK := real_K hp0 hR0 hu0 hu' hs2 hK1
  refine ⟨v1, v2, ?_, ?_⟩
  · -- the variance
    have hTf : (K * c').Finite := (add_finite (sub_finite v1).2).2
    have hT := nil_add nil_zero hTf
    have hTe := mul_error hTf
    rw [hc'.2, abs_of_nonneg (mul_nonneg hK0 hp0), ← hu, ← hη] at hTe
    have hv := real_variance (T := (K * c').val) hp0 hR0 hu0 hηu hhi hηR hK0 hKle hKK (by have := (abs_le.1 hTe).1; linarith)
    have he := sub_error v1
    rw [hT.2, ← hu] at he
    have he' := (abs_le.1 he).2
    rcases le_total 0 (p.val - (K * c').val) with h | h
    · rw [abs_of_nonneg h] at he'
      have : u * (p.val - (K * c').val) ≤ 1 / 1024 * (3 / 2 * R.val) := mul_le_mul hu' hv h (by norm_num)
      linarith
    · rw [abs_of_nonpos h] at he'
      have : u * -(p.val - (K * c').val) ≤ 1 * -(p.val - (K * c').val) := mul_le_mul_of_nonneg_right (by linarith) (by linarith)
      linarith
  · -- the state
    have hyr := sub_rounds hzf hhx
    have ez : z.val - hx.val = (z.val - (hx.val - x.val)) - x.val := by ring
    have hye0 : (z - hx).Finite → _ := sub_error
    rw [ez] at hyr hye0
    generalize z.val - (hx.val - x.val) = ζ at hyr hye0 hzz
    have hzx : |ζ - x.val| ≤ 3 / 2 * X := by
      have := abs_sub ζ x.val
      linarith
    have hyf : (z - hx).Finite := by
      have := abs_le.1 hzx
      rcases hyr with ⟨_, h, _⟩ | ⟨h, _⟩ | ⟨h, _⟩
      · exact h
      · linarith
      · linarith
    have hye := hye0 hyf
    exact correct_state h10 hKf hK0 hKle hxf hxx hzz hyr hye hyf hlim

end Bin

/-! ## Histories -/

section Forever
variable {fmt : Format}

/-- The numbers of a filter with one state that runs forever, `c` predictions after the last correction. -/
structure World.Runs (w : World 1 (Bin fmt)) (X Z q B : ℝ) (N c : Nat) : Prop where
  kf : ∃ x A P Q, w.kf.Reps x A P Q ∧ (A 0 0).Finite ∧ |(A 0 0).val| ≤ 1 ∧ (Q 0 0).Finite ∧ (Q 0 0).val = q ∧ (x 0).Finite ∧
    |(x 0).val| ≤ X ∧ (P 0 0).Finite ∧ 0 ≤ (P 0 0).val ∧ (P 0 0).val ≤ (1 + 1 / 2 ^ fmt.prec) ^ c * (B + c * q)
  obs : ∀ s ∈ w.obs, ∃ (o : RegularObservation 1 1 (Bin fmt)) (z : _) (R : _), s = ⟨1, o⟩ ∧ o.Reps (Spec.direct 0) z R ∧
    (z 0).Finite ∧ |(z 0).val| ≤ Z ∧ Spec.Balanced fmt N q B (R 0 0).val

theorem growth {p N : Nat} (h : 2 * N ≤ 2 ^ p) : (1 + 1 / 2 ^ p : ℝ) ^ N ≤ 2 := by
  obtain ⟨u, hu⟩ : ∃ u : ℝ, u = 1 / 2 ^ p := ⟨_, rfl⟩
  have hu0 : 0 ≤ u := by rw [hu]; positivity
  have hN : N * u ≤ 1 / 2 := by
    have : (2 * N : ℝ) ≤ 2 ^ p := by exact_mod_cast h
    rw [hu, mul_one_div, div_le_iff₀ (by positivity)]
    linarith
  have key : ∀ M : Nat, (1 + u) ^ M * (1 - M * u) ≤ 1 := by
    intro M
    induction M with
    | zero => simp
    | succ M ih =>
      have h1 : (1 + u) * (1 - (M + 1 : ℕ) * u) ≤ 1 - M * u := by
        have : 0 ≤ (M + 1 : ℝ) * (u * u) := by positivity
        push_cast
        linarith
      calc (1 + u) ^ (M + 1) * (1 - (M + 1 : ℕ) * u) = (1 + u) ^ M * ((1 + u) * (1 - (M + 1 : ℕ) * u)) := by ring
        _ ≤ (1 + u) ^ M * (1 - M * u) := mul_le_mul_of_nonneg_left h1 (by positivity)
        _ ≤ 1 := ih
  rw [← hu]
  have h2 : (1 + u) ^ N * (1 / 2) ≤ (1 + u) ^ N * (1 - N * u) := mul_le_mul_of_nonneg_left (by linarith) (by positivity)
  linarith [key N]

theorem Spec.Lasting.bound {X q B : ℝ} {N c : Nat} (h : Spec.Lasting fmt X q B N) (hc : c ≤ N) :
    (1 + 1 / 2 ^ fmt.prec : ℝ) ^ c * (B + c * q) ≤ 2 * (B + N * q) := by
  have h1 : (1 + 1 / 2 ^ fmt.prec : ℝ) ^ c ≤ 2 :=
    (pow_le_pow_right₀ (le_add_of_nonneg_right (by positivity)) hc).trans (growth h.steps)
  have h2 : (c : ℝ) * q ≤ N * q := mul_le_mul_of_nonneg_right (Nat.cast_le.2 hc) h.noise
  have h3 : 0 ≤ (c : ℝ) * q := mul_nonneg (Nat.cast_nonneg _) h.noise
  exact mul_le_mul h1 (by linarith) (by linarith [h.start]) (by norm_num)

instance : SafeRoots (Bin fmt) := ⟨fun _ _ => ⟨_, _, rfl, rfl⟩⟩

set_option maxHeartbeats 1000000 in
/-- The update with the innovation `z - hx`, where `hx` is a predicted measurement near the state. -/
theorem forever_update (bld : Build) {X q B : ℝ} {N c : Nat} (hl : Spec.Lasting fmt X q B N) (hcN : c ≤ N)
    {xm : Mat 1 1 (Bin fmt)} {Pm : Mat 1 1 (Bin fmt)} {o : RegularObservation 1 1 (Bin fmt)} {x P R Y} {z hx : Bin fmt} (ho : o.Valid)
    (hHm : o.H.Reps (Spec.direct 0)) (hRm : o.R.Reps R) (hPm : Pm.Reps P) (hxm : xm.RepsV x) (hYm : o.y.RepsV Y) (hY : Y 0 = z - hx)
    (hxf : (x 0).Finite) (hxX : |(x 0).val| ≤ X) (hp : (P 0 0).Finite) (hp0 : 0 ≤ (P 0 0).val)
    (hp1 : (P 0 0).val ≤ (1 + 1 / 2 ^ fmt.prec) ^ c * (B + c * q))
    (hz : z.Finite) (hhx : hx.Finite) (hzX : 2 * |z.val - (hx.val - (x 0).val)| ≤ X) (hR : Spec.Balanced fmt N q B (R 0 0).val) :
    ∃ r x' P', o.updateWithInnovation bld xm Pm = .ok r ∧ o.Frame r.1 ∧ r.2.1.RepsV x' ∧ r.2.2.Reps P' ∧ (x' 0).Finite ∧ |(x' 0).val| ≤ X ∧
      (P' 0 0).Finite ∧ 0 ≤ (P' 0 0).val ∧ (P' 0 0).val ≤ 2 * (R 0 0).val := by
  obtain ⟨u, hu⟩ : ∃ u : ℝ, u = 1 / 2 ^ fmt.prec := ⟨_, rfl⟩
  have hu0 : 0 < u := by rw [hu]; positivity
  have hu' : u ≤ 1 / 1024 := by
    rw [hu]
    refine one_div_le_one_div_of_le (by norm_num) ?_
    calc (1024 : ℝ) = 2 ^ 10 := by norm_num
      _ ≤ 2 ^ fmt.prec := pow_le_pow_right₀ (by norm_num) hl.prec
  have hpB := hp1.trans (hl.bound hcN)
  have hsens := hR.sensor
  have hlarge := hR.large
  have hr0 := hR.pos
  rw [← hu] at hsens
  have hhi : 64 * u * (P 0 0).val ≤ (R 0 0).val := by
    have h1 : 64 * u * (P 0 0).val ≤ 64 * u * (2 * (B + N * q)) := mul_le_mul_of_nonneg_left hpB (by positivity)
    linarith
  have h12 : 12 * (1 / 2 ^ fmt.prec) * ((P 0 0).val + (R 0 0).val) ≤ (R 0 0).val := by
    rw [← hu]
    have h1 : u * (R 0 0).val ≤ 1 / 1024 * (R 0 0).val := mul_le_mul_of_nonneg_right hu' hr0.le
    linarith
  have hbig : (P 0 0).val + (R 0 0).val ≤ 2 ^ fmt.frac / 2 ^ (fmt.prec + 2) := by linarith
  have hPf : ∀ i k, (P i k).Finite := by
    intro i k
    rw [Subsingleton.elim i 0, Subsingleton.elim k 0]; exact hp
  have c1 : (Spec.mulSeq P (Spec.direct 0)ᵀ 0 0).Is (P 0 0).val := Bin.mul_direct fun k => hPf 0 k
  have c2 : (Spec.mulSeq (Spec.direct 0) P 0 0).Is (P 0 0).val := Bin.direct_mul fun k => hPf k 0
  have c3 : (Spec.mulSeq (Spec.mulSeq (Spec.direct 0) P) (Spec.direct 0)ᵀ 0 0).Is (P 0 0).val := by
    have := Bin.mul_direct (j := (0 : Fin 1)) (B := Spec.mulSeq (Spec.direct 0) P) (l := 0) fun k =>
      (Bin.direct_mul (j := (0 : Fin 1)) (B := P) (l := k) fun i => hPf i k).1
    exact ⟨this.1, this.2.trans c2.2⟩
  obtain ⟨S, hS⟩ : ∃ S, S = Spec.mulSeq (Spec.mulSeq (Spec.direct 0) P) (Spec.direct 0)ᵀ 0 0 + R 0 0 := ⟨_, rfl⟩
  have hSr := Bin.add_rounds c3.1 (Bin.fin_of_pos hr0)
  rw [c3.2, ← hS] at hSr
  have hSfin : S.Finite ∧ (0 : ℝ) < S.val := by
    have hlim := Bin.limit_gt hl.top hbig
    have hfinS : S.Finite := by
      rcases hSr with ⟨_, h, _⟩ | ⟨h, _⟩ | ⟨h, _⟩
      · exact h
      · linarith
      · linarith
    refine ⟨hfinS, ?_⟩
    have := Bin.rounds_ge_fin hSr hfinS (Bin.fin_of_pos hr0) (by linarith)
    linarith
  have hle : MDT.le S 0 = false := by
    rw [Bool.eq_false_iff]
    intro hc
    have := (Bin.le_iff hSfin.1 (b := 0) trivial).1 hc
    rw [Bin.zero_val] at this
    linarith [hSfin.2]
  obtain ⟨r, sq, d, k1, k2, k3, _, k5, k6, k7⟩ := scalar_update_ok bld Nat.one_pos ho hHm hRm hPm hxm hYm (hS ▸ hle)
  rw [← hS] at k2
  have hq : sq = S.sqrt := (Except.ok.inj k2).symm
  have hd : d = sq.recip := (Except.ok.inj k3).symm
  have h4 : 4 ≤ fmt.prec := le_trans (by norm_num) hl.prec
  obtain ⟨g0, g1, g2, g3⟩ := Bin.gain_le (s := scalarInverse d) h4 hl.frac hl.top hp0 hr0 h12 hbig c3 hS hq hd rfl (.inr hR.small)
  rw [hu] at hhi
  obtain ⟨r1, r2, r3, r4, r5⟩ := Bin.correct_one hl.prec hl.frac hp hp0 hr0 hhi hR.tiny c1 c2 g0 g1 g2 g3 hxf hz hxX hhx hzX hl.state
  have k5 : r.2.1.RepsV (fun i => x i + scalarGain P (Spec.direct 0) d i * (z - hx)) := by rw [hY] at k5; exact k5
  exact ⟨r, _, _, k1, k7, k5, k6, r4, r5, r1, r2, r3⟩

theorem forever_correct (bld : Build) {X q B : ℝ} {N c : Nat} (hl : Spec.Lasting fmt X q B N) (hcN : c ≤ N)
    {f : RegularKalman 1 (Bin fmt)} {o : RegularObservation 1 1 (Bin fmt)} {x A P Q z R} (hf : f.Reps x A P Q)
    (ho : o.Reps (Spec.direct 0) z R) (hx : (x 0).Finite) (hxX : |(x 0).val| ≤ X) (hp : (P 0 0).Finite) (hp0 : 0 ≤ (P 0 0).val)
    (hp1 : (P 0 0).val ≤ (1 + 1 / 2 ^ fmt.prec) ^ c * (B + c * q))
    (hz : (z 0).Finite) (hzX : 2 * |(z 0).val| ≤ X) (hR : Spec.Balanced fmt N q B (R 0 0).val) :
    ∃ f' o' x' P', f.correct bld o = .ok (f', o') ∧ f'.x.RepsV x' ∧ f'.P.Reps P' ∧ (x' 0).Finite ∧ |(x' 0).val| ≤ X ∧
      (P' 0 0).Finite ∧ 0 ≤ (P' 0 0).val ∧ (P' 0 0).val ≤ 2 * (R 0 0).val := by
  obtain ⟨y1, y2, h1, h2, h3, h4⟩ := innovation_any Nat.one_pos ho.valid ho.H ho.z hf.x
  have hhx : (Spec.mulVecSeq (Spec.direct 0) x 0).Is (x 0).val := by
    have : Spec.mulVecSeq (Spec.direct (T := Bin fmt) (0 : Fin 1)) x 0 = 1 * x 0 := rfl
    rw [this]
    exact Bin.one_mul_is hx
  obtain ⟨r, x', P', k1, _, k2⟩ := forever_update bld hl hcN (o := { o with y := y2 }) (z := z 0) (hx := Spec.mulVecSeq (Spec.direct 0) x 0)
    (obs_with_y_valid ho.valid h4) ho.H ho.R hf.P hf.x h3 rfl hx hxX hp hp0 hp1 hz hhx.1 (by rw [hhx.2, sub_self, sub_zero]; exact hzX) hR
  refine ⟨{ f with x := r.2.1, P := r.2.2 }, r.1, x', P', ?_, k2⟩
  unfold RegularKalman.correct RegularObservation.correct
  simp only [h1, h2, res_bind_ok, k1]
  rfl

theorem forever_step (bld : Build) {X Z q B : ℝ} {N c : Nat} (hl : Spec.Lasting fmt X q B N) (hZ : 2 * Z ≤ X) (hcN : c ≤ N) {w w' : World 1 (Bin fmt)}
    (hw : w.Runs X Z q B N c) {op : Op (Bin fmt)} {ops : List (Op (Bin fmt))} (hop : op.WellFormed w) (hpc : Spec.Paced N c (op :: ops))
    (ht : Spec.Tame X Z B op) (h : w.step bld op = .ok w') :
    ∃ c', c' ≤ N ∧ Spec.Paced N c' ops ∧ w'.Runs X Z q B N c' ∧ (∀ i, op = .correct i → c' = 0) := by
  obtain ⟨⟨x, A, P, Q, hk, ha, ha1, hq, hqv, hx, hxX, hp, hp0, hp1⟩, hobs⟩ := hw
  have hkv : w.kf.Valid := ⟨hk.x.valid, hk.A.valid, hk.P.valid, hk.Q.valid, hk.predictedX, hk.tempP⟩
  cases op with
  | predict =>
    obtain ⟨hc, hpc⟩ : c < N ∧ Spec.Paced N (c + 1) ops := hpc
    obtain ⟨f', h1, h3, h5, h6⟩ := predict_any Nat.one_pos hkv hk.x hk.A hk.P hk.Q
    unfold World.step at h
    simp only [h1, res_bind_ok] at h
    cases h
    have hqN : q ≤ N * q := by
      have : (1 : ℝ) ≤ N := by exact_mod_cast (Nat.zero_lt_of_lt hc : 1 ≤ N)
      have := mul_le_mul_of_nonneg_right this hl.noise
      linarith
    have hlim : (P 0 0).val + (Q 0 0).val < fmt.limit := by
      have h1 := hp1.trans (hl.bound hcN)
      have h2 := hl.variance
      have h3 := hl.start
      rw [hqv]
      linarith [hl.noise]
    obtain ⟨v1, v2, v3, v4⟩ := Bin.predict_grows ha ha1 hq (hqv ▸ hl.noise) hp hp0 hlim
    have e : (Spec.mulSeq (Spec.mulSeq A P) A.transpose + Q) 0 0 = 0 + (0 + A 0 0 * P 0 0) * A 0 0 + Q 0 0 := by
      show Spec.mulSeq (Spec.mulSeq A P) A.transpose 0 0 + Q 0 0 = _
      rw [mulSeq_one, mulSeq_one]
      rfl
    have hst := Bin.predict_state ha ha1 hx
    have ex : Spec.mulVecSeq A x 0 = A 0 0 * x 0 := rfl
    refine ⟨c + 1, hc, hpc, ⟨⟨_, A, _, Q, ⟨h3, h6.A ▸ hk.A, h5, h6.Q ▸ hk.Q, h6.predictedX.valid hk.predictedX, h6.tempP.valid hk.tempP⟩,
      ha, ha1, hq, hqv, ?_, ?_, ?_, ?_, ?_⟩, hobs⟩, fun _ h => nomatch h⟩
    · rw [ex]; exact hst.1
    · rw [ex]; exact hst.2.trans hxX
    · rw [e]; exact v1
    · rw [e]; exact v2
    · rw [e]
      refine v4.trans ?_
      obtain ⟨u, hu⟩ : ∃ u : ℝ, u = 1 / 2 ^ fmt.prec := ⟨_, rfl⟩
      have hu0 : 0 ≤ u := by rw [hu]; positivity
      rw [← hu] at hp1
      rw [hqv, ← hu]
      have h7 : (1 : ℝ) ≤ (1 + u) ^ c := one_le_pow₀ (by linarith)
      have h8 : q ≤ (1 + u) ^ c * q := le_mul_of_one_le_left hl.noise h7
      calc (1 + u) * ((P 0 0).val + q) ≤ (1 + u) * ((1 + u) ^ c * (B + c * q) + (1 + u) ^ c * q) :=
            mul_le_mul_of_nonneg_left (by linarith) (by linarith)
        _ = (1 + u) ^ (c + 1) * (B + (c + 1 : ℕ) * q) := by push_cast; ring
  | correct i =>
    have hpc : Spec.Paced N 0 ops := hpc
    have hi : i < w.obs.length := hop
    obtain ⟨o, z, R, e, ho, hzf, hzX, hR⟩ := hobs _ (List.getElem_mem hi)
    unfold World.step at h
    have hg : w.obs[i]? = some ⟨1, o⟩ := by rw [List.getElem?_eq_getElem hi, e]
    simp only [hg] at h
    obtain ⟨⟨f', o'⟩, h1, h⟩ := bind_ok h
    cases h
    obtain ⟨f2, o2, x', P', g1, g2, g3, g4, g5, g6, g7, g8⟩ := forever_correct bld hl hcN hk ho hx hxX hp hp0 hp1 hzf (by linarith) hR
    rw [h1] at g1
    cases g1
    have hfr : ∃ r, o.correct bld w.kf.x w.kf.P = .ok r ∧ f' = { w.kf with x := r.2.1, P := r.2.2 } ∧ o' = r.1 := by
      unfold RegularKalman.correct at h1
      obtain ⟨r, q1, q2⟩ := bind_ok h1
      cases q2
      exact ⟨r, q1, rfl, rfl⟩
    obtain ⟨r, q1, rfl, rfl⟩ := hfr
    rcases correct_safe bld Nat.one_pos Nat.one_pos ho.valid hkv.x hkv.P with ⟨e', q2, _⟩ | ⟨r', q2, q3, q4, q5⟩
    · rw [q1] at q2; cases q2
    rw [q1] at q2; cases q2
    have hov := q3.valid ho.valid
    refine ⟨0, Nat.zero_le _, hpc, ⟨⟨x', A, P', Q, ⟨g2, hk.A, g3, hk.Q, hk.predictedX, hk.tempP⟩, ha, ha1, hq, hqv, g4, g5, g6, g7, ?_⟩,
      fun s hs => ?_⟩, fun _ _ => rfl⟩
    · have := hR.bound
      simp only [pow_zero, one_mul, Nat.cast_zero, zero_mul, add_zero]
      linarith
    rcases List.mem_or_eq_of_mem_set hs with hs | rfl
    · exact hobs s hs
    · exact ⟨r.1, z, R, rfl, ⟨q3.H ▸ ho.H, q3.z ▸ ho.z, q3.R ▸ ho.R, hov.y, hov.S, hov.K, hov.tempSInv, hov.tempHP, hov.tempPHt, hov.tempKHP⟩,
        hzf, hzX, hR⟩
  | setZ i v =>
    have hpc : Spec.Paced N c ops := hpc
    unfold World.step at h
    dsimp only at h
    unfold World.withObs at h
    cases hg : w.obs[i]? with
    | none => rw [hg] at h; cases h
    | some s =>
      obtain ⟨o, z, R, rfl, ho, hzf, hzX, hR⟩ := hobs s (List.mem_of_getElem? hg)
      simp only [hg] at h
      obtain ⟨o', h1, h⟩ := bind_ok h
      obtain ⟨z', h3, h1⟩ := bind_ok h1
      cases h1
      cases h
      have hz' : z'.data = v := by
        unfold Mat.copyFromSlice at h3
        split at h3
        · cases h3; rfl
        · cases h3
      have hlen : v.length = o.z.data.length := by
        have : (w.obs[i]?.map fun o => o.2.z.data.length) = some v.length := hop
        rw [hg] at this
        exact (Option.some.inj this).symm
      have hzv : z'.Valid := (show 1 * 1 ≤ o.z.data.length from ho.z.valid).trans_eq (by rw [hz', hlen])
      have hmem : ∀ y : Fin 1 → Bin fmt, z'.RepsV y → y 0 ∈ v := by
        intro y hy
        have := Mat.repsV_iff.1 hy 0 0
        rw [hz'] at this
        exact List.mem_of_getElem? this
      have hfin := ht _ (hmem _ hzv.repsV)
      refine ⟨c, hcN, hpc, ⟨⟨x, A, P, Q, hk, ha, ha1, hq, hqv, hx, hxX, hp, hp0, hp1⟩, fun s hs => ?_⟩, fun _ h => nomatch h⟩
      rcases List.mem_or_eq_of_mem_set hs with hs | rfl
      · exact hobs s hs
      · exact ⟨_, _, R, rfl, ⟨ho.H, hzv.repsV, ho.R, ho.y, ho.S, ho.K, ho.tempSInv, ho.tempHP, ho.tempPHt, ho.tempKHP⟩, hfin.1, hfin.2, hR⟩
  | setX v =>
    have hpc : Spec.Paced N c ops := hpc
    unfold World.step at h
    obtain ⟨x', h1, h⟩ := bind_ok h
    cases h
    have hx' : x'.data = v ∧ v.length = w.kf.x.data.length := by
      unfold Mat.copyFromSlice at h1
      split at h1
      · cases h1; exact ⟨rfl, hop⟩
      · cases h1
    have hxv : x'.Valid := (show 1 * 1 ≤ w.kf.x.data.length from hkv.x).trans_eq (by rw [hx'.1, hx'.2])
    have hmem := Mat.repsV_iff.1 hxv.repsV 0 0
    rw [hx'.1] at hmem
    have hfin := ht _ (List.mem_of_getElem? hmem)
    exact ⟨c, hcN, hpc, ⟨⟨_, A, P, Q, ⟨hxv.repsV, hk.A, hk.P, hk.Q, hk.predictedX, hk.tempP⟩, ha, ha1, hq, hqv, hfin.1, hfin.2, hp, hp0, hp1⟩,
      hobs⟩, fun _ h => nomatch h⟩
  | setA v =>
    have hpc : Spec.Paced N c ops := hpc
    unfold World.step at h
    obtain ⟨A', h1, h⟩ := bind_ok h
    cases h
    have hA' : A'.data = v ∧ v.length = w.kf.A.data.length := by
      unfold Mat.copyFromSlice at h1
      split at h1
      · cases h1; exact ⟨rfl, hop⟩
      · cases h1
    have hAv : A'.Valid := (show 1 * 1 ≤ w.kf.A.data.length from hkv.A).trans_eq (by rw [hA'.1, hA'.2])
    have hmem := hAv.reps 0 0
    rw [hA'.1] at hmem
    have hfin := ht _ (List.mem_of_getElem? hmem)
    exact ⟨c, hcN, hpc, ⟨⟨x, _, P, Q, ⟨hk.x, hAv.reps, hk.P, hk.Q, hk.predictedX, hk.tempP⟩, hfin.1, hfin.2, hq, hqv, hx, hxX, hp, hp0, hp1⟩,
      hobs⟩, fun _ h => nomatch h⟩
  | setP v =>
    have hpc : Spec.Paced N c ops := hpc
    unfold World.step at h
    obtain ⟨P', h1, h⟩ := bind_ok h
    cases h
    have hP' : P'.data = v ∧ v.length = w.kf.P.data.length := by
      unfold Mat.copyFromSlice at h1
      split at h1
      · cases h1; exact ⟨rfl, hop⟩
      · cases h1
    have hPv : P'.Valid := (show 1 * 1 ≤ w.kf.P.data.length from hkv.P).trans_eq (by rw [hP'.1, hP'.2])
    have hmem := hPv.reps 0 0
    rw [hP'.1] at hmem
    have hfin := ht _ (List.mem_of_getElem? hmem)
    refine ⟨c, hcN, hpc, ⟨⟨x, A, _, Q, ⟨hk.x, hk.A, hPv.reps, hk.Q, hk.predictedX, hk.tempP⟩, ha, ha1, hq, hqv, hx, hxX, hfin.1, hfin.2.1,
      hfin.2.2.trans ?_⟩, hobs⟩, fun _ h => nomatch h⟩
    have h7 : (1 : ℝ) ≤ (1 + 1 / 2 ^ fmt.prec) ^ c := one_le_pow₀ (le_add_of_nonneg_right (by positivity))
    have h8 : 0 ≤ (c : ℝ) * q := mul_nonneg (Nat.cast_nonneg _) hl.noise
    have h9 : B + c * q ≤ (1 + 1 / 2 ^ fmt.prec) ^ c * (B + c * q) := le_mul_of_one_le_left (by linarith [hl.start]) h7
    linarith
  | predictTuned _ => exact ht.elim
  | control _ => exact ht.elim
  | setQ _ => exact ht.elim
  | setU _ _ => exact ht.elim
  | setB _ _ => exact ht.elim
  | setQc _ _ => exact ht.elim
  | setH _ _ => exact ht.elim
  | setR _ _ => exact ht.elim

theorem forever_run (bld : Build) {X Z q B : ℝ} {N c : Nat} (hl : Spec.Lasting fmt X q B N) (hZ : 2 * Z ≤ X) (hcN : c ≤ N) {w w' : World 1 (Bin fmt)} (hv : w.Valid)
    (hw : w.Runs X Z q B N c) {ops rest : List (Op (Bin fmt))} (hop : ∀ op ∈ ops, op.WellFormed w) (hpc : Spec.Paced N c (ops ++ rest))
    (ht : ∀ op ∈ ops, Spec.Tame X Z B op) (h : w.run bld ops = .ok w') :
    ∃ c', c' ≤ N ∧ Spec.Paced N c' rest ∧ w'.Runs X Z q B N c' := by
  induction ops generalizing w c with
  | nil => cases h; exact ⟨c, hcN, hpc, hw⟩
  | cons op ops ih =>
    obtain ⟨w1, h1, h3⟩ := bind_ok (show (w.step bld op >>= fun v => v.run bld ops) = .ok w' from h)
    obtain ⟨hv1, hs1⟩ := step_keeps hv (hop op List.mem_cons_self) h1
    obtain ⟨c', k1, k2, k3, _⟩ := forever_step bld hl hZ hcN hw (hop op List.mem_cons_self) hpc (ht op List.mem_cons_self) h1
    exact ih k1 hv1 k3 (fun o ho => Op.WellFormed.congr hs1 (hop o (List.mem_cons_of_mem _ ho))) k2
      (fun o ho => ht o (List.mem_cons_of_mem _ ho)) h3

theorem run_after {T : Type} {n : Nat} [Zero T] [One T] [Add T] [Sub T] [Mul T] [Neg T] [MDT T] (bld : Build) {v v1 : World n T} {a b : List (Op T)}
    (h : v.run bld a = .ok v1) : v.run bld (a ++ b) = v1.run bld b := by
  induction a generalizing v with
  | nil => cases h; rfl
  | cons op a ih =>
    simp only [World.run] at h
    obtain ⟨v2, h1, h2⟩ := bind_ok h
    simp only [List.cons_append, World.run, h1, res_bind_ok]
    exact ih h2

theorem Bin.rat_at_most {a : Bin fmt} {q : ℚ} {c : ℝ} (h : a.rat = some q) (hq : |(q : ℝ)| ≤ c) : a.Finite ∧ |a.val| ≤ c := by
  have := Bin.rat_val h
  rw [this.2]
  exact ⟨this.1, hq⟩

end Forever

end Minikalman
