import Verif.Proofs.Steps
import Verif.Proofs.Riccati

/-!
# Properties C30 – C34, C43 – C45, C50: what a single step means

All theorems are about runs of the model (`f.correct bld o = .ok (f', o')`, ...) on filters holding given real
matrices, in exact arithmetic. `(B - A).PosSemidef` is `A ≤ B` in the Loewner order.
-/

namespace Minikalman

open Matrix

variable {n l l₁ l₂ m m₁ m₂ : Nat} [MDT ℝ] [ExactReal]

/-! ## C30 -/

/-- C30: a measurement never increases uncertainty: in the Loewner order, in every diagonal entry, in the trace; and
the uncertainty of the predicted measurement drops below that of the measurement itself. -/
theorem C30_correct_reduces_uncertainty (bld : Build) {f : RegularKalman n ℝ} {o : RegularObservation n m ℝ}
    {x A P Q H z R} (hn : 0 < n) (hm : 0 < m) (hf : f.Reps x A P Q) (ho : o.Reps H z R) (hP : P.PosSemidef)
    (hR : R.PosDef) :
    ∃ f' o' x' P', f.correct bld o = .ok (f', o') ∧ f'.Reps x' A P' Q ∧ (P - P').PosSemidef ∧
      (∀ i, P' i i ≤ P i i) ∧ P'.trace ≤ P.trace ∧ (R - H * P' * Hᵀ).PosSemidef := by
  have hS := innovCov_pd (H := H) hP hR
  obtain ⟨f', o', h1, h2, _⟩ := kcorrect_exact bld hn hm hf ho hS
  have hle := corrP_le (psd_symm hP) (pd_symm hR) hS
  refine ⟨f', o', _, _, h1, h2, hle, fun i => ?_, ?_, measurement_cov_le (pd_symm hR) hS⟩
  · have := hle.diag_nonneg (i := i)
    rw [Matrix.sub_apply] at this
    linarith
  · have := hle.trace_nonneg
    rw [Matrix.trace_sub] at this
    linarith

/-- C30 without positive semi-definiteness of `P`: symmetric `P`, `R` and positive definite `S` suffice. -/
theorem C30_correct_reduces_uncertainty_symmetric (bld : Build) {f : RegularKalman n ℝ}
    {o : RegularObservation n m ℝ} {x A P Q H z R} (hn : 0 < n) (hm : 0 < m) (hf : f.Reps x A P Q)
    (ho : o.Reps H z R) (hP : Pᵀ = P) (hR : Rᵀ = R) (hS : (H * P * Hᵀ + R).PosDef) :
    ∃ f' o' x' P', f.correct bld o = .ok (f', o') ∧ f'.Reps x' A P' Q ∧ (P - P').PosSemidef ∧
      (R - H * P' * Hᵀ).PosSemidef := by
  obtain ⟨f', o', h1, h2, _⟩ := kcorrect_exact bld hn hm hf ho hS
  exact ⟨f', o', _, _, h1, h2, corrP_le hP hR hS, measurement_cov_le hR hS⟩

omit [MDT ℝ] [ExactReal] in
/-- The example filter has a positive semi-definite covariance and its sensor a positive definite noise. -/
theorem example_psd : (!![1, 0; 0, 1] : Matrix (Fin 2) (Fin 2) ℝ).PosSemidef ∧
    (!![3] : Matrix (Fin 1) (Fin 1) ℝ).PosDef := by
  constructor
  · rw [show (!![1, 0; 0, 1] : Matrix (Fin 2) (Fin 2) ℝ) = 1 by
      ext i j; fin_cases i <;> fin_cases j <;> rfl]
    exact Matrix.PosSemidef.one
  · rw [show (!![3] : Matrix (Fin 1) (Fin 1) ℝ) = Matrix.diagonal fun _ => 3 by
      ext i j; fin_cases i; fin_cases j; rfl]
    exact Matrix.PosDef.diagonal fun _ => by norm_num

example : ∃ (f : RegularKalman 2 ℝ) (o : RegularObservation 2 1 ℝ) (x : _) (A P Q : _) (H z R : _),
    f.Reps x A P Q ∧ o.Reps H z R ∧ P.PosSemidef ∧ R.PosDef ∧ H ≠ 0 ∧ z - H *ᵥ x ≠ 0 := by
  refine ⟨_, _, _, _, _, _, _, _, _, Ex.filter_reps ℝ, Ex.obs_reps ℝ, example_psd.1, example_psd.2, ?_, ?_⟩
  · intro h
    simpa using congrFun (congrFun h 0) 0
  · intro h
    have := congrFun h 0
    simp [Matrix.vecHead] at this
    norm_num at this

/-! ## C31 -/

/-- C31: for symmetric `P`, `R` the short form update `P - K H P` of the code equals the Joseph form. -/
theorem C31_joseph_form (bld : Build) {f : RegularKalman n ℝ} {o : RegularObservation n m ℝ}
    {x A P Q H z R} (hn : 0 < n) (hm : 0 < m) (hf : f.Reps x A P Q) (ho : o.Reps H z R) (hP : Pᵀ = P)
    (hR : Rᵀ = R) (hS : (H * P * Hᵀ + R).PosDef) :
    ∃ f' o' x' K, f.correct bld o = .ok (f', o') ∧ o'.K.Reps K ∧
      f'.Reps x' A ((1 - K * H) * P * (1 - K * H)ᵀ + K * R * Kᵀ) Q := by
  obtain ⟨f', o', h1, h2, _, _, _, h3⟩ := kcorrect_exact bld hn hm hf ho hS
  rw [joseph hP hR (pd_det hS)] at h2
  exact ⟨f', o', _, _, h1, h3, h2⟩

/-! ## C32 -/

/-- C32: the covariance after `correct` is the smallest error covariance any gain `G` can reach, and only the gain
used by `correct` reaches it. -/
theorem C32_gain_optimal (bld : Build) {f : RegularKalman n ℝ} {o : RegularObservation n m ℝ}
    {x A P Q H z R} (hn : 0 < n) (hm : 0 < m) (hf : f.Reps x A P Q) (ho : o.Reps H z R) (hP : Pᵀ = P)
    (hR : Rᵀ = R) (hS : (H * P * Hᵀ + R).PosDef) :
    ∃ f' o' x' P' K, f.correct bld o = .ok (f', o') ∧ o'.K.Reps K ∧ f'.Reps x' A P' Q ∧
      ∀ G : Matrix (Fin n) (Fin m) ℝ,
        ((1 - G * H) * P * (1 - G * H)ᵀ + G * R * Gᵀ - P').PosSemidef ∧
        ((1 - G * H) * P * (1 - G * H)ᵀ + G * R * Gᵀ = P' ↔ G = K) := by
  obtain ⟨f', o', h1, h2, _, _, _, h3⟩ := kcorrect_exact bld hn hm hf ho hS
  exact ⟨f', o', _, _, _, h1, h3, h2, fun G => ⟨optimal hP hR hS G, optimal_eq hP hR hS G⟩⟩

/-! ## C33 -/

/-- C33: for positive definite `P`, `R` the covariance after `correct` is positive definite and its inverse is
`P⁻¹ + Hᵀ R⁻¹ H`; the gain is `P' Hᵀ R⁻¹`. -/
theorem C33_information_form (bld : Build) {f : RegularKalman n ℝ} {o : RegularObservation n m ℝ}
    {x A P Q H z R} (hn : 0 < n) (hm : 0 < m) (hf : f.Reps x A P Q) (ho : o.Reps H z R) (hP : P.PosDef)
    (hR : R.PosDef) :
    ∃ f' o' x' P', f.correct bld o = .ok (f', o') ∧ f'.Reps x' A P' Q ∧ P'.PosDef ∧
      P'⁻¹ = P⁻¹ + Hᵀ * R⁻¹ * H ∧ P' * (P⁻¹ + Hᵀ * R⁻¹ * H) = 1 ∧ o'.K.Reps (P' * Hᵀ * R⁻¹) := by
  obtain ⟨f', o', h1, h2, _, _, _, h3⟩ := kcorrect_exact bld hn hm hf ho (innovCov_pd hP.posSemidef hR)
  rw [gain_information hP hR] at h3
  exact ⟨f', o', _, _, h1, h2, corrP_pd hP hR, information hP hR, information_mul hP hR, h3⟩

example : ∃ (f : RegularKalman 2 ℝ) (o : RegularObservation 2 1 ℝ) (x : _) (A P Q : _) (H z R : _),
    f.Reps x A P Q ∧ o.Reps H z R ∧ P.PosDef ∧ R.PosDef := by
  refine ⟨_, _, _, _, _, _, _, _, _, Ex.filter_reps ℝ, Ex.obs_reps ℝ, ?_, example_psd.2⟩
  rw [show (!![1, 0; 0, 1] : Matrix (Fin 2) (Fin 2) ℝ) = 1 by ext i j; fin_cases i <;> fin_cases j <;> rfl]
  exact Matrix.PosDef.one

/-! ## C34 -/

/-- C34: a measurement that equals its prediction leaves the state alone. -/
theorem C34_zero_innovation (bld : Build) {f : RegularKalman n ℝ} {o : RegularObservation n m ℝ}
    {x A P Q H z R} (hn : 0 < n) (hm : 0 < m) (hf : f.Reps x A P Q) (ho : o.Reps H z R)
    (hS : (H * P * Hᵀ + R).PosDef) (hz : z = H *ᵥ x) :
    ∃ f' o', f.correct bld o = .ok (f', o') ∧ f'.Reps x A (P - P * Hᵀ * (H * P * Hᵀ + R)⁻¹ * H * P) Q := by
  obtain ⟨f', o', h1, h2, _⟩ := kcorrect_exact bld hn hm hf ho hS
  refine ⟨f', o', h1, ?_⟩
  rw [Spec.corrX, hz, sub_self, Matrix.mulVec_zero, add_zero] at h2
  exact h2

/-- C34: a measurement of nothing (`H = 0`) changes neither state nor covariance. -/
theorem C34_zero_observation_matrix (bld : Build) {f : RegularKalman n ℝ} {o : RegularObservation n m ℝ}
    {x A P Q z R} (hn : 0 < n) (hm : 0 < m) (hf : f.Reps x A P Q) (ho : o.Reps 0 z R) (hR : R.PosDef) :
    ∃ f' o', f.correct bld o = .ok (f', o') ∧ f'.Reps x A P Q := by
  obtain ⟨f', o', h1, h2, _⟩ := kcorrect_exact bld hn hm hf ho (by simpa [Spec.innovCov] using hR)
  refine ⟨f', o', h1, ?_⟩
  simpa [Spec.corrX, Spec.corrP, Spec.gain] using h2

/-! ## C43 -/

/-- C43: correcting with two independent measurements in a row, in either order, gives the same state and covariance as
one correction with the stacked measurement. -/
theorem C43_sequential_eq_batch (bld : Build) {f : RegularKalman n ℝ} {o₁ : RegularObservation n m₁ ℝ}
    {o₂ : RegularObservation n m₂ ℝ} {o : RegularObservation n (m₁ + m₂) ℝ} {x A P Q H₁ z₁ R₁ H₂ z₂ R₂}
    (hn : 0 < n) (hm₁ : 0 < m₁) (hm₂ : 0 < m₂) (hf : f.Reps x A P Q) (ho₁ : o₁.Reps H₁ z₁ R₁)
    (ho₂ : o₂.Reps H₂ z₂ R₂)
    (ho : o.Reps (Spec.stack H₁ H₂) (Fin.append z₁ z₂) (Spec.blockDiag R₁ R₂))
    (hP : P.PosSemidef) (hR₁ : R₁.PosDef) (hR₂ : R₂.PosDef) :
    ∃ x' P',
      (∃ f₁ o₁' f₁₂ o₂', f.correct bld o₁ = .ok (f₁, o₁') ∧ f₁.correct bld o₂ = .ok (f₁₂, o₂') ∧ f₁₂.Reps x' A P' Q) ∧
      (∃ f₂ o₂' f₂₁ o₁', f.correct bld o₂ = .ok (f₂, o₂') ∧ f₂.correct bld o₁ = .ok (f₂₁, o₁') ∧ f₂₁.Reps x' A P' Q) ∧
      (∃ f' o', f.correct bld o = .ok (f', o') ∧ f'.Reps x' A P' Q) := by
  have hR := blockDiag_pd hR₁ hR₂
  have hR' := blockDiag_pd hR₂ hR₁
  have hS := innovCov_pd (H := Spec.stack H₁ H₂) hP hR
  have hS' := innovCov_pd (H := Spec.stack H₂ H₁) hP hR'
  have hS₁ := innovCov_pd (H := H₁) hP hR₁
  have hS₂ := innovCov_pd (H := H₂) hP hR₂
  have hS₁₂ := innovCov_pd (H := H₂) (corrP_psd hP hR₁.posSemidef (pd_det hS₁)) hR₂
  have hS₂₁ := innovCov_pd (H := H₁) (corrP_psd hP hR₂.posSemidef (pd_det hS₂)) hR₁
  refine ⟨Spec.corrX (Spec.stack H₁ H₂) P (Spec.blockDiag R₁ R₂) x (Fin.append z₁ z₂),
    Spec.corrP (Spec.stack H₁ H₂) P (Spec.blockDiag R₁ R₂), ?_, ?_, ?_⟩
  · obtain ⟨f₁, o₁', h1, h2, _⟩ := kcorrect_exact bld hn hm₁ hf ho₁ hS₁
    obtain ⟨f₁₂, o₂', h3, h4, _⟩ := kcorrect_exact bld hn hm₂ h2 ho₂ hS₁₂
    refine ⟨f₁, o₁', f₁₂, o₂', h1, h3, ?_⟩
    rwa [batch_corrP (pd_det hS) (pd_det hS₁) (pd_det hS₁₂), batch_corrX (pd_det hS) (pd_det hS₁) (pd_det hS₁₂)]
  · obtain ⟨f₂, o₂', h1, h2, _⟩ := kcorrect_exact bld hn hm₂ hf ho₂ hS₂
    obtain ⟨f₂₁, o₁', h3, h4, _⟩ := kcorrect_exact bld hn hm₁ h2 ho₁ hS₂₁
    refine ⟨f₂, o₂', f₂₁, o₁', h1, h3, ?_⟩
    have eH : Spec.stack H₁ H₂ = (Spec.stack H₂ H₁).submatrix finAddFlip id := by
      ext i j; refine Fin.addCases (fun i => ?_) (fun i => ?_) i <;> simp [Spec.stack]
    have eR : Spec.blockDiag R₁ R₂ = (Spec.blockDiag R₂ R₁).submatrix finAddFlip finAddFlip := by
      ext i j
      refine Fin.addCases (fun i => ?_) (fun i => ?_) i <;> refine Fin.addCases (fun j => ?_) (fun j => ?_) j <;>
        simp [Spec.blockDiag]
    have ez : Fin.append z₁ z₂ = Fin.append z₂ z₁ ∘ finAddFlip := by
      ext i; refine Fin.addCases (fun i => ?_) (fun i => ?_) i <;> simp
    rw [eH, eR, ez, perm_corrX, perm_corrP,
      batch_corrP (pd_det hS') (pd_det hS₂) (pd_det hS₂₁), batch_corrX (pd_det hS') (pd_det hS₂) (pd_det hS₂₁)]
    exact h4
  · obtain ⟨f', o', h1, h2, _⟩ := kcorrect_exact bld hn (by omega) hf ho hS
    exact ⟨f', o', h1, h2⟩

omit [MDT ℝ] [ExactReal] in
/-- The hypotheses of `C43_sequential_eq_batch` hold for a position and a velocity sensor. -/
example : (Ex.filter ℝ).Reps ![1, 2] !![1, 1; 0, 1] !![1, 0; 0, 1] !![1, 0; 0, 2] ∧
    (Ex.obs ℝ).Reps !![1, 0] ![5] !![3] ∧ (Ex.obs2 ℝ).Reps !![0, 1] ![4] !![8] ∧
    (Ex.obsBoth ℝ).Reps (Spec.stack !![1, 0] !![0, 1]) (Fin.append ![5] ![4]) (Spec.blockDiag !![3] !![8]) :=
  ⟨Ex.filter_reps ℝ, Ex.obs_reps ℝ, Ex.obs2_reps ℝ, Ex.obsBoth_reps ℝ⟩

omit [MDT ℝ] [ExactReal] in
/-- The three runs on rational numbers. -/
example :
    (do let (f, _) ← (Ex.filter ℚ).correct ⟨true, false⟩ (Ex.obs ℚ)
        let (f, _) ← f.correct ⟨true, false⟩ (Ex.obs2 ℚ)
        pure (f.x.data, f.P.data)) = (.ok ([2, 20/9, 77], [3/4, 0, 0, 8/9, 78]) : Res _) ∧
    (do let (f, _) ← (Ex.filter ℚ).correct ⟨true, false⟩ (Ex.obs2 ℚ)
        let (f, _) ← f.correct ⟨true, false⟩ (Ex.obs ℚ)
        pure (f.x.data, f.P.data)) = (.ok ([2, 20/9, 77], [3/4, 0, 0, 8/9, 78]) : Res _) ∧
    (do let (f, _) ← (Ex.filter ℚ).correct ⟨true, false⟩ (Ex.obsBoth ℚ)
        pure (f.x.data, f.P.data)) = (.ok ([2, 20/9, 77], [3/4, 0, 0, 8/9, 78]) : Res _) :=
  ⟨by decide +kernel, by decide +kernel, by decide +kernel⟩

/-- C43, general form: reordering the components of a measurement changes nothing. -/
theorem C43_measurement_permutation (bld : Build) {f : RegularKalman n ℝ} {o o' : RegularObservation n m ℝ}
    {x A P Q H z R} (e : Fin m ≃ Fin m) (hn : 0 < n) (hm : 0 < m) (hf : f.Reps x A P Q) (ho : o.Reps H z R)
    (ho' : o'.Reps (H.submatrix e id) (z ∘ e) (R.submatrix e e)) (hS : (H * P * Hᵀ + R).PosDef) :
    ∃ x' P' f₁ o₁ f₂ o₂, f.correct bld o = .ok (f₁, o₁) ∧ f.correct bld o' = .ok (f₂, o₂) ∧ f₁.Reps x' A P' Q ∧
      f₂.Reps x' A P' Q := by
  obtain ⟨f₁, o₁, h1, h2, _⟩ := kcorrect_exact bld hn hm hf ho hS
  have hS' : (Spec.innovCov (H.submatrix e id) P (R.submatrix e e)).PosDef := by
    have : Spec.innovCov (H.submatrix e id) P (R.submatrix e e) = (Spec.innovCov H P R).submatrix e e := by
      ext i j; simp [Spec.innovCov, Matrix.mul_apply]
    rw [this]
    exact hS.submatrix e.injective
  obtain ⟨f₂, o₂, h3, h4, _⟩ := kcorrect_exact bld hn hm hf ho' hS'
  rw [perm_corrX, perm_corrP] at h4
  exact ⟨_, _, f₁, o₁, f₂, o₂, h1, h3, h2, h4⟩

/-! ## C44 -/

/-- C44: `predict_tuned` with `0 < |λ| ≤ 1` yields at least the covariance of `predict`; smaller `|λ|` yields more. -/
theorem C44_tuned_inflates {f : RegularKalman n ℝ} {x A P Q} (hn : 0 < n) (hf : f.Reps x A P Q)
    (hP : P.PosSemidef) {a b : ℝ} (ha : a ≠ 0) (hab : |a| ≤ |b|) :
    ∃ fa fb fp x' Pa Pb Pp, f.predictTuned a = .ok fa ∧ f.predictTuned b = .ok fb ∧ f.predict = .ok fp ∧
      fa.Reps x' A Pa Q ∧ fb.Reps x' A Pb Q ∧ fp.Reps x' A Pp Q ∧
      (Pa - Pb).PosSemidef ∧ (|a| ≤ 1 → (Pa - Pp).PosSemidef) ∧ (1 ≤ |a| → (Pp - Pa).PosSemidef) := by
  have ha' : 0 < |a| := abs_pos.mpr ha
  have hb : b ≠ 0 := abs_pos.mp (ha'.trans_le hab)
  obtain ⟨fa, h1, h2, _⟩ := predictTuned_exact hn a ha hf
  obtain ⟨fb, h3, h4, _⟩ := predictTuned_exact hn b hb hf
  obtain ⟨fp, h5, h6, _⟩ := predict_exact hn hf
  have e : Spec.predP A P Q = Spec.predPTuned 1 A P Q := by simp [Spec.predP, Spec.predPTuned]
  refine ⟨fa, fb, fp, _, _, _, _, h1, h3, h5, h2, h4, h6, predPTuned_antitone hP ha' hab, fun h => ?_, fun h => ?_⟩
  · rw [e]; exact predPTuned_antitone hP ha' (by simpa using h)
  · rw [e]; exact predPTuned_antitone hP (by simp) (by simpa using h)

/-! ## C45 -/

omit [MDT ℝ] [ExactReal] in
/-- C45: the order of two control inputs does not matter, in every commutative ring. -/
theorem C45_controls_commute {T : Type} [CommRing T] [MDT T] {f : RegularKalman n T} {c : Control n l₁ T}
    {d : Control n l₂ T} {x A P Q B u Qc B' u' Qd} (hf : f.Reps x A P Q) (hc : c.Reps B u Qc)
    (hd : d.Reps B' u' Qd) :
    ∃ x' P' f₁ c₁ f₁₂ d₁ f₂ d₂ f₂₁ c₂,
      f.control c = .ok (f₁, c₁) ∧ f₁.control d = .ok (f₁₂, d₁) ∧
      f.control d = .ok (f₂, d₂) ∧ f₂.control c = .ok (f₂₁, c₂) ∧ f₁₂.Reps x' A P' Q ∧ f₂₁.Reps x' A P' Q := by
  obtain ⟨f₁, c₁, h1, h2, _⟩ := control_exact hf hc
  obtain ⟨f₁₂, d₁, h3, h4, _⟩ := control_exact h2 hd
  obtain ⟨f₂, d₂, h5, h6, _⟩ := control_exact hf hd
  obtain ⟨f₂₁, c₂, h7, h8, _⟩ := control_exact h6 hc
  refine ⟨_, _, f₁, c₁, f₁₂, d₁, f₂, d₂, f₂₁, c₂, h1, h3, h5, h7, h4, ?_⟩
  convert h8 using 1
  · simp only [Spec.ctlX]; abel
  · simp only [Spec.ctlP]; abel

/-! ## C50 -/

omit [ExactReal] in
/-- C50: larger covariances stay larger: `predict`, with larger or equal process noise. -/
theorem C50_predict_monotone {f g : RegularKalman n ℝ} {x y A P P' Q Q'} (hn : 0 < n) (hf : f.Reps x A P Q)
    (hg : g.Reps y A P' Q') (hP : (P' - P).PosSemidef) (hQ : (Q' - Q).PosSemidef) :
    ∃ f' g' x' y' P₁ P₁', f.predict = .ok f' ∧ g.predict = .ok g' ∧ f'.Reps x' A P₁ Q ∧ g'.Reps y' A P₁' Q' ∧
      (P₁' - P₁).PosSemidef := by
  obtain ⟨f', h1, h2, _⟩ := predict_exact hn hf
  obtain ⟨g', h3, h4, _⟩ := predict_exact hn hg
  exact ⟨f', g', _, _, _, _, h1, h3, h2, h4, predP_mono hP hQ⟩

/-- C50: `predict_tuned`. -/
theorem C50_predictTuned_monotone {f g : RegularKalman n ℝ} {x y A P P' Q Q'} (hn : 0 < n) {lambda : ℝ}
    (hl : lambda ≠ 0) (hf : f.Reps x A P Q) (hg : g.Reps y A P' Q') (hP : (P' - P).PosSemidef)
    (hQ : (Q' - Q).PosSemidef) :
    ∃ f' g' x' y' P₁ P₁', f.predictTuned lambda = .ok f' ∧ g.predictTuned lambda = .ok g' ∧ f'.Reps x' A P₁ Q ∧
      g'.Reps y' A P₁' Q' ∧ (P₁' - P₁).PosSemidef := by
  obtain ⟨f', h1, h2, _⟩ := predictTuned_exact hn lambda hl hf
  obtain ⟨g', h3, h4, _⟩ := predictTuned_exact hn lambda hl hg
  exact ⟨f', g', _, _, _, _, h1, h3, h2, h4, predPTuned_mono lambda hP hQ⟩

omit [ExactReal] in
/-- C50: `control`, with larger or equal control noise. -/
theorem C50_control_monotone {f g : RegularKalman n ℝ} {c d : Control n l ℝ} {x y A P P' Q B u v Qc Qd}
    (hf : f.Reps x A P Q) (hg : g.Reps y A P' Q) (hc : c.Reps B u Qc) (hd : d.Reps B v Qd)
    (hP : (P' - P).PosSemidef) (hQ : (Qd - Qc).PosSemidef) :
    ∃ f' c' g' d' x' y' P₁ P₁', f.control c = .ok (f', c') ∧ g.control d = .ok (g', d') ∧ f'.Reps x' A P₁ Q ∧
      g'.Reps y' A P₁' Q ∧ (P₁' - P₁).PosSemidef := by
  obtain ⟨f', c', h1, h2, _⟩ := control_exact hf hc
  obtain ⟨g', d', h3, h4, _⟩ := control_exact hg hd
  exact ⟨f', c', g', d', _, _, _, _, h1, h3, h2, h4, ctlP_mono hP hQ⟩

/-- C50: `correct`, with larger or equal measurement noise: a worse prior or a worse sensor never gives a better
estimate. -/
theorem C50_correct_monotone (bld : Build) {f g : RegularKalman n ℝ} {o p : RegularObservation n m ℝ}
    {x y A P P' Q H z w R R'} (hn : 0 < n) (hm : 0 < m) (hf : f.Reps x A P Q) (hg : g.Reps y A P' Q)
    (ho : o.Reps H z R) (hp : p.Reps H w R') (hP : P.PosSemidef) (hR : R.PosDef) (hPP : (P' - P).PosSemidef)
    (hRR : (R' - R).PosSemidef) :
    ∃ f' o' g' p' x' y' P₁ P₁', f.correct bld o = .ok (f', o') ∧ g.correct bld p = .ok (g', p') ∧
      f'.Reps x' A P₁ Q ∧ g'.Reps y' A P₁' Q ∧ (P₁' - P₁).PosSemidef := by
  have hP' : P'.PosSemidef := by simpa using hP.add hPP
  have hR' : R'.PosDef := by simpa using hR.add_posSemidef hRR
  have hS := innovCov_pd (H := H) hP hR
  have hS' := innovCov_pd (H := H) hP' hR'
  obtain ⟨f', o', h1, h2, _⟩ := kcorrect_exact bld hn hm hf ho hS
  obtain ⟨g', p', h3, h4, _⟩ := kcorrect_exact bld hn hm hg hp hS'
  exact ⟨f', o', g', p', _, _, _, _, h1, h3, h2, h4,
    corrP_mono (psd_symm hP) (psd_symm hP') (pd_symm hR) (pd_symm hR') hS hS' hPP hRR⟩

omit [MDT ℝ] [ExactReal] in
/-- Two different ordered covariances. -/
example : ((2 : ℝ) • (!![1, 0; 0, 1] : Matrix (Fin 2) (Fin 2) ℝ) - !![1, 0; 0, 1]).PosSemidef := by
  rw [show (2 : ℝ) • (!![1, 0; 0, 1] : Matrix (Fin 2) (Fin 2) ℝ) - !![1, 0; 0, 1] = !![1, 0; 0, 1] by
    rw [two_smul]; abel]
  exact example_psd.1

end Minikalman
