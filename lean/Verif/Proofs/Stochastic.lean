import Verif.Spec.Stochastic
import Verif.Proofs.Riccati
import Verif.Proofs.History

/-! # Filters in a random world -/

set_option linter.unusedSectionVars false

namespace Minikalman

open Matrix MeasureTheory

variable {Ω : Type} {j k l n m : Nat}

section Moments
variable [MeasurableSpace Ω] {μ : Measure Ω}

theorem uncorrelated_iff {a : Ω → Fin k → ℝ} {b : Ω → Fin l → ℝ} : Uncorrelated μ a b ↔ moment μ a b = 0 := by
  constructor
  · intro h; ext i j; exact h i j
  · intro h i j; exact congrFun (congrFun h i) j

theorem SqInt.add {a b : Ω → Fin k → ℝ} (ha : SqInt μ a) (hb : SqInt μ b) : SqInt μ (fun ω => a ω + b ω) :=
  fun i => (ha i).add (hb i)

theorem SqInt.sub {a b : Ω → Fin k → ℝ} (ha : SqInt μ a) (hb : SqInt μ b) : SqInt μ (fun ω => a ω - b ω) :=
  fun i => (ha i).sub (hb i)

theorem SqInt.mulVec {a : Ω → Fin k → ℝ} (ha : SqInt μ a) (A : Matrix (Fin l) (Fin k) ℝ) :
    SqInt μ (fun ω => A *ᵥ a ω) := by
  intro i
  show MemLp (fun ω => ∑ j, A i j * a ω j) 2 μ
  exact memLp_finsetSum _ fun j _ => (ha j).const_mul (A i j)

theorem moment_transpose (a : Ω → Fin k → ℝ) (b : Ω → Fin l → ℝ) : (moment μ a b)ᵀ = moment μ b a := by
  ext i j
  show ∫ ω, a ω j * b ω i ∂μ = ∫ ω, b ω i * a ω j ∂μ
  simp only [mul_comm]

theorem Uncorrelated.symm {a : Ω → Fin k → ℝ} {b : Ω → Fin l → ℝ} (h : Uncorrelated μ a b) : Uncorrelated μ b a := by
  rw [uncorrelated_iff] at h ⊢
  rw [← moment_transpose, h, Matrix.transpose_zero]

theorem moment_mulVec {a : Ω → Fin k → ℝ} {b : Ω → Fin l → ℝ} (ha : SqInt μ a) (hb : SqInt μ b)
    (A : Matrix (Fin j) (Fin k) ℝ) : moment μ (fun ω => A *ᵥ a ω) b = A * moment μ a b := by
  ext i c
  show ∫ ω, (∑ t, A i t * a ω t) * b ω c ∂μ = ∑ t, A i t * ∫ ω, a ω t * b ω c ∂μ
  simp only [Finset.sum_mul, mul_assoc]
  have hi : ∀ t, Integrable (fun ω => A i t * (a ω t * b ω c)) μ := fun t => ((ha t).integrable_mul (hb c)).const_mul (A i t)
  rw [integral_finsetSum _ fun t _ => hi t]
  simp only [integral_const_mul]

theorem moment_add {a a' : Ω → Fin k → ℝ} {b : Ω → Fin l → ℝ} (ha : SqInt μ a) (ha' : SqInt μ a') (hb : SqInt μ b) :
    moment μ (fun ω => a ω + a' ω) b = moment μ a b + moment μ a' b := by
  ext i c
  show ∫ ω, (a ω i + a' ω i) * b ω c ∂μ = ∫ ω, a ω i * b ω c ∂μ + ∫ ω, a' ω i * b ω c ∂μ
  simp only [add_mul]
  exact integral_add ((ha i).integrable_mul (hb c)) ((ha' i).integrable_mul (hb c))

/-- Second moments of a linear combination with an uncorrelated disturbance. -/
theorem moment_step {a : Ω → Fin k → ℝ} {b : Ω → Fin l → ℝ} (ha : SqInt μ a) (hb : SqInt μ b) (hab : Uncorrelated μ a b)
    (F : Matrix (Fin j) (Fin k) ℝ) (G : Matrix (Fin j) (Fin l) ℝ) :
    moment μ (fun ω => F *ᵥ a ω + G *ᵥ b ω) (fun ω => F *ᵥ a ω + G *ᵥ b ω) =
      F * moment μ a a * Fᵀ + G * moment μ b b * Gᵀ := by
  have hs := (ha.mulVec F).add (hb.mulVec G)
  have key : ∀ {c : Nat} {v : Ω → Fin c → ℝ}, SqInt μ v →
      moment μ (fun ω => F *ᵥ a ω + G *ᵥ b ω) v = F * moment μ a v + G * moment μ b v := fun hv => by
    rw [moment_add (ha.mulVec F) (hb.mulVec G) hv, moment_mulVec ha hv, moment_mulVec hb hv]
  have ha' : moment μ a (fun ω => F *ᵥ a ω + G *ᵥ b ω) = moment μ a a * Fᵀ := by
    rw [← moment_transpose, key ha, uncorrelated_iff.mp hab.symm, Matrix.mul_zero, add_zero, Matrix.transpose_mul,
      moment_transpose]
  have hb' : moment μ b (fun ω => F *ᵥ a ω + G *ᵥ b ω) = moment μ b b * Gᵀ := by
    rw [← moment_transpose, key hb, uncorrelated_iff.mp hab, Matrix.mul_zero, zero_add, Matrix.transpose_mul,
      moment_transpose]
  rw [key hs, ha', hb', Matrix.mul_assoc, Matrix.mul_assoc]

theorem moment_psd {a : Ω → Fin k → ℝ} (ha : SqInt μ a) : (moment μ a a).PosSemidef := by
  refine Matrix.PosSemidef.of_dotProduct_mulVec_nonneg ?_ fun x => ?_
  · rw [Matrix.IsHermitian, Matrix.conjTranspose_eq_transpose_of_trivial, moment_transpose]
  · set X : Matrix (Fin 1) (Fin k) ℝ := Matrix.of fun _ i => x i with hX
    have e : star x ⬝ᵥ moment μ a a *ᵥ x = moment μ (fun ω => X *ᵥ a ω) (fun ω => X *ᵥ a ω) 0 0 := by
      have hs := ha.mulVec X
      have h1 : moment μ a (fun ω => X *ᵥ a ω) = moment μ a a * Xᵀ := by
        rw [← moment_transpose, moment_mulVec ha ha, Matrix.transpose_mul, moment_transpose]
      rw [moment_mulVec ha hs, h1, ← Matrix.mul_assoc, Matrix.dotProduct_mulVec, Matrix.mul_apply]
      rfl
    rw [e]
    exact integral_nonneg fun ω => mul_self_nonneg _

theorem Uncorrelated.step {a : Ω → Fin k → ℝ} {b : Ω → Fin l → ℝ} {d : Ω → Fin m → ℝ} (ha : SqInt μ a) (hb : SqInt μ b)
    (hd : SqInt μ d) (had : Uncorrelated μ a d) (hbd : Uncorrelated μ b d) (F : Matrix (Fin j) (Fin k) ℝ)
    (G : Matrix (Fin j) (Fin l) ℝ) : Uncorrelated μ (fun ω => F *ᵥ a ω + G *ᵥ b ω) d := by
  rw [uncorrelated_iff] at *
  rw [moment_add (ha.mulVec F) (hb.mulVec G) hd, moment_mulVec ha hd, moment_mulVec hb hd, had, hbd, Matrix.mul_zero,
    Matrix.mul_zero, add_zero]

end Moments

/-! ## Steps -/

variable [MDT ℝ] [ExactReal]

theorem est_repsV {e : Ens Ω n} {ω : Ω} (h : (e.kf ω).x.Valid) : (e.kf ω).x.RepsV (e.est ω) := repsV_vecOf h

theorem est_eq {e : Ens Ω n} {ω : Ω} {x : Fin n → ℝ} (h : (e.kf ω).x.RepsV x) : e.est ω = x := by
  funext i
  simp [Ens.est, Spec.vecOf, h i]

theorem kf_reps {e : Ens Ω n} {ω : Ω} {A P Q : Matrix (Fin n) (Fin n) ℝ} (h : (e.kf ω).Valid) (hA : (e.kf ω).A.Reps A)
    (hP : (e.kf ω).P.Reps P) (hQ : (e.kf ω).Q.Reps Q) : (e.kf ω).Reps (e.est ω) A P Q :=
  ⟨est_repsV h.x, hA, hP, hQ, h.predictedX, h.tempP⟩

/-- What a step does to error and covariance: `e' = F e + G w`, `P' = F P Fᵀ + G W Gᵀ` where `W` is the covariance the filter
assumes for the disturbance. -/
structure StepEffect (e : Ens Ω n) (P : Matrix (Fin n) (Fin n) ℝ) (ν : Noise Ω) (e' : Ens Ω n) (exact : Prop) where
  P' : Matrix (Fin n) (Fin n) ℝ
  F : Matrix (Fin n) (Fin n) ℝ
  G : Matrix (Fin n) (Fin ν.dim) ℝ
  reports : e'.Reports P'
  error : ∀ ω, e'.error ω = F *ᵥ e.error ω + G *ᵥ ν.val ω
  eq : exact → P' = F * P * Fᵀ + G * ν.cov * Gᵀ
  le : (P' - (F * P * Fᵀ + G * ν.cov * Gᵀ)).PosSemidef
  psd : P'.PosSemidef

theorem reports_of {e' : Ens Ω n} {P' : Matrix (Fin n) (Fin n) ℝ} {x : Ω → Fin n → ℝ}
    (h : ∀ ω, ∃ A Q, (e'.kf ω).Reps (x ω) A P' Q) : e'.Reports P' ∧ ∀ ω, e'.est ω = x ω :=
  ⟨fun ω => let ⟨_, _, h⟩ := h ω; ⟨h.valid, h.P⟩, fun ω => let ⟨_, _, h⟩ := h ω; est_eq h.x⟩

/-- Effect of a correction, and the innovations. -/
theorem corrects_effect {bld : Build} {e e' : Ens Ω n} {H : Matrix (Fin m) (Fin n) ℝ} {R v o o'} (hn : 0 < n)
    (h : e.Corrects bld H R v o o' e') {P : Matrix (Fin n) (Fin n) ℝ} (hP : e.Reports P) (hp : P.PosSemidef) :
    e'.Reports (Spec.corrP H P R) ∧
    (∀ ω, e'.est ω = e.est ω + Spec.gain H P R *ᵥ (H *ᵥ e.error ω + v ω)) ∧
    (∀ ω, e'.error ω = (1 - Spec.gain H P R * H) *ᵥ e.error ω + (-Spec.gain H P R) *ᵥ v ω) ∧
    (∀ ω, (o' ω).y.RepsV (H *ᵥ e.error ω + v ω)) ∧
    ∀ ω, ∃ L : Matrix (Fin m) (Fin m) ℝ, (o' ω).S.Reps L ∧ (∀ i j, i < j → L i j = 0) ∧ (∀ i, 0 < L i i) ∧
      L * Lᵀ = H * P * Hᵀ + R := by
  have hS := innovCov_pd (H := H) hp h.noise
  have inn : ∀ ω, H *ᵥ e.truth ω + v ω - H *ᵥ e.est ω = H *ᵥ e.error ω + v ω := fun ω => by
    rw [Ens.error, Matrix.mulVec_sub]; abel
  have key : ∀ ω, (∃ A Q, (e'.kf ω).Reps (Spec.corrX H P R (e.est ω) (H *ᵥ e.truth ω + v ω)) A (Spec.corrP H P R) Q) ∧
      (o' ω).y.RepsV (H *ᵥ e.error ω + v ω) ∧
      ∃ L : Matrix (Fin m) (Fin m) ℝ, (o' ω).S.Reps L ∧ (∀ i j, i < j → L i j = 0) ∧ (∀ i, 0 < L i i) ∧
        L * Lᵀ = H * P * Hᵀ + R := by
    intro ω
    have hv := (hP ω).1
    have hk := kf_reps hv hv.A.reps (hP ω).2 hv.Q.reps
    have ho := h.holds ω
    obtain ⟨f', o1, h1, h2, _⟩ := kcorrect_exact bld hn h.measurements hk ho hS
    rw [h.runs ω] at h1
    cases h1
    obtain ⟨o2, x2, P2, k1, _, _, _, k2, k3, _⟩ := correct_exact bld hn h.measurements ho.valid ho.H ho.R hk.P hk.x ho.z hS
    have h3 := h.runs ω
    unfold RegularKalman.correct at h3
    rw [k1] at h3
    simp only [res_bind_ok] at h3
    injection h3 with h3
    injection h3 with _ h4
    refine ⟨⟨_, _, h2⟩, ?_, ?_⟩
    · rw [← h4, ← inn]; exact k2
    · rw [← h4]; exact k3
  obtain ⟨h1, h2⟩ := reports_of fun ω => (key ω).1
  have est : ∀ ω, e'.est ω = e.est ω + Spec.gain H P R *ᵥ (H *ᵥ e.error ω + v ω) := fun ω => by
    rw [h2, Spec.corrX, inn]
  refine ⟨h1, est, fun ω => ?_, fun ω => (key ω).2.1, fun ω => (key ω).2.2⟩
  · rw [Ens.error, est, h.truth, Matrix.sub_mulVec, Matrix.one_mulVec, Matrix.neg_mulVec, Matrix.mulVec_add,
      Matrix.mulVec_mulVec, Ens.error]
    abel

theorem step_effect {bld : Build} {tuned : Prop} {e e' : Ens Ω n} {N Z} (hn : 0 < n) (h : Ens.Step bld tuned e N Z e')
    {P : Matrix (Fin n) (Fin n) ℝ} (hP : e.Reports P) (hp : P.PosSemidef) (hN : ∀ ν ∈ N, ν.cov.PosSemidef) :
    (N = [] ∧ e'.Reports P ∧ ∀ ω, e'.error ω = e.error ω) ∨ ∃ ν, N = [ν] ∧ Nonempty (StepEffect e P ν e' (¬ tuned)) := by
  cases h with
  | @predict kf' A Q w hA hQ h =>
    refine Or.inr ⟨_, rfl, ?_⟩
    have hQ' : Q.PosSemidef := hN _ (List.mem_singleton_self _)
    obtain ⟨h1, h2⟩ := reports_of (e' := ⟨kf', fun ω => A *ᵥ e.truth ω + w ω⟩) (x := fun ω => A *ᵥ e.est ω)
      (P' := Spec.predP A P Q) fun ω => by
        obtain ⟨f', k1, k2, _⟩ := predict_exact hn (kf_reps (hP ω).1 (hA ω) (hP ω).2 (hQ ω))
        rw [h ω] at k1; cases k1
        exact ⟨_, _, k2⟩
    refine ⟨⟨Spec.predP A P Q, A, 1, h1, fun ω => ?_, fun _ => ?_, ?_, predP_psd hp hQ'⟩⟩
    · rw [Ens.error, h2, Ens.error, Matrix.mulVec_sub, Matrix.one_mulVec]
      exact add_sub_right_comm _ _ _
    · rw [Spec.predP, Matrix.one_mul, Matrix.transpose_one, Matrix.mul_one]
    · rw [Matrix.one_mul, Matrix.transpose_one, Matrix.mul_one, Spec.predP, sub_self]
      exact Matrix.PosSemidef.zero
  | @predictTuned kf' A Q w lambda ht h0 h1 hA hQ h =>
    refine Or.inr ⟨_, rfl, ?_⟩
    have hQ' : Q.PosSemidef := hN _ (List.mem_singleton_self _)
    obtain ⟨g1, g2⟩ := reports_of (e' := ⟨kf', fun ω => A *ᵥ e.truth ω + w ω⟩) (x := fun ω => A *ᵥ e.est ω)
      (P' := Spec.predPTuned lambda A P Q) fun ω => by
        obtain ⟨f', k1, k2, _⟩ := predictTuned_exact hn lambda h0 (kf_reps (hP ω).1 (hA ω) (hP ω).2 (hQ ω))
        rw [h ω] at k1; cases k1
        exact ⟨_, _, k2⟩
    refine ⟨⟨Spec.predPTuned lambda A P Q, A, 1, g1, fun ω => ?_, fun h => absurd ht h, ?_, predPTuned_psd _ hp hQ'⟩⟩
    · rw [Ens.error, g2, Ens.error, Matrix.mulVec_sub, Matrix.one_mulVec]
      exact add_sub_right_comm _ _ _
    · rw [Matrix.one_mul, Matrix.transpose_one, Matrix.mul_one]
      have := predPTuned_antitone (A := A) (Q := Q) hp (abs_pos.mpr h0) (b := 1) (by simpa using h1)
      simpa [Spec.predPTuned] using this
  | @control kf' l c c' B Q u w hc h =>
    refine Or.inr ⟨_, rfl, ?_⟩
    have hQ' : Q.PosSemidef := hN _ (List.mem_singleton_self _)
    obtain ⟨h1, h2⟩ := reports_of (e' := ⟨kf', fun ω => e.truth ω + B *ᵥ (u ω + w ω)⟩)
      (x := fun ω => Spec.ctlX B (u ω) (e.est ω)) (P' := Spec.ctlP B Q P) fun ω => by
        have hv := (hP ω).1
        obtain ⟨f', c1, k1, k2, _⟩ := control_exact (kf_reps hv hv.A.reps (hP ω).2 hv.Q.reps) (hc ω)
        rw [h ω] at k1; cases k1
        exact ⟨_, _, k2⟩
    refine ⟨⟨Spec.ctlP B Q P, 1, B, h1, fun ω => ?_, fun _ => ?_, ?_, ctlP_psd hp hQ'⟩⟩
    · rw [Ens.error, h2, Ens.error, Spec.ctlX, Matrix.one_mulVec]
      show e.truth ω + B *ᵥ (u ω + w ω) - (e.est ω + B *ᵥ u ω) = e.truth ω - e.est ω + B *ᵥ w ω
      rw [Matrix.mulVec_add]
      abel
    · rw [Spec.ctlP, Matrix.one_mul, Matrix.transpose_one, Matrix.mul_one]
    · rw [Matrix.one_mul, Matrix.transpose_one, Matrix.mul_one, Spec.ctlP, sub_self]
      exact Matrix.PosSemidef.zero
  | @correct _ m H R v o o' h =>
    refine Or.inr ⟨_, rfl, ?_⟩
    obtain ⟨h1, _, h3, _⟩ := corrects_effect hn h hP hp
    have hS := pd_det (innovCov_pd (H := H) hp h.noise)
    have hj : Spec.corrP H P R = (1 - Spec.gain H P R * H) * P * (1 - Spec.gain H P R * H)ᵀ +
        (-Spec.gain H P R) * R * (-Spec.gain H P R)ᵀ := by
      rw [joseph (psd_symm hp) (pd_symm h.noise) hS, Matrix.transpose_neg, Matrix.mul_neg, Matrix.neg_mul, Matrix.neg_mul,
        neg_neg]
    refine ⟨⟨Spec.corrP H P R, 1 - Spec.gain H P R * H, -Spec.gain H P R, h1, h3, fun _ => hj, ?_,
      corrP_psd hp h.noise.posSemidef hS⟩⟩
    rw [← hj, sub_self]
    exact Matrix.PosSemidef.zero
  | assign kf' hv hx hP' =>
    refine Or.inl ⟨rfl, fun ω => ⟨hv ω, ?_⟩, fun ω => ?_⟩
    · show (kf' ω).P.Reps P
      rw [hP' ω]; exact (hP ω).2
    · simp only [Ens.error, Ens.est, hx ω]

section Run
variable [MeasurableSpace Ω] {μ : Measure Ω}

/-- The reported covariance bounds the true one. -/
theorem run_conservative {bld : Build} {tuned : Prop} {e e' : Ens Ω n} {N Z} (hn : 0 < n)
    (h : Ens.Run bld tuned e N Z e') {P : Matrix (Fin n) (Fin n) ℝ} (hP : e.Reports P) (he : SqInt μ e.error)
    (hc : (P - moment μ e.error e.error).PosSemidef) (hN : WhiteAtMost μ N)
    (hu : ∀ ν ∈ N, Uncorrelated μ e.error ν.val) :
    ∃ P', e'.Reports P' ∧ P'.PosSemidef ∧ SqInt μ e'.error ∧ (P' - moment μ e'.error e'.error).PosSemidef := by
  induction h generalizing P with
  | nil e =>
    refine ⟨P, hP, ?_, he, hc⟩
    simpa using hc.add (moment_psd he)
  | @cons e e₁ e₂ N₁ N₂ Z₁ Z₂ h _ ih =>
    have hp : P.PosSemidef := by simpa using hc.add (moment_psd he)
    have hcov : ∀ ν ∈ N₁, ν.cov.PosSemidef := fun ν hν => by
      simpa using (hN.cov ν (List.mem_append_left _ hν)).add (moment_psd (hN.sq ν (List.mem_append_left _ hν)))
    have hN₂ : WhiteAtMost μ N₂ := ⟨fun ν hν => hN.sq ν (List.mem_append_right _ hν),
      fun ν hν => hN.cov ν (List.mem_append_right _ hν), (List.pairwise_append.mp hN.pairwise).2.1⟩
    rcases step_effect hn h hP hp hcov with ⟨rfl, h1, h2⟩ | ⟨ν, rfl, ⟨E⟩⟩
    · have e1 : e₁.error = e.error := funext h2
      exact ih h1 (e1 ▸ he) (e1 ▸ hc) hN₂ fun ν hν => e1 ▸ hu ν (List.mem_append_right _ hν)
    · have hνm : ν ∈ [ν] ++ N₂ := List.mem_append_left _ (List.mem_singleton_self _)
      have hν := hN.sq ν hνm
      have e1 : e₁.error = fun ω => E.F *ᵥ e.error ω + E.G *ᵥ ν.val ω := funext E.error
      have hs : SqInt μ e₁.error := e1 ▸ (he.mulVec E.F).add (hν.mulVec E.G)
      refine ih E.reports hs ?_ hN₂ fun ν' hν' => ?_
      · rw [e1, moment_step he hν (hu ν hνm)]
        refine psd_sub_trans ?_ E.le
        have a1 := psd_congr hc E.F
        have a2 := psd_congr (hN.cov ν hνm) E.G
        have := a1.add a2
        rwa [Matrix.mul_sub, Matrix.sub_mul, Matrix.mul_sub, Matrix.sub_mul, sub_add_sub_comm] at this
      · rw [e1]
        exact Uncorrelated.step he hν (hN₂.sq ν' hν') (hu ν' (List.mem_append_right _ hν'))
          ((List.pairwise_append.mp hN.pairwise).2.2 ν (List.mem_singleton_self _) ν' hν') _ _

/-- The reported covariance is the true one. -/
theorem run_honest {bld : Build} {e e' : Ens Ω n} {N Z} (hn : 0 < n)
    (h : Ens.Run bld False e N Z e') {P : Matrix (Fin n) (Fin n) ℝ} (hP : e.Reports P) (he : SqInt μ e.error)
    (hc : moment μ e.error e.error = P) (hN : White μ N) (hu : ∀ ν ∈ N, Uncorrelated μ e.error ν.val) :
    SqInt μ e'.error ∧ e'.Reports (moment μ e'.error e'.error) := by
  induction h generalizing P with
  | nil e => subst hc; exact ⟨he, hP⟩
  | @cons e e₁ e₂ N₁ N₂ Z₁ Z₂ h _ ih =>
    have hp : P.PosSemidef := hc ▸ moment_psd he
    have hcov : ∀ ν ∈ N₁, ν.cov.PosSemidef := fun ν hν => by
      rw [← hN.cov ν (List.mem_append_left _ hν)]
      exact moment_psd (hN.sq ν (List.mem_append_left _ hν))
    have hN₂ : White μ N₂ := ⟨fun ν hν => hN.sq ν (List.mem_append_right _ hν),
      fun ν hν => hN.cov ν (List.mem_append_right _ hν), (List.pairwise_append.mp hN.pairwise).2.1⟩
    rcases step_effect hn h hP hp hcov with ⟨rfl, h1, h2⟩ | ⟨ν, rfl, ⟨E⟩⟩
    · have e1 : e₁.error = e.error := funext h2
      exact ih h1 (e1 ▸ he) (e1 ▸ hc) hN₂ fun ν hν => e1 ▸ hu ν (List.mem_append_right _ hν)
    · have hνm : ν ∈ [ν] ++ N₂ := List.mem_append_left _ (List.mem_singleton_self _)
      have hν := hN.sq ν hνm
      have e1 : e₁.error = fun ω => E.F *ᵥ e.error ω + E.G *ᵥ ν.val ω := funext E.error
      have hs : SqInt μ e₁.error := e1 ▸ (he.mulVec E.F).add (hν.mulVec E.G)
      refine ih E.reports hs ?_ hN₂ fun ν' hν' => ?_
      · rw [e1, moment_step he hν (hu ν hνm), hc, hN.cov ν hνm, E.eq not_false]
      · rw [e1]
        exact Uncorrelated.step he hν (hN₂.sq ν' hν') (hu ν' (List.mem_append_right _ hν'))
          ((List.pairwise_append.mp hN.pairwise).2.2 ν (List.mem_singleton_self _) ν' hν') _ _

/-- Random vectors uncorrelated with the first error and all disturbances stay uncorrelated with the error. -/
theorem run_uncorrelated {bld : Build} {tuned : Prop} {e e' : Ens Ω n} {N Z} (hn : 0 < n)
    (h : Ens.Run bld tuned e N Z e') {P : Matrix (Fin n) (Fin n) ℝ} (hP : e.Reports P) (hp : P.PosSemidef)
    (hcov : ∀ ν ∈ N, ν.cov.PosSemidef) (hsq : ∀ ν ∈ N, SqInt μ ν.val) (he : SqInt μ e.error)
    {d : Ω → Fin k → ℝ} (hd : SqInt μ d) (hed : Uncorrelated μ e.error d) (hN : ∀ ν ∈ N, Uncorrelated μ ν.val d) :
    SqInt μ e'.error ∧ Uncorrelated μ e'.error d := by
  induction h generalizing P with
  | nil e => exact ⟨he, hed⟩
  | @cons e e₁ e₂ N₁ N₂ Z₁ Z₂ h _ ih =>
    rcases step_effect hn h hP hp fun ν hν => hcov ν (List.mem_append_left _ hν) with ⟨rfl, h1, h2⟩ | ⟨ν, rfl, ⟨E⟩⟩
    · have e1 : e₁.error = e.error := funext h2
      exact ih h1 hp hcov hsq (e1 ▸ he) (e1 ▸ hed) hN
    · have hνm : ν ∈ [ν] ++ N₂ := List.mem_append_left _ (List.mem_singleton_self _)
      have hν := hsq ν hνm
      have e1 : e₁.error = fun ω => E.F *ᵥ e.error ω + E.G *ᵥ ν.val ω := funext E.error
      refine ih E.reports E.psd (fun ν hν => hcov ν (List.mem_append_right _ hν))
        (fun ν hν => hsq ν (List.mem_append_right _ hν)) (e1 ▸ (he.mulVec E.F).add (hν.mulVec E.G)) ?_
        fun ν hν => hN ν (List.mem_append_right _ hν)
      rw [e1]
      exact Uncorrelated.step he hν hd hed (hN ν hνm) _ _

/-- Without disturbances an exact estimate stays exact. -/
theorem run_exact {bld : Build} {tuned : Prop} {e e' : Ens Ω n} {N Z} (hn : 0 < n)
    (h : Ens.Run bld tuned e N Z e') {P : Matrix (Fin n) (Fin n) ℝ} (hP : e.Reports P) (hp : P.PosSemidef)
    (hcov : ∀ ν ∈ N, ν.cov.PosSemidef) (h0 : ∀ ν ∈ N, ∀ ω, ν.val ω = 0) (he : ∀ ω, e.est ω = e.truth ω) :
    ∀ ω, e'.est ω = e'.truth ω := by
  suffices hh : (∀ ω, e.error ω = 0) → ∀ ω, e'.error ω = 0 by
    intro ω
    have := hh (fun ω => by rw [Ens.error, he, sub_self]) ω
    rw [Ens.error, sub_eq_zero] at this
    exact this.symm
  clear he
  induction h generalizing P with
  | nil e => exact id
  | @cons e e₁ e₂ N₁ N₂ Z₁ Z₂ h _ ih =>
    intro he
    rcases step_effect hn h hP hp fun ν hν => hcov ν (List.mem_append_left _ hν) with ⟨rfl, h1, h2⟩ | ⟨ν, rfl, ⟨E⟩⟩
    · exact ih h1 hp hcov h0 fun ω => (h2 ω).trans (he ω)
    · have hνm : ν ∈ [ν] ++ N₂ := List.mem_append_left _ (List.mem_singleton_self _)
      refine ih E.reports E.psd (fun ν hν => hcov ν (List.mem_append_right _ hν))
        (fun ν hν => h0 ν (List.mem_append_right _ hν)) fun ω => ?_
      rw [E.error, he, h0 ν hνm, Matrix.mulVec_zero, Matrix.mulVec_zero, add_zero]

/-! ## Innovations -/

theorem moment_add_right {a : Ω → Fin k → ℝ} {b b' : Ω → Fin l → ℝ} (ha : SqInt μ a) (hb : SqInt μ b) (hb' : SqInt μ b') :
    moment μ a (fun ω => b ω + b' ω) = moment μ a b + moment μ a b' := by
  rw [← moment_transpose, moment_add hb hb' ha, Matrix.transpose_add, moment_transpose, moment_transpose]

theorem moment_mulVec_right {a : Ω → Fin k → ℝ} {b : Ω → Fin l → ℝ} (ha : SqInt μ a) (hb : SqInt μ b)
    (A : Matrix (Fin j) (Fin l) ℝ) : moment μ a (fun ω => A *ᵥ b ω) = moment μ a b * Aᵀ := by
  rw [← moment_transpose, moment_mulVec hb ha, Matrix.transpose_mul, moment_transpose]

/-- The corrected error is uncorrelated with the innovation. -/
theorem innovation_orth {e : Ω → Fin n → ℝ} {v : Ω → Fin m → ℝ} {H : Matrix (Fin m) (Fin n) ℝ} {P R} (he : SqInt μ e)
    (hv : SqInt μ v) (hev : Uncorrelated μ e v) (hP : moment μ e e = P) (hR : moment μ v v = R)
    (hS : IsUnit (Spec.innovCov H P R).det) :
    Uncorrelated μ (fun ω => (1 - Spec.gain H P R * H) *ᵥ e ω + (-Spec.gain H P R) *ᵥ v ω) (fun ω => H *ᵥ e ω + v ω) := by
  rw [uncorrelated_iff]
  have hy := (he.mulVec H).add hv
  have h1 : moment μ e (fun ω => H *ᵥ e ω + v ω) = P * Hᵀ := by
    rw [moment_add_right he (he.mulVec H) hv, moment_mulVec_right he he, hP, uncorrelated_iff.mp hev, add_zero]
  have h2 : moment μ v (fun ω => H *ᵥ e ω + v ω) = R := by
    rw [moment_add_right hv (he.mulVec H) hv, moment_mulVec_right hv he, hR, uncorrelated_iff.mp hev.symm,
      Matrix.zero_mul, zero_add]
  rw [moment_add (he.mulVec _) (hv.mulVec _) hy, moment_mulVec he hy, moment_mulVec hv hy, h1, h2, Matrix.sub_mul,
    Matrix.one_mul, Matrix.neg_mul]
  have h3 : Spec.gain H P R * H * (P * Hᵀ) + Spec.gain H P R * R = P * Hᵀ := by
    have := gain_mul hS
    rw [Spec.innovCov, Matrix.mul_add] at this
    simpa only [Matrix.mul_assoc] using this
  rw [← sub_eq_add_neg, sub_sub, h3, sub_self]

theorem innovation_cov {e : Ω → Fin n → ℝ} {v : Ω → Fin m → ℝ} {H : Matrix (Fin m) (Fin n) ℝ} (he : SqInt μ e)
    (hv : SqInt μ v) (hev : Uncorrelated μ e v) :
    moment μ (fun ω => H *ᵥ e ω + v ω) (fun ω => H *ᵥ e ω + v ω) = H * moment μ e e * Hᵀ + moment μ v v := by
  have := moment_step he hv hev H 1
  simpa using this

/-! ## Optimality -/

/-- The random variables uncorrelated with all components of `a`. -/
def orthTo (a : Ω → Fin k → ℝ) (ha : SqInt μ a) : Submodule ℝ (Ω → ℝ) where
  carrier := {f | MemLp f 2 μ ∧ ∀ i, ∫ ω, a ω i * f ω ∂μ = 0}
  add_mem' := by
    rintro f g ⟨hf, hf'⟩ ⟨hg, hg'⟩
    refine ⟨hf.add hg, fun i => ?_⟩
    have h1 : Integrable (fun ω => a ω i * f ω) μ := (ha i).integrable_mul hf
    have h2 : Integrable (fun ω => a ω i * g ω) μ := (ha i).integrable_mul hg
    have e : (fun ω => a ω i * (f + g) ω) = fun ω => a ω i * f ω + a ω i * g ω := by funext ω; simp [mul_add]
    rw [e, integral_add h1 h2, hf', hg', add_zero]
  zero_mem' := ⟨MemLp.zero', fun i => by simp⟩
  smul_mem' := by
    rintro c f ⟨hf, hf'⟩
    refine ⟨hf.const_mul c, fun i => ?_⟩
    have e : (fun ω => a ω i * (c • f) ω) = fun ω => c * (a ω i * f ω) := by funext ω; simp [mul_left_comm]
    rw [e, integral_const_mul, hf', mul_zero]

theorem mem_orthTo {a : Ω → Fin k → ℝ} {ha : SqInt μ a} {f : Ω → ℝ} :
    f ∈ orthTo a ha ↔ MemLp f 2 μ ∧ ∀ i, ∫ ω, a ω i * f ω ∂μ = 0 := Iff.rfl

theorem mulVec_mem {D : Submodule ℝ (Ω → ℝ)} {a : Ω → Fin k → ℝ} (h : ∀ i, (fun ω => a ω i) ∈ D)
    (A : Matrix (Fin l) (Fin k) ℝ) (i : Fin l) : (fun ω => (A *ᵥ a ω) i) ∈ D := by
  have e : (fun ω => (A *ᵥ a ω) i) = ∑ j, A i j • fun ω => a ω j := by
    funext ω
    simp [Matrix.mulVec, dotProduct]
  rw [e]
  exact D.sum_mem fun j _ => D.smul_mem _ (h j)

theorem orthTo_step {a : Ω → Fin k → ℝ} {b : Ω → Fin l → ℝ} {c : Ω → Fin j → ℝ} (ha : SqInt μ a) (hb : SqInt μ b)
    (hc : SqInt μ c) {D : Submodule ℝ (Ω → ℝ)} (h1 : D ≤ orthTo a ha) (h2 : D ≤ orthTo b hb)
    {F : Matrix (Fin j) (Fin k) ℝ} {G : Matrix (Fin j) (Fin l) ℝ} (h : ∀ ω, c ω = F *ᵥ a ω + G *ᵥ b ω) :
    D ≤ orthTo c hc := by
  intro f hf
  have hfm := (h1 hf).1
  have hd : SqInt μ (fun ω (_ : Fin 1) => f ω) := fun _ => hfm
  have := Uncorrelated.step ha hb hd (fun i _ => (h1 hf).2 i) (fun i _ => (h2 hf).2 i) F G
  rw [show (fun ω => F *ᵥ a ω + G *ᵥ b ω) = c from (funext h).symm] at this
  exact ⟨hfm, fun i => this i 0⟩

/-- What is needed for optimality. -/
structure Optimal (μ : Measure Ω) (e : Ens Ω n) (D : Submodule ℝ (Ω → ℝ)) (N : List (Noise Ω)) : Prop where
  sq : SqInt μ e.error
  reports : e.Reports (moment μ e.error e.error)
  white : White μ N
  indep : ∀ ν ∈ N, Uncorrelated μ e.error ν.val
  est : ∀ i, (fun ω => e.est ω i) ∈ D
  orth : D ≤ orthTo e.error sq
  orthN : ∀ ν (h : ν ∈ N), D ≤ orthTo ν.val (white.sq ν h)

theorem step_est {bld : Build} {tuned : Prop} {e e₁ : Ens Ω n} {N₁ Z₁ Z₂} {D : Submodule ℝ (Ω → ℝ)} (hn : 0 < n)
    (h : Ens.Step bld tuned e N₁ Z₁ e₁) {P : Matrix (Fin n) (Fin n) ℝ} (hP : e.Reports P) (hp : P.PosSemidef)
    (hest : ∀ i, (fun ω => e.est ω i) ∈ D) (hc : Causal D (Z₁ ++ Z₂)) :
    (∀ i, (fun ω => e₁.est ω i) ∈ known D Z₁) ∧ Causal (known D Z₁) Z₂ := by
  cases h with
  | @predict kf' A Q w hA hQ h =>
    refine ⟨fun i => ?_, hc⟩
    obtain ⟨_, h2⟩ := reports_of (e' := ⟨kf', fun ω => A *ᵥ e.truth ω + w ω⟩) (x := fun ω => A *ᵥ e.est ω)
      (P' := Spec.predP A P Q) fun ω => by
        obtain ⟨f', k1, k2, _⟩ := predict_exact hn (kf_reps (hP ω).1 (hA ω) (hP ω).2 (hQ ω))
        rw [h ω] at k1; cases k1
        exact ⟨_, _, k2⟩
    simp only [h2]
    exact mulVec_mem hest A i
  | @predictTuned kf' A Q w lambda ht h0 h1 hA hQ h =>
    refine ⟨fun i => ?_, hc⟩
    obtain ⟨_, h2⟩ := reports_of (e' := ⟨kf', fun ω => A *ᵥ e.truth ω + w ω⟩) (x := fun ω => A *ᵥ e.est ω)
      (P' := Spec.predPTuned lambda A P Q) fun ω => by
        obtain ⟨f', k1, k2, _⟩ := predictTuned_exact hn lambda h0 (kf_reps (hP ω).1 (hA ω) (hP ω).2 (hQ ω))
        rw [h ω] at k1; cases k1
        exact ⟨_, _, k2⟩
    simp only [h2]
    exact mulVec_mem hest A i
  | @control kf' l c c' B Q u w hcr h =>
    obtain ⟨hu, hc'⟩ := hc
    refine ⟨fun i => ?_, hc'⟩
    obtain ⟨_, h2⟩ := reports_of (e' := ⟨kf', fun ω => e.truth ω + B *ᵥ (u ω + w ω)⟩)
      (x := fun ω => Spec.ctlX B (u ω) (e.est ω)) (P' := Spec.ctlP B Q P) fun ω => by
        have hv := (hP ω).1
        obtain ⟨f', c1, k1, k2, _⟩ := control_exact (kf_reps hv hv.A.reps (hP ω).2 hv.Q.reps) (hcr ω)
        rw [h ω] at k1; cases k1
        exact ⟨_, _, k2⟩
    simp only [h2]
    exact D.add_mem (hest i) (mulVec_mem hu B i)
  | @correct _ m H R v o o' h =>
    refine ⟨fun i => ?_, hc⟩
    obtain ⟨_, h2, _⟩ := corrects_effect hn h hP hp
    simp only [h2]
    have hD : D ≤ known D [.measured fun ω => H *ᵥ e.truth ω + v ω] := le_sup_left
    have hz : ∀ i, (fun ω => (H *ᵥ e.truth ω + v ω) i) ∈ known D [.measured fun ω => H *ᵥ e.truth ω + v ω] := fun i =>
      Submodule.mem_sup_right (Submodule.subset_span ⟨i, rfl⟩)
    refine Submodule.add_mem _ (hD (hest i)) (mulVec_mem (fun j => ?_) _ i)
    have e1 : (fun ω => (H *ᵥ e.error ω + v ω) j) = (fun ω => (H *ᵥ e.truth ω + v ω) j) - fun ω => (H *ᵥ e.est ω) j := by
      funext ω
      rw [Ens.error, Matrix.mulVec_sub]
      simp only [Pi.sub_apply, Pi.add_apply]
      ring
    rw [e1]
    exact Submodule.sub_mem _ (hz j) (hD (mulVec_mem hest H j))
  | assign kf' hv hx hP' =>
    refine ⟨fun i => ?_, hc⟩
    have : (fun ω => Ens.est ⟨kf', e.truth⟩ ω i) = fun ω => e.est ω i := by
      funext ω; simp only [Ens.est, hx ω]
    rw [this]
    exact hest i

/-- Data that a step adds are uncorrelated with the new error and the following disturbances. -/
theorem step_learn {bld : Build} {e e₁ : Ens Ω n} {N₁ N₂ Z₁} {D C : Submodule ℝ (Ω → ℝ)} (hn : 0 < n)
    (h : Ens.Step bld False e N₁ Z₁ e₁) (ho : Optimal μ e D (N₁ ++ N₂)) (hs : SqInt μ e₁.error)
    (hC : D ≤ C) (h1 : C = orthTo e₁.error hs ∨ ∃ ν, ∃ h : ν ∈ N₂, C = orthTo ν.val (ho.white.sq ν (List.mem_append_right _ h))) :
    known D Z₁ ≤ C := by
  cases h with
  | predict => exact hC
  | predictTuned => exact hC
  | control => exact hC
  | assign => exact hC
  | @correct _ m H R v o o' h =>
    refine sup_le hC (Submodule.span_le.mpr ?_)
    rintro _ ⟨i, rfl⟩
    have hp := moment_psd ho.sq
    have hvm : (⟨m, v, R⟩ : Noise Ω) ∈ [⟨m, v, R⟩] ++ N₂ := List.mem_append_left _ (List.mem_singleton_self _)
    have hv : SqInt μ v := ho.white.sq _ hvm
    have hev : Uncorrelated μ e.error v := ho.indep _ hvm
    have hR : moment μ v v = R := ho.white.cov _ hvm
    have hy := (ho.sq.mulVec H).add hv
    obtain ⟨_, _, h3, _⟩ := corrects_effect hn h ho.reports hp
    suffices hh : ∀ i, (fun ω => (H *ᵥ e.error ω + v ω) i) ∈ C by
      have e1 : (fun ω => (H *ᵥ e.truth ω + v ω) i) = (fun ω => (H *ᵥ e.error ω + v ω) i) + fun ω => (H *ᵥ e.est ω) i := by
        funext ω
        show _ = (H *ᵥ e.error ω + v ω) i + (H *ᵥ e.est ω) i
        rw [Ens.error, Matrix.mulVec_sub]
        simp only [Pi.sub_apply, Pi.add_apply]
        ring
      show (fun ω => (H *ᵥ e.truth ω + v ω) i) ∈ C
      rw [e1]
      exact C.add_mem (hh i) (hC (mulVec_mem ho.est H i))
    intro i
    rcases h1 with rfl | ⟨ν, hν, rfl⟩
    · refine ⟨hy i, fun j => ?_⟩
      have := innovation_orth ho.sq hv hev rfl hR (pd_det (innovCov_pd (H := H) hp h.noise)) j i
      simpa only [h3] using this
    · refine ⟨hy i, fun j => ?_⟩
      have hνs := ho.white.sq ν (List.mem_append_right _ hν)
      have := Uncorrelated.step ho.sq hv hνs (ho.indep ν (List.mem_append_right _ hν))
        ((List.pairwise_append.mp ho.white.pairwise).2.2 _ (List.mem_singleton_self _) ν hν) H 1
      have := this.symm j i
      simpa only [Matrix.one_mulVec] using this

theorem step_optimal {bld : Build} {e e₁ : Ens Ω n} {N₁ N₂ Z₁ Z₂} {D : Submodule ℝ (Ω → ℝ)} (hn : 0 < n)
    (h : Ens.Step bld False e N₁ Z₁ e₁) (ho : Optimal μ e D (N₁ ++ N₂)) (hc : Causal D (Z₁ ++ Z₂)) :
    Optimal μ e₁ (known D Z₁) N₂ ∧ Causal (known D Z₁) Z₂ := by
  have hp := moment_psd ho.sq
  obtain ⟨g1, g2⟩ := step_est hn h ho.reports hp ho.est hc
  have hrun : Ens.Run bld False e N₁ Z₁ e₁ := by
    have := Ens.Run.cons h (Ens.Run.nil e₁)
    simpa using this
  have hl : ∀ ν ∈ N₁, ν ∈ N₁ ++ N₂ := fun ν hν => List.mem_append_left _ hν
  have hr : ∀ ν ∈ N₂, ν ∈ N₁ ++ N₂ := fun ν hν => List.mem_append_right _ hν
  have hpw := List.pairwise_append.mp ho.white.pairwise
  have hcov : ∀ ν ∈ N₁, ν.cov.PosSemidef := fun ν hν => by
    rw [← ho.white.cov ν (hl ν hν)]
    exact moment_psd (ho.white.sq ν (hl ν hν))
  obtain ⟨k1, k2⟩ := run_honest hn hrun ho.reports ho.sq rfl
    ⟨fun ν hν => ho.white.sq ν (hl ν hν), fun ν hν => ho.white.cov ν (hl ν hν), hpw.1⟩ fun ν hν => ho.indep ν (hl ν hν)
  have unc : ∀ {k : Nat} {d : Ω → Fin k → ℝ}, SqInt μ d → Uncorrelated μ e.error d → (∀ ν ∈ N₁, Uncorrelated μ ν.val d) →
      Uncorrelated μ e₁.error d := fun hd h1 h2 =>
    (run_uncorrelated hn hrun ho.reports hp hcov (fun ν hν => ho.white.sq ν (hl ν hν)) ho.sq hd h1 h2).2
  refine ⟨⟨k1, k2, ⟨fun ν hν => ho.white.sq ν (hr ν hν), fun ν hν => ho.white.cov ν (hr ν hν), hpw.2.1⟩,
    fun ν hν => unc (ho.white.sq ν (hr ν hν)) (ho.indep ν (hr ν hν)) fun ν' hν' => hpw.2.2 ν' hν' ν hν, g1,
    step_learn hn h ho k1 ?_ (Or.inl rfl), fun ν hν => step_learn hn h ho k1 (ho.orthN ν (hr ν hν)) (Or.inr ⟨ν, hν, rfl⟩)⟩, g2⟩
  intro f hf
  have hfm := (ho.orth hf).1
  have := unc (d := fun ω (_ : Fin 1) => f ω) (fun _ => hfm) (fun i _ => (ho.orth hf).2 i) fun ν hν i _ =>
    (ho.orthN ν (hl ν hν) hf).2 i
  exact ⟨hfm, fun i => this i 0⟩

theorem known_append (D : Submodule ℝ (Ω → ℝ)) (Z₁ Z₂ : List (Datum Ω)) : known D (Z₁ ++ Z₂) = known (known D Z₁) Z₂ :=
  List.foldl_append ..

theorem run_optimal {bld : Build} {e e' : Ens Ω n} {N Z} {N' : List (Noise Ω)} {D : Submodule ℝ (Ω → ℝ)} (hn : 0 < n)
    (h : Ens.Run bld False e N Z e') (ho : Optimal μ e D (N ++ N')) (hc : Causal D Z) :
    Optimal μ e' (known D Z) N' := by
  induction h generalizing D with
  | nil e => exact ho
  | @cons e e₁ e₂ N₁ N₂ Z₁ Z₂ h _ ih =>
    rw [List.append_assoc] at ho
    obtain ⟨h1, h2⟩ := step_optimal hn h ho hc
    rw [known_append]
    exact ih h1 h2

/-- The error of an optimal estimate is smaller than the error of any other estimate from the same data. -/
theorem optimal_best {e : Ens Ω n} {D : Submodule ℝ (Ω → ℝ)} {N} (ho : Optimal μ e D N) {ξ : Ω → Fin n → ℝ}
    (hξ : ∀ i, (fun ω => ξ ω i) ∈ D) :
    (moment μ (fun ω => e.truth ω - ξ ω) (fun ω => e.truth ω - ξ ω) - moment μ e.error e.error).PosSemidef := by
  have hd : ∀ i, (fun ω => (e.est ω - ξ ω) i) ∈ D := fun i => D.sub_mem (ho.est i) (hξ i)
  have hs : SqInt μ (fun ω => e.est ω - ξ ω) := fun i => (ho.orth (hd i)).1
  have hu : Uncorrelated μ e.error (fun ω => e.est ω - ξ ω) := fun j i => (ho.orth (hd i)).2 j
  have := moment_step ho.sq hs hu (1 : Matrix (Fin n) (Fin n) ℝ) 1
  have e1 : (fun ω => e.truth ω - ξ ω) = fun ω => (1 : Matrix (Fin n) (Fin n) ℝ) *ᵥ e.error ω +
      (1 : Matrix (Fin n) (Fin n) ℝ) *ᵥ (e.est ω - ξ ω) := by
    funext ω
    rw [Matrix.one_mulVec, Matrix.one_mulVec, Ens.error]
    abel
  rw [e1, this]
  simp only [Matrix.one_mul, Matrix.transpose_one, Matrix.mul_one, add_sub_cancel_left]
  exact moment_psd hs

end Run

end Minikalman
