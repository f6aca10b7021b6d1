import Verif.Spec.Fusion
import Verif.Proofs.Order

/-! # Information gathered by measurements: helper lemmas -/

set_option linter.unusedSectionVars false

namespace Minikalman
namespace Spec

open Matrix

variable {n m : Nat}

section Fuse
variable {H : Matrix (Fin m) (Fin n) ℝ} {P : Matrix (Fin n) (Fin n) ℝ} {R₁ R₂ R : Matrix (Fin m) (Fin m) ℝ}

theorem fuse_gain (hP : P.PosSemidef) (h₁ : R₁.PosDef) (h₂ : R₂.PosDef) (hR : R.PosDef)
    (he : R⁻¹ = R₁⁻¹ + R₂⁻¹) :
    gain H P R = gain H P R₁ + gain H (corrP H P R₁) R₂ - gain H (corrP H P R₁) R₂ * H * gain H P R₁ := by
  have hS₁ := pd_det (innovCov_pd (H := H) hP h₁)
  have hP₁ := corrP_psd hP h₁.posSemidef hS₁
  have hS₂ := pd_det (innovCov_pd (H := H) hP₁ h₂)
  have hS := pd_det (innovCov_pd (H := H) hP hR)
  symm
  apply gain_unique hS
  have k1 := gain_mul hS₁
  have k2 := gain_mul hS₂
  have t1 := corrP_mul_trans (R := R₁) hS₁
  rw [t1] at k2
  have hS2 : innovCov H (corrP H P R₁) R₂ = H * (gain H P R₁ * R₁) + R₂ := by
    rw [innovCov, Matrix.mul_assoc, t1]
  rw [hS2] at k2
  have u1 := Matrix.mul_nonsing_inv _ (pd_det h₁)
  have u1' := Matrix.nonsing_inv_mul _ (pd_det h₁)
  have u2 := Matrix.mul_nonsing_inv _ (pd_det h₂)
  have uR := Matrix.nonsing_inv_mul _ (pd_det hR)
  -- V = R₁⁻¹ (R₁ - R)
  obtain ⟨V, hV⟩ : ∃ V, V = 1 - R₁⁻¹ * R := ⟨_, rfl⟩
  have hTV : (R₁ + R₂) * V = R₁ := by
    have e1 : R₁⁻¹ * R = 1 - R₂⁻¹ * R := by
      rw [eq_sub_iff_add_eq, ← Matrix.add_mul, ← he, uR]
    have e2 : R₁ * V = R₁ - R := by rw [hV, Matrix.mul_sub, Matrix.mul_one, ← Matrix.mul_assoc, u1, Matrix.one_mul]
    have e3 : R₂ * V = R := by rw [hV, e1, sub_sub_cancel, ← Matrix.mul_assoc, u2, Matrix.one_mul]
    rw [Matrix.add_mul, e2, e3, sub_add_cancel]
  have hRV : R = R₁ - R₁ * V := by
    rw [hV, Matrix.mul_sub, Matrix.mul_one, ← Matrix.mul_assoc, u1, Matrix.one_mul, sub_sub_cancel]
  have hM : H * P * Hᵀ = innovCov H P R₁ - R₁ := by rw [innovCov, add_sub_cancel_right]
  have hHK : H * gain H P R₁ = 1 - R₁ * (innovCov H P R₁)⁻¹ := by
    have := congrArg (fun X => H * X * (innovCov H P R₁)⁻¹) k1
    simp only [Matrix.mul_assoc] at this
    rw [Matrix.mul_nonsing_inv _ hS₁, Matrix.mul_one, ← Matrix.mul_assoc P, ← Matrix.mul_assoc H, ← Matrix.mul_assoc H, hM,
      Matrix.sub_mul, Matrix.mul_nonsing_inv _ hS₁] at this
    exact this
  have hSS : innovCov H P R = innovCov H P R₁ - R₁ * V := by
    have e : innovCov H P R = H * P * Hᵀ + R := rfl
    rw [e, hM]
    have e' : R₁ * V = R₁ - R := by rw [eq_sub_iff_add_eq, add_comm, ← eq_sub_iff_add_eq]; exact hRV
    rw [e']
    abel
  rw [hSS]
  generalize hK1 : gain H P R₁ = K₁ at *
  generalize gain H (corrP H P R₁) R₂ = K₂ at *
  generalize hSg : innovCov H P R₁ = S at *
  have hinv := Matrix.nonsing_inv_mul _ hS₁
  -- K₂ (R₁ + R₂ - R₁ S⁻¹ R₁) = K₁ R₁
  rw [← Matrix.mul_assoc, hHK] at k2
  rw [Matrix.mul_assoc, hHK, ← k1]
  have e4 : K₁ * R₁ * V = K₂ * R₁ - K₂ * R₁ * S⁻¹ * R₁ * V := by
    have e5 : (1 - R₁ * S⁻¹) * R₁ + R₂ = (R₁ + R₂) - R₁ * S⁻¹ * R₁ := by rw [Matrix.sub_mul, Matrix.one_mul]; abel
    rw [← k2, e5, Matrix.mul_assoc, Matrix.sub_mul, hTV, Matrix.mul_sub]
    simp only [Matrix.mul_assoc]
  have e6 : K₁ + K₂ - K₂ * (1 - R₁ * S⁻¹) = K₁ + K₂ * R₁ * S⁻¹ := by
    rw [Matrix.mul_sub, Matrix.mul_one, Matrix.mul_assoc]; abel
  have e7 : K₂ * R₁ * S⁻¹ * S = K₂ * R₁ := by rw [Matrix.mul_assoc, hinv, Matrix.mul_one]
  rw [e6, Matrix.mul_sub, Matrix.add_mul, Matrix.add_mul, e7, ← Matrix.mul_assoc, e4, ← Matrix.mul_assoc]
  abel

theorem fuse_corrP (hP : P.PosSemidef) (h₁ : R₁.PosDef) (h₂ : R₂.PosDef) (hR : R.PosDef)
    (he : R⁻¹ = R₁⁻¹ + R₂⁻¹) : corrP H (corrP H P R₁) R₂ = corrP H P R := by
  have hg := fuse_gain (H := H) hP h₁ h₂ hR he
  show corrP H P R₁ - gain H (corrP H P R₁) R₂ * H * corrP H P R₁ = P - gain H P R * H * P
  rw [hg]
  generalize gain H (corrP H P R₁) R₂ = K₂
  rw [corrP]
  generalize gain H P R₁ = K₁
  simp only [Matrix.sub_mul, Matrix.mul_sub, Matrix.add_mul, Matrix.mul_assoc]
  abel

theorem fuse_corrX (hP : P.PosSemidef) (h₁ : R₁.PosDef) (h₂ : R₂.PosDef) (hR : R.PosDef)
    (he : R⁻¹ = R₁⁻¹ + R₂⁻¹) (x : Fin n → ℝ) (z₁ z₂ : Fin m → ℝ) :
    corrX H (corrP H P R₁) R₂ (corrX H P R₁ x z₁) z₂ =
      corrX H P R x (R *ᵥ (R₁⁻¹ *ᵥ z₁ + R₂⁻¹ *ᵥ z₂)) := by
  have hS₁ := pd_det (innovCov_pd (H := H) hP h₁)
  have hP₁ := corrP_psd hP h₁.posSemidef hS₁
  have hS₂ := pd_det (innovCov_pd (H := H) hP₁ h₂)
  have hS := pd_det (innovCov_pd (H := H) hP hR)
  have hg := fuse_gain (H := H) hP h₁ h₂ hR he
  have t := corrP_mul_trans (R := R) hS
  have t2 := corrP_mul_trans (R := R₂) hS₂
  rw [fuse_corrP hP h₁ h₂ hR he, t] at t2
  have u2 := Matrix.mul_nonsing_inv _ (pd_det h₂)
  have uR := Matrix.mul_nonsing_inv _ (pd_det hR)
  show corrX H P R₁ x z₁ + gain H (corrP H P R₁) R₂ *ᵥ (z₂ - H *ᵥ corrX H P R₁ x z₁) = x + gain H P R *ᵥ (_ - H *ᵥ x)
  generalize gain H (corrP H P R₁) R₂ = K₂ at *
  rw [corrX]
  generalize gain H P R₁ = K₁ at *
  generalize gain H P R = G at *
  have g2 : G * R * R₂⁻¹ = K₂ := by rw [t2, Matrix.mul_assoc, u2, Matrix.mul_one]
  have g1 : G * R * R₁⁻¹ = K₁ - K₂ * H * K₁ := by
    have : G * R * (R₁⁻¹ + R₂⁻¹) = G := by rw [← he, Matrix.mul_assoc, uR, Matrix.mul_one]
    rw [Matrix.mul_add, g2] at this
    rw [eq_sub_of_add_eq this, hg]
    abel
  have e : G *ᵥ (R *ᵥ (R₁⁻¹ *ᵥ z₁ + R₂⁻¹ *ᵥ z₂)) = (K₁ - K₂ * H * K₁) *ᵥ z₁ + K₂ *ᵥ z₂ := by
    rw [← g1, ← g2]
    simp only [Matrix.mulVec_add, Matrix.mulVec_mulVec, Matrix.mul_assoc]
  rw [Matrix.mulVec_sub G, e, hg]
  simp only [Matrix.sub_mulVec, Matrix.add_mulVec, Matrix.mulVec_sub, Matrix.mulVec_add, ← Matrix.mulVec_mulVec]
  abel

end Fuse

/-! ## Information -/

theorem info_step {s s' : State n ℝ} (hs : s.Psd) (hP : s.P.PosDef) {op : Op ℝ} (hm : op.Measures)
    (h : s.step op = some s') :
    s'.P.PosDef ∧ s'.P⁻¹ = s.P⁻¹ + s.infoMatrix op ∧ s'.P⁻¹ *ᵥ s'.x = s.P⁻¹ *ᵥ s.x + s.infoVector op := by
  cases op with
  | predict => cases hm
  | predictTuned => cases hm
  | control => cases hm
  | setX => cases hm
  | setP => cases hm
  | correct i =>
    simp only [State.step, Option.map_eq_some_iff] at h
    obtain ⟨o, ho, rfl⟩ := h
    have hR := hs.obs o (List.mem_of_getElem? ho)
    have hpd := corrP_pd (H := o.2.H) hP hR
    have hi := information (H := o.2.H) hP hR
    simp only [State.infoMatrix, State.infoVector, ho]
    refine ⟨hpd, hi, ?_⟩
    show (corrP o.2.H s.P o.2.R)⁻¹ *ᵥ (s.x + gain o.2.H s.P o.2.R *ᵥ (o.2.z - o.2.H *ᵥ s.x)) = _
    have u := Matrix.nonsing_inv_mul _ (pd_det hpd)
    have e : (corrP o.2.H s.P o.2.R)⁻¹ * gain o.2.H s.P o.2.R = o.2.Hᵀ * o.2.R⁻¹ := by
      rw [gain_information hP hR, ← Matrix.mul_assoc, ← Matrix.mul_assoc, u, Matrix.one_mul]
    rw [Matrix.mulVec_add, Matrix.mulVec_mulVec, e, hi]
    simp only [Matrix.add_mulVec, Matrix.mulVec_sub, Matrix.mulVec_mulVec, Matrix.mul_assoc]
    abel
  | setA | setQ => cases h; simp [State.infoMatrix, State.infoVector, hP]
  | setU | setB | setQc | setZ | setH | setR =>
    simp only [State.step, Option.map_eq_some_iff] at h
    obtain ⟨o, ho, rfl⟩ := h
    simp [State.infoMatrix, State.infoVector, hP]

theorem info_run {s s' : State n ℝ} {ops : List (Op ℝ)} (hs : s.Psd) (hP : s.P.PosDef)
    (hd : ∀ op ∈ ops, s.PsdData op) (hm : ∀ op ∈ ops, op.Measures) (h : s.run ops = some s') :
    s'.P.PosDef ∧ s'.P⁻¹ = s.P⁻¹ + s.gatheredMatrix ops ∧ s'.P⁻¹ *ᵥ s'.x = s.P⁻¹ *ᵥ s.x + s.gatheredVector ops := by
  induction ops generalizing s with
  | nil =>
    cases h
    simp [State.gatheredMatrix, State.gatheredVector, hP]
  | cons op ops ih =>
    simp only [State.run, Option.bind_eq_some_iff] at h
    obtain ⟨s1, h1, h2⟩ := h
    have hm1 := hm op (by simp)
    have hl : op.NonzeroLambda := by cases op <;> trivial
    obtain ⟨p1, i1, v1⟩ := info_step hs hP hm1 h1
    have hs1 := step_cov_inv psd_closed h1 hs (hd op (by simp)) (psd_regular hs hl)
    obtain ⟨p2, i2, v2⟩ := ih hs1 p1 (fun o ho => covData_congr h1 (hd o (by simp [ho])))
      (fun o ho => hm o (by simp [ho])) h2
    refine ⟨p2, ?_, ?_⟩
    · rw [i2, i1, State.gatheredMatrix, h1]; simp only [add_assoc]
    · rw [v2, v1, State.gatheredVector, h1]; simp only [add_assoc]

/-! ## Averaging -/

theorem run_append {T : Type} [Field T] (s : State n T) (a b : List (Op T)) :
    s.run (a ++ b) = (s.run a).bind fun s' => s'.run b := by
  induction a generalizing s with
  | nil => rfl
  | cons op a ih =>
    simp only [List.cons_append, State.run, Option.bind_assoc]
    congr 1
    funext s'
    exact ih s'

/-- One correction of the textbook filter per measured value. -/
def oneByOne (i : Nat) (zs : List (List ℝ)) : List (Op ℝ) := zs.flatMap fun z => [.setZ i z, .correct i]

theorem smul_inv_pd {R : Matrix (Fin m) (Fin m) ℝ} (hR : R.PosDef) {a : ℝ} (ha : a ≠ 0) : (a • R)⁻¹ = a⁻¹ • R⁻¹ := by
  apply Matrix.inv_eq_right_inv
  rw [Matrix.smul_mul, Matrix.mul_smul, Matrix.mul_nonsing_inv _ (pd_det hR), smul_smul, mul_inv_cancel₀ ha, one_smul]

theorem average_run {s : State n ℝ} (hs : s.Psd) {i : Nat} {o : Obs n m ℝ} (ho : s.obs[i]? = some ⟨m, o⟩)
    (zs : List (List ℝ)) (hz : zs ≠ []) :
    ∃ s' z', s.run (oneByOne i zs) = some s' ∧ s'.P = corrP o.H s.P ((zs.length : ℝ)⁻¹ • o.R) ∧
      s'.x = corrX o.H s.P ((zs.length : ℝ)⁻¹ • o.R) s.x
        ((zs.length : ℝ)⁻¹ • (zs.map (vecOf : List ℝ → Fin m → ℝ)).sum) ∧
      s'.A = s.A ∧ s'.Q = s.Q ∧ s'.ctl = s.ctl ∧ s'.obs = s.obs.set i ⟨m, { o with z := z' }⟩ := by
  have hR : o.R.PosDef := hs.obs _ (List.mem_of_getElem? ho)
  obtain ⟨hil, _⟩ := List.getElem?_eq_some_iff.1 ho
  induction zs using List.reverseRecOn with
  | nil => exact absurd rfl hz
  | append_singleton zs z ih =>
    have last : ∀ s1 : State n ℝ, ∀ z1, s1.obs = s.obs.set i ⟨m, { o with z := z1 }⟩ →
        s1.run [.setZ i z, .correct i] = some { s1 with
          x := corrX o.H s1.P o.R s1.x (vecOf z), P := corrP o.H s1.P o.R,
          obs := s.obs.set i ⟨m, { o with z := vecOf z }⟩ } := by
      intro s1 z1 h1
      simp only [State.run, State.step, Option.map_some, Option.bind_some, h1, List.set_set,
        List.getElem?_set_self hil]
    by_cases hz' : zs = []
    · subst hz'
      have h0 : s.obs = s.obs.set i ⟨m, { o with z := o.z }⟩ := by
        obtain ⟨h1, h2⟩ := List.getElem?_eq_some_iff.1 ho
        conv_lhs => rw [← List.set_getElem_self h1, h2]
      refine ⟨_, vecOf z, last s o.z h0, ?_, ?_, rfl, rfl, rfl, rfl⟩
      · simp
      · simp
    · obtain ⟨s1, z1, h1, hP, hx, hA, hQ, hc, hob⟩ := ih hz'
      have hk : (0 : ℝ) < zs.length := by
        have : zs.length ≠ 0 := by simpa using hz'
        positivity
      have hRk : ((zs.length : ℝ)⁻¹ • o.R).PosDef := hR.smul (by positivity)
      have hRk1 : (((zs ++ [z]).length : ℝ)⁻¹ • o.R).PosDef := hR.smul (by simp; positivity)
      have he : (((zs ++ [z]).length : ℝ)⁻¹ • o.R)⁻¹ = ((zs.length : ℝ)⁻¹ • o.R)⁻¹ + o.R⁻¹ := by
        rw [smul_inv_pd hR (by simp; positivity), smul_inv_pd hR (by positivity), inv_inv, inv_inv]
        simp [add_smul]
      have hrun := last s1 z1 hob
      have hrun' : s.run (oneByOne i (zs ++ [z])) = s1.run [.setZ i z, .correct i] := by
        rw [oneByOne, List.flatMap_append, run_append]
        rw [oneByOne] at h1
        rw [h1, Option.bind_some]
        rfl
      refine ⟨_, vecOf z, hrun'.trans hrun, ?_, ?_, ?_, ?_, ?_, ?_⟩
      · show corrP o.H s1.P o.R = _
        rw [hP, fuse_corrP hs.P hRk hR hRk1 he]
      · show corrX o.H s1.P o.R s1.x (vecOf z) = _
        rw [hP, hx, fuse_corrX hs.P hRk hR hRk1 he]
        congr 1
        have u := Matrix.mul_nonsing_inv _ (pd_det hR)
        rw [smul_inv_pd hR (by positivity), inv_inv, Matrix.smul_mulVec, Matrix.smul_mulVec, Matrix.mulVec_smul,
          smul_smul, mul_inv_cancel₀ hk.ne', one_smul, Matrix.mulVec_add, Matrix.mulVec_mulVec, Matrix.mulVec_mulVec, u,
          Matrix.one_mulVec, Matrix.one_mulVec]
        simp
      · exact hA
      · exact hQ
      · exact hc
      · rfl

end Spec
end Minikalman
