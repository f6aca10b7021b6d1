import Verif.Spec.WorstCase
import Verif.Proofs.Monotone

/-! # Worst-case errors: helper lemmas -/

set_option linter.unusedSectionVars false

namespace Minikalman
namespace Spec

open Matrix

variable {n m k : Nat}

theorem quad_nonneg {M : Matrix (Fin k) (Fin k) ℝ} (h : M.PosSemidef) (y : Fin k → ℝ) : 0 ≤ y ⬝ᵥ M *ᵥ y := by
  have := h.dotProduct_mulVec_nonneg y
  rwa [star_trivial] at this

theorem Within.congr {c : ℝ} {M : Matrix (Fin k) (Fin k) ℝ} {v : Fin k → ℝ} (h : Within c M v) (A : Matrix (Fin n) (Fin k) ℝ) :
    Within c (A * M * Aᵀ) (A *ᵥ v) := by
  intro y
  have := h (Aᵀ *ᵥ y)
  have e1 : (Aᵀ *ᵥ y) ⬝ᵥ v = y ⬝ᵥ A *ᵥ v := by
    rw [Matrix.mulVec_transpose, Matrix.dotProduct_mulVec]
  have e2 : (Aᵀ *ᵥ y) ⬝ᵥ M *ᵥ (Aᵀ *ᵥ y) = y ⬝ᵥ (A * M * Aᵀ) *ᵥ y := by
    rw [Matrix.mulVec_transpose, ← Matrix.dotProduct_mulVec, ← Matrix.mulVec_mulVec, ← Matrix.mulVec_mulVec,
      ← Matrix.mulVec_transpose A y]
  rwa [e1, e2] at this

theorem Within.add {a b : ℝ} {M N : Matrix (Fin k) (Fin k) ℝ} {u v : Fin k → ℝ} (ha : 0 ≤ a) (hb : 0 ≤ b)
    (hM : M.PosSemidef) (hN : N.PosSemidef) (h1 : Within a M u) (h2 : Within b N v) : Within (a + b) (M + N) (u + v) := by
  intro y
  have e1 := h1 y
  have e2 := h2 y
  have hm := quad_nonneg hM y
  have hq := quad_nonneg hN y
  rw [Matrix.add_mulVec, dotProduct_add, dotProduct_add]
  generalize y ⬝ᵥ u = p at *
  generalize y ⬝ᵥ v = q at *
  generalize y ⬝ᵥ M *ᵥ y = s at *
  generalize y ⬝ᵥ N *ᵥ y = t at *
  have h3 : (2 * (p * q)) ^ 2 ≤ (a * t + b * s) ^ 2 := by
    have : (p * q) ^ 2 ≤ (a * s) * (b * t) := by
      rw [mul_pow]; exact mul_le_mul e1 e2 (sq_nonneg _) (mul_nonneg ha hm)
    nlinarith [sq_nonneg (a * t - b * s)]
  have h4 : 2 * (p * q) ≤ a * t + b * s :=
    le_trans (le_abs_self _) ((sq_le_sq₀ (abs_nonneg _) (by positivity)).1 (by rwa [sq_abs]))
  nlinarith

theorem Within.mono {c : ℝ} {M N : Matrix (Fin k) (Fin k) ℝ} {v : Fin k → ℝ} (hc : 0 ≤ c) (h : Within c M v)
    (hMN : (N - M).PosSemidef) : Within c N v := by
  intro y
  have := quad_nonneg hMN y
  rw [Matrix.sub_mulVec, dotProduct_sub, sub_nonneg] at this
  exact (h y).trans (mul_le_mul_of_nonneg_left this hc)

theorem Within.neg {c : ℝ} {M : Matrix (Fin k) (Fin k) ℝ} {v : Fin k → ℝ} (h : Within c M v) : Within c M (-v) := by
  intro y
  have := h y
  rwa [dotProduct_neg, neg_sq]

theorem within_zero {c : ℝ} {M : Matrix (Fin k) (Fin k) ℝ} (hc : 0 ≤ c) (hM : M.PosSemidef) : Within c M 0 := by
  intro y
  rw [dotProduct_zero]
  have := mul_nonneg hc (quad_nonneg hM y)
  simpa using this

theorem Within.entry {c : ℝ} {M : Matrix (Fin k) (Fin k) ℝ} {v : Fin k → ℝ} (h : Within c M v) (i : Fin k) :
    |v i| ≤ √(c * M i i) := by
  have := h (Pi.single i 1)
  rw [single_one_dotProduct, single_one_dotProduct, Matrix.mulVec_single_one] at this
  rw [← Real.sqrt_sq_eq_abs]
  exact Real.sqrt_le_sqrt this

/-- For a positive definite covariance, in terms of its inverse. -/
theorem within_iff {c : ℝ} {M : Matrix (Fin k) (Fin k) ℝ} (hc : 0 ≤ c) (hM : M.PosDef) (v : Fin k → ℝ) :
    Within c M v ↔ v ⬝ᵥ M⁻¹ *ᵥ v ≤ c := by
  have hu : IsUnit M.det := pd_det hM
  have hs : Mᵀ = M := pd_symm hM
  have hMi : M *ᵥ (M⁻¹ *ᵥ v) = v := by rw [Matrix.mulVec_mulVec, Matrix.mul_nonsing_inv _ hu, Matrix.one_mulVec]
  have hc1 : (M⁻¹ *ᵥ v) ⬝ᵥ v = v ⬝ᵥ M⁻¹ *ᵥ v := dotProduct_comm _ _
  constructor
  · intro h
    have := h (M⁻¹ *ᵥ v)
    rw [hMi, hc1] at this
    by_contra h'
    push Not at h'
    nlinarith
  · intro h y
    have e : ∀ t : ℝ, 0 ≤ y ⬝ᵥ M *ᵥ y - 2 * t * (y ⬝ᵥ v) + t ^ 2 * (v ⬝ᵥ M⁻¹ *ᵥ v) := by
      intro t
      have h0 := quad_nonneg hM.posSemidef (y - t • (M⁻¹ *ᵥ v))
      have e2 : (M⁻¹ *ᵥ v) ⬝ᵥ M *ᵥ y = y ⬝ᵥ v := by
        rw [Matrix.dotProduct_mulVec, ← Matrix.mulVec_transpose, hs, hMi, dotProduct_comm]
      rw [Matrix.mulVec_sub, Matrix.mulVec_smul, hMi, dotProduct_sub, sub_dotProduct, sub_dotProduct, smul_dotProduct,
        smul_dotProduct, dotProduct_smul, dotProduct_smul, e2, hc1] at h0
      simp only [smul_eq_mul] at h0
      nlinarith
    have hq := quad_nonneg hM.posSemidef y
    have hi : 0 ≤ v ⬝ᵥ M⁻¹ *ᵥ v := quad_nonneg hM.inv.posSemidef v
    rcases hi.eq_or_lt with h0 | h0
    · -- no component at all
      have : y ⬝ᵥ v = 0 := by
        by_contra hne
        have := e ((y ⬝ᵥ M *ᵥ y + 1) / (2 * (y ⬝ᵥ v)))
        have e3 : 2 * ((y ⬝ᵥ M *ᵥ y + 1) / (2 * (y ⬝ᵥ v))) * (y ⬝ᵥ v) = y ⬝ᵥ M *ᵥ y + 1 := by
          field_simp
        rw [← h0, e3] at this
        linarith
      rw [this]
      have := mul_nonneg hc hq
      simpa using this
    · have := e ((y ⬝ᵥ v) / (v ⬝ᵥ M⁻¹ *ᵥ v))
      have h1 : (y ⬝ᵥ v) ^ 2 ≤ (v ⬝ᵥ M⁻¹ *ᵥ v) * (y ⬝ᵥ M *ᵥ y) := by
        have h2 : y ⬝ᵥ M *ᵥ y - 2 * ((y ⬝ᵥ v) / (v ⬝ᵥ M⁻¹ *ᵥ v)) * (y ⬝ᵥ v) +
            ((y ⬝ᵥ v) / (v ⬝ᵥ M⁻¹ *ᵥ v)) ^ 2 * (v ⬝ᵥ M⁻¹ *ᵥ v) = y ⬝ᵥ M *ᵥ y - (y ⬝ᵥ v) ^ 2 / (v ⬝ᵥ M⁻¹ *ᵥ v) := by
          field_simp
          ring
        rw [h2, sub_nonneg, div_le_iff₀ h0] at this
        linarith
      exact h1.trans (mul_le_mul_of_nonneg_right h hq)

/-! ## The steps -/

theorem predict_within {c cw : ℝ} {A P Q : Matrix (Fin n) (Fin n) ℝ} {e w : Fin n → ℝ} (hc : 0 ≤ c) (hw0 : 0 ≤ cw)
    (hP : P.PosSemidef) (hQ : Q.PosSemidef) (h : Within c P e) (hw : Within cw Q w) :
    Within (c + cw) (predP A P Q) (A *ᵥ e + w) :=
  (h.congr A).add hc hw0 (psd_congr hP A) hQ hw

theorem predictTuned_within {c cw lambda : ℝ} {A P Q : Matrix (Fin n) (Fin n) ℝ} {e w : Fin n → ℝ} (hc : 0 ≤ c) (hw0 : 0 ≤ cw)
    (hl : lambda ≠ 0) (hl' : |lambda| ≤ 1) (hP : P.PosSemidef) (hQ : Q.PosSemidef) (h : Within c P e) (hw : Within cw Q w) :
    Within (c + cw) (predPTuned lambda A P Q) (A *ᵥ e + w) := by
  refine (predict_within hc hw0 hP hQ h hw).mono (add_nonneg hc hw0) ?_
  rw [← predPTuned_one]
  exact predPTuned_antitone hP (abs_pos.2 hl) (by rwa [abs_one])

theorem control_within {c cq : ℝ} {P : Matrix (Fin n) (Fin n) ℝ} {B : Matrix (Fin n) (Fin m) ℝ} {Q : Matrix (Fin m) (Fin m) ℝ}
    {e : Fin n → ℝ} {q : Fin m → ℝ} (hc : 0 ≤ c) (hq0 : 0 ≤ cq) (hP : P.PosSemidef) (hQ : Q.PosSemidef)
    (h : Within c P e) (hq : Within cq Q q) : Within (c + cq) (ctlP B Q P) (e + B *ᵥ q) :=
  h.add hc hq0 hP (psd_congr hQ B) (hq.congr B)

theorem correct_within {c cv : ℝ} {P : Matrix (Fin n) (Fin n) ℝ} {H : Matrix (Fin m) (Fin n) ℝ} {R : Matrix (Fin m) (Fin m) ℝ}
    {e : Fin n → ℝ} {v : Fin m → ℝ} (hc : 0 ≤ c) (hv0 : 0 ≤ cv) (hP : P.PosSemidef) (hR : R.PosDef)
    (h : Within c P e) (hv : Within cv R v) :
    Within (c + cv) (corrP H P R) ((1 - gain H P R * H) *ᵥ e + gain H P R *ᵥ v) := by
  rw [joseph (Minikalman.psd_symm hP) (pd_symm hR) (pd_det (innovCov_pd hP hR))]
  exact (h.congr _).add hc hv0 (psd_congr hP _) (psd_congr hR.posSemidef _) (hv.congr _)

/-! ## Histories -/

theorem covData_step {s s1 : State n ℝ} {op : Op ℝ} (h : s.step op = some s1) {ops : List (Op ℝ)}
    (hd : ∀ o ∈ ops, s.PsdData o) : ∀ o ∈ ops, s1.PsdData o := fun o ho => covData_congr h (hd o ho)

theorem reality_within {s : State n ℝ} {ξ ξ' : Fin n → ℝ} {ops : List (Op ℝ)} {c : ℝ} (ht : Reality s ξ ops c ξ') :
    ∀ {c0 : ℝ}, 0 ≤ c0 → s.Psd → (∀ op ∈ ops, op.NonzeroLambda) → (∀ op ∈ ops, s.PsdData op) → Within c0 s.P (s.x - ξ) →
      0 ≤ c ∧ ∃ s1, s.run ops = some s1 ∧ Within (c0 + c) s1.P (s1.x - ξ') := by
  induction ht with
  | nil => exact fun h0 _ _ _ hw => ⟨le_rfl, _, rfl, by rwa [add_zero]⟩
  | @predict s s1 ξ ξ' ops c w cw hw0 hw h ht ih =>
    intro c0 h0 hs hl hd hi
    have hs1 := step_cov_inv psd_closed h hs (hd _ (by simp)) (psd_regular hs (hl _ (by simp)))
    have e : s1 = { s with x := s.A *ᵥ s.x, P := predP s.A s.P s.Q } := (Option.some.inj h).symm
    obtain ⟨a, s2, b, d⟩ := ih (add_nonneg h0 hw0) hs1 (fun o ho => hl o (by simp [ho]))
      (covData_step h fun o ho => hd o (by simp [ho])) (by
        subst e
        have := predict_within (A := s.A) h0 hw0 hs.P hs.Q hi hw.neg
        rwa [Matrix.mulVec_sub, ← sub_eq_add_neg, sub_sub] at this)
    exact ⟨add_nonneg hw0 a, s2, by simp only [State.run, h]; exact b, by rwa [← add_assoc]⟩
  | @predictTuned s s1 ξ ξ' ops c lambda hla w cw hw0 hw h ht ih =>
    intro c0 h0 hs hl hd hi
    have hs1 := step_cov_inv psd_closed h hs (hd _ (by simp)) (psd_regular hs (hl _ (by simp)))
    have e : s1 = { s with x := s.A *ᵥ s.x, P := predPTuned lambda s.A s.P s.Q } := (Option.some.inj h).symm
    obtain ⟨a, s2, b, d⟩ := ih (add_nonneg h0 hw0) hs1 (fun o ho => hl o (by simp [ho]))
      (covData_step h fun o ho => hd o (by simp [ho])) (by
        subst e
        have := predictTuned_within (A := s.A) h0 hw0 (hl (.predictTuned lambda) (by simp)) hla hs.P hs.Q hi hw.neg
        rwa [Matrix.mulVec_sub, ← sub_eq_add_neg, sub_sub] at this)
    exact ⟨add_nonneg hw0 a, s2, by simp only [State.run, h]; exact b, by rwa [← add_assoc]⟩
  | @control s s1 ξ ξ' ops c i l k hk q cq hq0 hq h ht ih =>
    intro c0 h0 hs hl hd hi
    have hs1 := step_cov_inv psd_closed h hs (hd _ (by simp)) (psd_regular hs (hl _ (by simp)))
    have e : s1 = { s with x := ctlX k.B k.u s.x, P := ctlP k.B k.Q s.P } := by
      simp only [State.step, hk] at h; exact (Option.some.inj h).symm
    obtain ⟨a, s2, b, d⟩ := ih (add_nonneg h0 hq0) hs1 (fun o ho => hl o (by simp [ho]))
      (covData_step h fun o ho => hd o (by simp [ho])) (by
        subst e
        have := control_within (B := k.B) h0 hq0 hs.P (hs.ctl _ (List.mem_of_getElem? hk)) hi hq.neg
        have e2 : ctlX k.B k.u s.x - (ξ + k.B *ᵥ (k.u + q)) = s.x - ξ + k.B *ᵥ -q := by
          rw [ctlX, Matrix.mulVec_add, Matrix.mulVec_neg]; abel
        show Within _ (ctlP k.B k.Q s.P) _
        rwa [e2])
    exact ⟨add_nonneg hq0 a, s2, by simp only [State.run, h]; exact b, by rwa [← add_assoc]⟩
  | @correct s s1 ξ ξ' ops c i m o ho v cv hv0 hv hz h ht ih =>
    intro c0 h0 hs hl hd hi
    have hs1 := step_cov_inv psd_closed h hs (hd _ (by simp)) (psd_regular hs (hl _ (by simp)))
    have e : s1 = { s with x := corrX o.H s.P o.R s.x o.z, P := corrP o.H s.P o.R } := by
      simp only [State.step, ho] at h; exact (Option.some.inj h).symm
    obtain ⟨a, s2, b, d⟩ := ih (add_nonneg h0 hv0) hs1 (fun o ho => hl o (by simp [ho]))
      (covData_step h fun o ho => hd o (by simp [ho])) (by
        subst e
        have := correct_within (H := o.H) h0 hv0 hs.P (hs.obs _ (List.mem_of_getElem? ho)) hi hv
        have e2 : corrX o.H s.P o.R s.x o.z - ξ =
            (1 - gain o.H s.P o.R * o.H) *ᵥ (s.x - ξ) + gain o.H s.P o.R *ᵥ v := by
          rw [corrX, hz, Matrix.sub_mulVec, Matrix.one_mulVec, ← Matrix.mulVec_mulVec, Matrix.mulVec_sub, Matrix.mulVec_sub,
            Matrix.mulVec_add, Matrix.mulVec_sub]
          abel
        show Within _ (corrP o.H s.P o.R) _
        rwa [e2])
    exact ⟨add_nonneg hv0 a, s2, by simp only [State.run, h]; exact b, by rwa [← add_assoc]⟩
  | @assign s s1 ξ ξ' ops c op hop h ht ih =>
    intro c0 h0 hs hl hd hi
    have hs1 := step_cov_inv psd_closed h hs (hd _ (by simp)) (psd_regular hs (hl _ (by simp)))
    have e : s1.x = s.x ∧ s1.P = s.P := by
      cases op <;> first
        | exact hop.elim
        | (cases h; exact ⟨rfl, rfl⟩)
        | (obtain ⟨c, _, rfl⟩ := option_map_some h; exact ⟨rfl, rfl⟩)
    obtain ⟨a, s2, b, d⟩ := ih h0 hs1 (fun o ho => hl o (by simp [ho]))
      (covData_step h fun o ho => hd o (by simp [ho])) (by rwa [e.1, e.2])
    exact ⟨a, s2, by simp only [State.run, h]; exact b, d⟩

/-- Two filters that differ in the state only. -/
theorem step_initial {s s1 : State n ℝ} {x' : Fin n → ℝ} {op : Op ℝ} {c : ℝ} (hc : 0 ≤ c) (hs : s.Psd) (hl : op.NonzeroLambda)
    (hk : KeepsUncertainty op) (h : s.step op = some s1) (hi : Within c s.P (x' - s.x)) :
    ∃ x1', State.step { s with x := x' } op = some { s1 with x := x1' } ∧ Within c s1.P (x1' - s1.x) := by
  have hz : ∀ {k : Nat} {M : Matrix (Fin k) (Fin k) ℝ}, M.PosSemidef → Within 0 M 0 := fun h => within_zero le_rfl h
  cases op with
  | predict =>
    cases h
    refine ⟨s.A *ᵥ x', rfl, ?_⟩
    have := predict_within (A := s.A) hc le_rfl hs.P hs.Q hi (hz hs.Q)
    rwa [Matrix.mulVec_sub, add_zero, add_zero] at this
  | predictTuned lambda =>
    cases h
    refine ⟨s.A *ᵥ x', rfl, ?_⟩
    have := predictTuned_within (A := s.A) hc le_rfl hl hk hs.P hs.Q hi (hz hs.Q)
    rwa [Matrix.mulVec_sub, add_zero, add_zero] at this
  | control i =>
    obtain ⟨k, hk, rfl⟩ := option_map_some h
    refine ⟨ctlX k.2.B k.2.u x', by simp only [State.step, hk]; rfl, ?_⟩
    have hQ := hs.ctl _ (List.mem_of_getElem? hk)
    have := control_within (B := k.2.B) hc le_rfl hs.P hQ hi (hz hQ)
    rw [Matrix.mulVec_zero, add_zero, add_zero] at this
    have e : ctlX k.2.B k.2.u x' - ctlX k.2.B k.2.u s.x = x' - s.x := by rw [ctlX, ctlX]; abel
    show Within c (ctlP k.2.B k.2.Q s.P) _
    rwa [e]
  | correct i =>
    obtain ⟨o, ho, rfl⟩ := option_map_some h
    refine ⟨corrX o.2.H s.P o.2.R x' o.2.z, by simp only [State.step, ho]; rfl, ?_⟩
    have hR := hs.obs _ (List.mem_of_getElem? ho)
    have := correct_within (H := o.2.H) hc le_rfl hs.P hR hi (hz hR.posSemidef)
    rw [Matrix.mulVec_zero, add_zero, add_zero] at this
    have e : corrX o.2.H s.P o.2.R x' o.2.z - corrX o.2.H s.P o.2.R s.x o.2.z =
        (1 - gain o.2.H s.P o.2.R * o.2.H) *ᵥ (x' - s.x) := by
      simp only [corrX, Matrix.sub_mulVec, Matrix.one_mulVec, ← Matrix.mulVec_mulVec, Matrix.mulVec_sub]
      abel
    show Within c (corrP o.2.H s.P o.2.R) _
    rwa [e]
  | setX v =>
    cases h
    refine ⟨vecOf v, rfl, ?_⟩
    rw [sub_self]
    exact within_zero hc hs.P
  | setP v => exact hk.elim
  | setA v => cases h; exact ⟨x', rfl, hi⟩
  | setQ v => cases h; exact ⟨x', rfl, hi⟩
  | setU i v => obtain ⟨k, hk, rfl⟩ := option_map_some h; exact ⟨x', by simp only [State.step, hk]; rfl, hi⟩
  | setB i v => obtain ⟨k, hk, rfl⟩ := option_map_some h; exact ⟨x', by simp only [State.step, hk]; rfl, hi⟩
  | setQc i v => obtain ⟨k, hk, rfl⟩ := option_map_some h; exact ⟨x', by simp only [State.step, hk]; rfl, hi⟩
  | setZ i v => obtain ⟨k, hk, rfl⟩ := option_map_some h; exact ⟨x', by simp only [State.step, hk]; rfl, hi⟩
  | setH i v => obtain ⟨k, hk, rfl⟩ := option_map_some h; exact ⟨x', by simp only [State.step, hk]; rfl, hi⟩
  | setR i v => obtain ⟨k, hk, rfl⟩ := option_map_some h; exact ⟨x', by simp only [State.step, hk]; rfl, hi⟩

theorem run_initial {ops : List (Op ℝ)} : ∀ {s s1 : State n ℝ} {x' : Fin n → ℝ} {c : ℝ}, 0 ≤ c → s.Psd →
    (∀ op ∈ ops, op.NonzeroLambda) → (∀ op ∈ ops, KeepsUncertainty op) → (∀ op ∈ ops, s.PsdData op) → s.run ops = some s1 →
    Within c s.P (x' - s.x) →
    ∃ x1', State.run { s with x := x' } ops = some { s1 with x := x1' } ∧ Within c s1.P (x1' - s1.x) := by
  induction ops with
  | nil =>
    intro s s1 x' c hc hs hl hk hd h hi
    cases h
    exact ⟨x', rfl, hi⟩
  | cons op ops ih =>
    intro s s1 x' c hc hs hl hk hd h hi
    simp only [State.run] at h
    cases e1 : s.step op with
    | none => rw [e1] at h; cases h
    | some t =>
      rw [e1, Option.bind_some] at h
      obtain ⟨x1', h1, h2⟩ := step_initial hc hs (hl _ (by simp)) (hk _ (by simp)) e1 hi
      obtain ⟨x2', h3, h4⟩ := ih hc (step_cov_inv psd_closed e1 hs (hd op (by simp)) (psd_regular hs (hl _ (by simp))))
        (fun o ho => hl o (by simp [ho])) (fun o ho => hk o (by simp [ho]))
        (covData_step e1 fun o ho => hd o (by simp [ho])) h h2
      exact ⟨x2', by simp only [State.run, h1, Option.bind_some, h3], h4⟩

end Spec
end Minikalman
