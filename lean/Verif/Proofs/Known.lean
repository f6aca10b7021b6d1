import Verif.Proofs.Late
import Mathlib.Analysis.Matrix.Order

/-! # What is known exactly: helper lemmas -/

set_option linter.unusedSectionVars false

namespace Minikalman

open Matrix

namespace Spec

variable {n m k l : Nat}

theorem rows_zero {G : Matrix (Fin m) (Fin n) ℝ} {M : Matrix (Fin n) (Fin n) ℝ} (hM : Mᵀ = M) :
    G * M = 0 ↔ ∀ i, M *ᵥ G i = 0 := by
  have e : ∀ i j, (G * M) i j = (M *ᵥ G i) j := by
    intro i j
    simp only [Matrix.mul_apply, Matrix.mulVec, dotProduct]
    refine Finset.sum_congr rfl fun k _ => ?_
    rw [mul_comm]
    congr 1
    exact (congrFun (congrFun hM j) k)
  constructor
  · intro h i
    funext j
    rw [← e, h]
    rfl
  · intro h
    ext i j
    rw [e, h]
    rfl

theorem quad_zero {M : Matrix (Fin n) (Fin n) ℝ} (hM : M.PosSemidef) (g : Fin n → ℝ) :
    M *ᵥ g = 0 ↔ g ⬝ᵥ M *ᵥ g = 0 := by
  have := hM.dotProduct_mulVec_zero_iff g
  simpa using this.symm

theorem sum_zero {G : Matrix (Fin m) (Fin n) ℝ} {M N : Matrix (Fin n) (Fin n) ℝ} (hM : M.PosSemidef)
    (hN : N.PosSemidef) : G * (M + N) = 0 ↔ G * M = 0 ∧ G * N = 0 := by
  constructor
  · intro h
    rw [rows_zero (psd_symm (hM.add hN))] at h
    have key : ∀ i, M *ᵥ G i = 0 ∧ N *ᵥ G i = 0 := by
      intro i
      have h1 := (quad_zero (hM.add hN) (G i)).1 (h i)
      rw [Matrix.add_mulVec, dotProduct_add] at h1
      have a : 0 ≤ G i ⬝ᵥ M *ᵥ G i := by simpa using hM.dotProduct_mulVec_nonneg (G i)
      have b : 0 ≤ G i ⬝ᵥ N *ᵥ G i := by simpa using hN.dotProduct_mulVec_nonneg (G i)
      exact ⟨(quad_zero hM _).2 (by linarith), (quad_zero hN _).2 (by linarith)⟩
    exact ⟨(rows_zero (psd_symm hM)).2 fun i => (key i).1, (rows_zero (psd_symm hN)).2 fun i => (key i).2⟩
  · rintro ⟨h1, h2⟩
    rw [Matrix.mul_add, h1, h2, add_zero]

theorem congr_zero {G : Matrix (Fin m) (Fin n) ℝ} {A : Matrix (Fin n) (Fin k) ℝ} {P : Matrix (Fin k) (Fin k) ℝ}
    (hP : P.PosSemidef) : G * (A * P * Aᵀ) = 0 ↔ G * A * P = 0 := by
  constructor
  · intro h
    rw [rows_zero (psd_symm hP)]
    intro i
    rw [quad_zero hP]
    have h1 : (G * A) * P * (G * A)ᵀ = 0 := by
      rw [Matrix.transpose_mul]
      have : G * A * P * (Aᵀ * Gᵀ) = G * (A * P * Aᵀ) * Gᵀ := by simp only [Matrix.mul_assoc]
      rw [this, h, Matrix.zero_mul]
    have h2 := congrFun (congrFun h1 i) i
    rw [Matrix.mul_assoc] at h2
    exact h2
  · intro h
    have : G * (A * P * Aᵀ) = G * A * P * Aᵀ := by simp only [Matrix.mul_assoc]
    rw [this, h, Matrix.zero_mul]

theorem corr_zero {G : Matrix (Fin l) (Fin n) ℝ} {H : Matrix (Fin m) (Fin n) ℝ} {P : Matrix (Fin n) (Fin n) ℝ}
    {R : Matrix (Fin m) (Fin m) ℝ} (hP : P.PosSemidef) (hR : R.PosDef) : G * corrP H P R = 0 ↔ G * P = 0 := by
  have hS := pd_det (innovCov_pd (H := H) hP hR)
  have hRu := pd_det hR
  constructor
  · intro h
    unfold corrP at h
    rw [Matrix.mul_sub, sub_eq_zero] at h
    have h1 : G * P = G * P * Hᵀ * (innovCov H P R)⁻¹ * (H * P) := by
      refine h.trans ?_
      unfold gain
      simp only [Matrix.mul_assoc]
    have h2 : G * P * Hᵀ * (innovCov H P R)⁻¹ * R = 0 := by
      have e1 : G * P * Hᵀ = G * P * Hᵀ * (innovCov H P R)⁻¹ * (H * P * Hᵀ) := by
        conv_lhs => rw [h1]
        simp only [Matrix.mul_assoc]
      have e2 : G * P * Hᵀ * (innovCov H P R)⁻¹ * innovCov H P R = G * P * Hᵀ := by
        rw [Matrix.mul_assoc _ _ (innovCov H P R), Matrix.nonsing_inv_mul _ hS, Matrix.mul_one]
      have e3 : G * P * Hᵀ * (innovCov H P R)⁻¹ * R = G * P * Hᵀ * (innovCov H P R)⁻¹ * innovCov H P R -
          G * P * Hᵀ * (innovCov H P R)⁻¹ * (H * P * Hᵀ) := by
        rw [← Matrix.mul_sub]
        congr 1
        unfold innovCov
        abel
      rw [e3, e2, ← e1, sub_self]
    have h3 : G * P * Hᵀ * (innovCov H P R)⁻¹ = 0 := by
      have := congrArg (· * R⁻¹) h2
      simpa [Matrix.mul_assoc, Matrix.mul_nonsing_inv _ hRu] using this
    rw [h1, h3, Matrix.zero_mul]
  · intro h
    have : G * (gain H P R * H * P) = G * P * (Hᵀ * (innovCov H P R)⁻¹ * H * P) := by
      unfold gain
      simp only [Matrix.mul_assoc]
    unfold corrP
    rw [Matrix.mul_sub, this, h, Matrix.zero_mul, sub_zero]

theorem corrX_known {G : Matrix (Fin l) (Fin n) ℝ} {H : Matrix (Fin m) (Fin n) ℝ} {P : Matrix (Fin n) (Fin n) ℝ}
    {R : Matrix (Fin m) (Fin m) ℝ} (h : G * P = 0) (x : Fin n → ℝ) (z : Fin m → ℝ) :
    G *ᵥ corrX H P R x z = G *ᵥ x := by
  have : G * gain H P R = 0 := by
    unfold gain
    rw [← Matrix.mul_assoc, ← Matrix.mul_assoc, h, Matrix.zero_mul, Matrix.zero_mul]
  unfold corrX
  rw [Matrix.mulVec_add, Matrix.mulVec_mulVec, this, Matrix.zero_mulVec, add_zero]

theorem mul_zero_iff {G : Matrix (Fin l) (Fin n) ℝ} {M : Matrix (Fin n) (Fin k) ℝ} :
    G * M = 0 ↔ ∀ v, G *ᵥ (M *ᵥ v) = 0 := by
  constructor
  · intro h v
    rw [Matrix.mulVec_mulVec, h, Matrix.zero_mulVec]
  · intro h
    refine Matrix.ext_iff_mulVec.2 fun v => ?_
    rw [← Matrix.mulVec_mulVec, h, Matrix.zero_mulVec]

/-- One call: known afterwards is what was known before and is not disturbed. -/
theorem known_step {s s' : State n ℝ} (hs : s.Psd) {op : Op ℝ} (hop : op.SetsNoEstimate) (hl : op.NonzeroLambda)
    (h : s.step op = some s') (G : Matrix (Fin m) (Fin n) ℝ) :
    (G * s'.P = 0 ↔ (∀ ξ v, G *ᵥ s.evolve op (ξ + s.P *ᵥ v) = G *ᵥ s.evolve op ξ) ∧
      ∀ d, s.Displaces op d → G *ᵥ d = 0) ∧ (G * s'.P = 0 → G *ᵥ s'.x = G *ᵥ s.evolve op s.x) := by
  have stay : (∀ ξ v, G *ᵥ (ξ + s.P *ᵥ v) = G *ᵥ ξ) ↔ G * s.P = 0 := by
    simp only [Matrix.mulVec_add, add_eq_left, mul_zero_iff, forall_const]
  have move : (∀ ξ v, G *ᵥ (s.A *ᵥ (ξ + s.P *ᵥ v)) = G *ᵥ (s.A *ᵥ ξ)) ↔ G * s.A * s.P = 0 := by
    simp only [Matrix.mulVec_add, add_eq_left, mul_zero_iff, forall_const, Matrix.mulVec_mulVec, Matrix.mul_assoc]
  have hAP := psd_congr hs.P s.A
  cases op <;> simp only [Op.SetsNoEstimate] at hop <;>
    simp only [State.step, Option.some.injEq, Option.map_eq_some_iff] at h
  case predict =>
    subst h
    simp only [State.evolve, State.Displaces, move, predP, sum_zero hAP hs.Q, congr_zero hs.P, implies_true, and_true,
      forall_exists_index, forall_eq_apply_imp_iff, mul_zero_iff (M := s.Q)]
  case predictTuned a =>
    subst h
    have ha : (a ^ 2)⁻¹ ≠ 0 := inv_ne_zero (pow_ne_zero 2 hl)
    have hc : G * ((a ^ 2)⁻¹ • (s.A * s.P * s.Aᵀ)) = 0 ↔ G * (s.A * s.P * s.Aᵀ) = 0 := by
      rw [Matrix.mul_smul, smul_eq_zero]
      exact ⟨fun h => h.resolve_left ha, Or.inr⟩
    simp only [State.evolve, State.Displaces, move, predPTuned, sum_zero (hAP.smul (by positivity : 0 ≤ (a ^ 2)⁻¹)) hs.Q,
      hc, congr_zero hs.P, implies_true, and_true, forall_exists_index, forall_eq_apply_imp_iff, mul_zero_iff (M := s.Q)]
  case control j =>
    obtain ⟨c, hc, rfl⟩ := h
    have hQ := hs.ctl c (List.mem_of_getElem? hc)
    have shift : (∀ ξ v, G *ᵥ (ξ + s.P *ᵥ v + c.2.B *ᵥ c.2.u) = G *ᵥ (ξ + c.2.B *ᵥ c.2.u)) ↔ G * s.P = 0 := by
      rw [← stay]
      simp only [Matrix.mulVec_add, add_left_inj]
    simp only [State.evolve, State.Displaces, hc, shift, ctlP, ctlX, sum_zero hs.P (psd_congr hQ c.2.B),
      congr_zero hQ, implies_true, and_true, Option.some.injEq, exists_eq_left', forall_exists_index,
      forall_eq_apply_imp_iff]
    rw [mul_zero_iff (G := G * c.2.B)]
    simp only [Matrix.mulVec_mulVec, Matrix.mul_assoc]
  case correct i =>
    obtain ⟨o, ho, rfl⟩ := h
    have hR := hs.obs o (List.mem_of_getElem? ho)
    simp only [State.evolve, State.Displaces, stay, corr_zero hs.P hR, false_imp_iff, implies_true, and_true, true_and]
    exact fun h => corrX_known h _ _
  case setA | setQ =>
    subst h
    simp only [State.evolve, State.Displaces, stay, false_imp_iff, implies_true, and_true]
  all_goals
    obtain ⟨o, ho, rfl⟩ := h
    simp only [State.evolve, State.Displaces, stay, false_imp_iff, implies_true, and_true]

theorem known_run {ops : List (Op ℝ)} {s s' : State n ℝ} (hs : s.Psd) (hops : ∀ op ∈ ops, op.SetsNoEstimate)
    (hl : ∀ op ∈ ops, op.NonzeroLambda) (hd : ∀ op ∈ ops, s.PsdData op) (h : s.run ops = some s')
    (H : Matrix (Fin m) (Fin n) ℝ) :
    (H * s'.P = 0 ↔ (∀ ξ v, H *ᵥ s.evolved ops (ξ + s.P *ᵥ v) = H *ᵥ s.evolved ops ξ) ∧ s.Unaffected H ops) ∧
      (H * s'.P = 0 → H *ᵥ s'.x = H *ᵥ s.evolved ops s.x) := by
  induction ops generalizing s with
  | nil =>
    cases h
    simp only [State.evolved, State.Unaffected, and_true, implies_true, Matrix.mulVec_add, add_eq_left, mul_zero_iff,
      forall_const]
  | cons op ops ih =>
    simp only [State.run] at h
    cases h1 : s.step op with
    | none => rw [h1] at h; cases h
    | some t =>
      rw [h1] at h
      have hlo := hl op (by simp)
      obtain ⟨i1, i2⟩ := ih (step_cov_inv psd_closed h1 hs (hd op (by simp)) (psd_regular hs hlo))
        (fun o ho => hops o (by simp [ho])) (fun o ho => hl o (by simp [ho]))
        (fun o ho => covData_congr h1 (hd o (by simp [ho]))) h
      obtain ⟨Φ, c, hΦ⟩ := evolved_affine ops t
      obtain ⟨k1, k2⟩ := known_step hs (hops op (by simp)) hlo h1 (H * Φ)
      have e1 : (∀ ξ v, H *ᵥ t.evolved ops (ξ + t.P *ᵥ v) = H *ᵥ t.evolved ops ξ) ↔ H * Φ * t.P = 0 := by
        simp only [hΦ, Matrix.mulVec_add, add_left_inj, add_eq_left, mul_zero_iff, forall_const, Matrix.mulVec_mulVec,
          Matrix.mul_assoc]
      have e2 : ∀ a b, H *ᵥ t.evolved ops a = H *ᵥ t.evolved ops b ↔ (H * Φ) *ᵥ a = (H * Φ) *ᵥ b := by
        intro a b
        simp only [hΦ, Matrix.mulVec_add, add_left_inj, Matrix.mulVec_mulVec]
      have e3 : ∀ d : Fin n → ℝ, (∀ ξ, H *ᵥ t.evolved ops (ξ + d) = H *ᵥ t.evolved ops ξ) ↔ (H * Φ) *ᵥ d = 0 := by
        intro d
        simp only [e2, Matrix.mulVec_add, add_eq_left, forall_const]
      have u : s.Unaffected H (op :: ops) ↔ t.Unaffected H ops ∧ ∀ d, s.Displaces op d → (H * Φ) *ᵥ d = 0 := by
        simp only [State.Unaffected, h1, Option.some.injEq, forall_eq', e3]
      simp only [State.evolved, h1, u, e2]
      rw [i1, e1, k1]
      refine ⟨by tauto, fun h' => ?_⟩
      have h2 := i2 (i1.2 ⟨e1.2 (k1.2 h'.1), h'.2⟩)
      rw [h2, e2]
      exact k2 (k1.2 h'.1)

end Spec
end Minikalman
