import Verif.Proofs.Filter

/-! # The measurement update in exact real arithmetic -/

namespace Minikalman

open Matrix

variable {n m : Nat} [MDT ℝ] [ExactReal]

omit [MDT ℝ] [ExactReal] in
theorem PosDef.symm_real {S : Matrix (Fin m) (Fin m) ℝ} (h : S.PosDef) : Sᵀ = S := by
  have := h.isHermitian
  rwa [Matrix.IsHermitian, Matrix.conjTranspose_eq_transpose_of_trivial] at this

theorem update_exact (bld : Build) {o : RegularObservation n m ℝ} {x : Mat n 1 ℝ} {P : Mat n n ℝ}
    (hm : 0 < m) (ho : o.Valid) {H R PP X Y} (hH : o.H.Reps H) (hR : o.R.Reps R)
    (hP : P.Reps PP) (hX : x.RepsV X) (hY : o.y.RepsV Y) (hS : (H * PP * Hᵀ + R).PosDef) :
    ∃ o' x' P', o.updateWithInnovation bld x P = .ok (o', x', P') ∧ o.Frame o' ∧ x.SameTail x' ∧ P.SameTail P' ∧
      o'.y = o.y ∧
      (∃ L : Matrix (Fin m) (Fin m) ℝ, o'.S.Reps L ∧ (∀ i j, i < j → L i j = 0) ∧ (∀ i, 0 < L i i) ∧
        L * Lᵀ = H * PP * Hᵀ + R) ∧
      o'.tempSInv.Reps (H * PP * Hᵀ + R)⁻¹ ∧ o'.K.Reps (PP * Hᵀ * (H * PP * Hᵀ + R)⁻¹) ∧
      o'.tempHP.Reps (H * PP) ∧ o'.tempPHt.Reps (PP * Hᵀ) ∧
      o'.tempKHP.Reps (PP * Hᵀ * (H * PP * Hᵀ + R)⁻¹ * (H * PP)) ∧
      x'.RepsV (X + (PP * Hᵀ * (H * PP * Hᵀ + R)⁻¹) *ᵥ Y) ∧
      P'.Reps (PP - PP * Hᵀ * (H * PP * Hᵀ + R)⁻¹ * (H * PP)) := by
  obtain ⟨hp, h1, h2, h3⟩ := Mat.mult_reps hH hP ho.tempHP
  rw [mulSeq_eq_mul] at h2
  obtain ⟨s, h4, h5, h6⟩ := Mat.multTransb_reps h2 hH ho.S
  rw [mulSeq_eq_mul] at h5
  obtain ⟨s2, h7, h8, h9⟩ := Mat.addInplaceA_reps h5 hR
  obtain ⟨pht, h10, h11, h12⟩ := Mat.multTransb_reps hP hH ho.tempPHt
  rw [mulSeq_eq_mul] at h11
  obtain ⟨hq, h13, h14, h15⟩ := Mat.mult_reps hH hP (h3.valid ho.tempHP)
  rw [mulSeq_eq_mul] at h14
  obtain ⟨L, b, c1, c2, c3, c4⟩ := chol_matrix bld hm (PosDef.symm_real hS) h8.upper
  have hb : b = true := by
    by_contra hb
    exact c4 (by simpa using hb) hS
  obtain ⟨LL, l1, l2, l3, l4⟩ := c3 hb
  obtain ⟨si, i1, i2, i3⟩ := invert_matrix hm l2 (fun i => (l3 i).ne') l1.lower ho.tempSInv
  rw [l4] at i2
  obtain ⟨k, k1, k2, k3⟩ := Mat.mult_reps h11 i2 ho.K
  rw [mulSeq_eq_mul] at k2
  obtain ⟨xn, x1, x2, x3⟩ := Mat.multaddRowvector_reps hm k2 hY hX
  rw [mulVecSeq_eq_mulVec] at x2
  obtain ⟨khp, q1, q2, q3⟩ := Mat.mult_reps k2 h14 ho.tempKHP
  rw [mulSeq_eq_mul] at q2
  obtain ⟨pn, p1, p2, p3⟩ := Mat.subInplaceA_reps hP q2
  refine ⟨{ o with S := L, K := k, tempSInv := si, tempHP := hq, tempPHt := pht, tempKHP := khp }, xn, pn, ?_,
    ⟨rfl, rfl, rfl, Mat.SameTail.refl _, (h6.trans h9).trans c2, k3, i3, h3.trans h15, h12, q3⟩, x3, p3, rfl,
    ⟨LL, l1, l2, l3, l4⟩, i2, k2, h14, h11, q2, x2, p2⟩
  unfold RegularObservation.updateWithInnovation
  simp only [h1, h4, h7, c1, i1, h10, k1, x1, h13, q1, p1, res_bind_ok]
  rfl

theorem correct_exact (bld : Build) {o : RegularObservation n m ℝ} {x : Mat n 1 ℝ} {P : Mat n n ℝ}
    (hn : 0 < n) (hm : 0 < m) (ho : o.Valid) {H R PP X Z} (hH : o.H.Reps H) (hR : o.R.Reps R)
    (hP : P.Reps PP) (hX : x.RepsV X) (hZ : o.z.RepsV Z) (hS : (H * PP * Hᵀ + R).PosDef) :
    ∃ o' x' P', o.correct bld x P = .ok (o', x', P') ∧ o.Frame o' ∧ x.SameTail x' ∧ P.SameTail P' ∧
      o'.y.RepsV (Z - H *ᵥ X) ∧
      (∃ L : Matrix (Fin m) (Fin m) ℝ, o'.S.Reps L ∧ (∀ i j, i < j → L i j = 0) ∧ (∀ i, 0 < L i i) ∧
        L * Lᵀ = H * PP * Hᵀ + R) ∧
      o'.tempSInv.Reps (H * PP * Hᵀ + R)⁻¹ ∧ o'.K.Reps (PP * Hᵀ * (H * PP * Hᵀ + R)⁻¹) ∧
      o'.tempHP.Reps (H * PP) ∧ o'.tempPHt.Reps (PP * Hᵀ) ∧
      o'.tempKHP.Reps (PP * Hᵀ * (H * PP * Hᵀ + R)⁻¹ * (H * PP)) ∧
      x'.RepsV (X + (PP * Hᵀ * (H * PP * Hᵀ + R)⁻¹) *ᵥ (Z - H *ᵥ X)) ∧
      P'.Reps (PP - PP * Hᵀ * (H * PP * Hᵀ + R)⁻¹ * (H * PP)) := by
  obtain ⟨y1, y2, h1, h2, h3, h4⟩ := innovation_any hn ho hH hZ hX
  rw [mulVecSeq_eq_mulVec] at h3
  obtain ⟨o', x', P', r1, f, r2, r3, r4, r5⟩ := update_exact bld (o := { o with y := y2 }) hm (obs_with_y_valid ho h4)
    hH hR hP hX h3 hS
  refine ⟨o', x', P', ?_, ⟨f.H, f.z, f.R, ?_, f.S, f.K, f.tempSInv, f.tempHP, f.tempPHt, f.tempKHP⟩, r2, r3, ?_, r5⟩
  · unfold RegularObservation.correct
    simp only [h1, h2, res_bind_ok]
    exact r1
  · rw [r4]; exact h4
  · rw [r4]; exact h3

end Minikalman
