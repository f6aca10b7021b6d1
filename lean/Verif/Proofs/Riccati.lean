import Verif.Spec.Kalman
import Verif.Spec.Examples
import Mathlib.LinearAlgebra.Matrix.PosDef
import Mathlib.Tactic.Abel
import Mathlib.Tactic.NoncommRing

/-! # Matrix algebra of the Kalman equations over the reals -/

namespace Minikalman

open Matrix

variable {n l m m₁ m₂ : Nat}

theorem psd_symm {P : Matrix (Fin n) (Fin n) ℝ} (h : P.PosSemidef) : Pᵀ = P := by
  have := h.isHermitian
  rwa [Matrix.IsHermitian, Matrix.conjTranspose_eq_transpose_of_trivial] at this

theorem pd_symm {P : Matrix (Fin n) (Fin n) ℝ} (h : P.PosDef) : Pᵀ = P := psd_symm h.posSemidef

theorem psd_congr {P : Matrix (Fin n) (Fin n) ℝ} (h : P.PosSemidef) (B : Matrix (Fin m) (Fin n) ℝ) :
    (B * P * Bᵀ).PosSemidef := by
  have := h.mul_mul_conjTranspose_same B
  rwa [Matrix.conjTranspose_eq_transpose_of_trivial] at this

theorem pd_det {P : Matrix (Fin n) (Fin n) ℝ} (h : P.PosDef) : IsUnit P.det :=
  (Matrix.isUnit_iff_isUnit_det _).mp h.isUnit

theorem innovCov_pd {H : Matrix (Fin m) (Fin n) ℝ} {P R} (hP : P.PosSemidef) (hR : R.PosDef) :
    (Spec.innovCov H P R).PosDef := Matrix.PosDef.posSemidef_add (psd_congr hP H) hR

theorem innovCov_symm {H : Matrix (Fin m) (Fin n) ℝ} {P R} (hP : Pᵀ = P) (hR : Rᵀ = R) :
    (Spec.innovCov H P R)ᵀ = Spec.innovCov H P R := by
  simp [Spec.innovCov, Matrix.transpose_mul, hP, hR, Matrix.mul_assoc]

theorem predP_psd {A P Q : Matrix (Fin n) (Fin n) ℝ} (hP : P.PosSemidef) (hQ : Q.PosSemidef) :
    (Spec.predP A P Q).PosSemidef := (psd_congr hP A).add hQ

theorem predPTuned_psd {A P Q : Matrix (Fin n) (Fin n) ℝ} (lambda : ℝ) (hP : P.PosSemidef) (hQ : Q.PosSemidef) :
    (Spec.predPTuned lambda A P Q).PosSemidef :=
  ((psd_congr hP A).smul (by positivity)).add hQ

theorem ctlP_psd {B : Matrix (Fin n) (Fin l) ℝ} {P Q} (hP : P.PosSemidef) (hQ : Q.PosSemidef) :
    (Spec.ctlP B Q P).PosSemidef := hP.add (psd_congr hQ B)

theorem predP_symm {A P Q : Matrix (Fin n) (Fin n) ℝ} (hP : Pᵀ = P) (hQ : Qᵀ = Q) :
    (Spec.predP A P Q)ᵀ = Spec.predP A P Q := by
  simp [Spec.predP, Matrix.transpose_mul, hP, hQ, Matrix.mul_assoc]

theorem predPTuned_symm {A P Q : Matrix (Fin n) (Fin n) ℝ} (lambda : ℝ) (hP : Pᵀ = P) (hQ : Qᵀ = Q) :
    (Spec.predPTuned lambda A P Q)ᵀ = Spec.predPTuned lambda A P Q := by
  simp [Spec.predPTuned, Matrix.transpose_mul, hP, hQ, Matrix.mul_assoc]

theorem ctlP_symm {B : Matrix (Fin n) (Fin l) ℝ} {P Q} (hP : Pᵀ = P) (hQ : Qᵀ = Q) :
    (Spec.ctlP B Q P)ᵀ = Spec.ctlP B Q P := by
  simp [Spec.ctlP, Matrix.transpose_mul, hP, hQ, Matrix.mul_assoc]

section Correct
variable {H : Matrix (Fin m) (Fin n) ℝ} {P : Matrix (Fin n) (Fin n) ℝ} {R : Matrix (Fin m) (Fin m) ℝ}

theorem gain_mul (hS : IsUnit (Spec.innovCov H P R).det) : Spec.gain H P R * Spec.innovCov H P R = P * Hᵀ := by
  rw [Spec.gain, Matrix.mul_assoc, Matrix.nonsing_inv_mul _ hS, Matrix.mul_one]

/-- The gain is the only solution of its equation. -/
theorem gain_unique (hS : IsUnit (Spec.innovCov H P R).det) {G : Matrix (Fin n) (Fin m) ℝ}
    (hG : G * Spec.innovCov H P R = P * Hᵀ) : G = Spec.gain H P R := by
  rw [Spec.gain, ← hG, Matrix.mul_assoc, Matrix.mul_nonsing_inv _ hS, Matrix.mul_one]

theorem mul_gain (hP : Pᵀ = P) (hR : Rᵀ = R) (hS : IsUnit (Spec.innovCov H P R).det) :
    Spec.innovCov H P R * (Spec.gain H P R)ᵀ = H * P := by
  have := congrArg Matrix.transpose (gain_mul hS)
  rwa [Matrix.transpose_mul, Matrix.transpose_mul, innovCov_symm hP hR, hP, Matrix.transpose_transpose] at this

/-- Error covariance for an arbitrary gain, completed square. -/
theorem joseph_general (hP : Pᵀ = P) (hR : Rᵀ = R) (hS : IsUnit (Spec.innovCov H P R).det)
    (G : Matrix (Fin n) (Fin m) ℝ) :
    (1 - G * H) * P * (1 - G * H)ᵀ + G * R * Gᵀ =
      Spec.corrP H P R + (G - Spec.gain H P R) * Spec.innovCov H P R * (G - Spec.gain H P R)ᵀ := by
  have h1 := gain_mul hS
  have h2 := mul_gain hP hR hS
  have e1 : (G - Spec.gain H P R) * Spec.innovCov H P R = G * Spec.innovCov H P R - P * Hᵀ := by
    rw [Matrix.sub_mul, h1]
  have e2 : Spec.innovCov H P R * (G - Spec.gain H P R)ᵀ = Spec.innovCov H P R * Gᵀ - H * P := by
    rw [Matrix.transpose_sub, Matrix.mul_sub, h2]
  have e3 : (G - Spec.gain H P R) * Spec.innovCov H P R * (G - Spec.gain H P R)ᵀ =
      G * Spec.innovCov H P R * Gᵀ - G * (H * P) - P * Hᵀ * Gᵀ + Spec.gain H P R * (H * P) := by
    rw [Matrix.mul_assoc, e2, Matrix.sub_mul, Matrix.mul_sub, Matrix.mul_sub,
      ← Matrix.mul_assoc (Spec.gain H P R), h1, ← Matrix.mul_assoc G (Spec.innovCov H P R)]
    abel
  rw [e3, Spec.corrP, Spec.innovCov]
  simp only [Matrix.transpose_sub, Matrix.transpose_mul, Matrix.transpose_one, Matrix.mul_sub, Matrix.sub_mul,
    Matrix.mul_add, Matrix.add_mul, Matrix.mul_one, Matrix.one_mul, Matrix.mul_assoc]
  abel

theorem joseph (hP : Pᵀ = P) (hR : Rᵀ = R) (hS : IsUnit (Spec.innovCov H P R).det) :
    Spec.corrP H P R = (1 - Spec.gain H P R * H) * P * (1 - Spec.gain H P R * H)ᵀ
      + Spec.gain H P R * R * (Spec.gain H P R)ᵀ := by
  rw [joseph_general hP hR hS]; simp

theorem corrP_drop (hP : Pᵀ = P) (hR : Rᵀ = R) (hS : IsUnit (Spec.innovCov H P R).det) :
    P - Spec.corrP H P R = Spec.gain H P R * Spec.innovCov H P R * (Spec.gain H P R)ᵀ := by
  rw [Matrix.mul_assoc, mul_gain hP hR hS, Spec.corrP, sub_sub_cancel, Matrix.mul_assoc]

theorem corrP_symm (hP : Pᵀ = P) (hR : Rᵀ = R) (hS : IsUnit (Spec.innovCov H P R).det) :
    (Spec.corrP H P R)ᵀ = Spec.corrP H P R := by
  rw [joseph hP hR hS]
  simp [Matrix.transpose_mul, hP, hR, Matrix.mul_assoc]

theorem corrP_psd (hP : P.PosSemidef) (hR : R.PosSemidef) (hS : IsUnit (Spec.innovCov H P R).det) :
    (Spec.corrP H P R).PosSemidef := by
  rw [joseph (psd_symm hP) (psd_symm hR) hS]
  exact (psd_congr hP _).add (psd_congr hR _)

theorem corrP_le (hP : Pᵀ = P) (hR : Rᵀ = R) (hS : (Spec.innovCov H P R).PosDef) :
    (P - Spec.corrP H P R).PosSemidef := by
  rw [corrP_drop hP hR (pd_det hS)]
  exact psd_congr hS.posSemidef _

theorem corrP_mul_trans (hS : IsUnit (Spec.innovCov H P R).det) :
    Spec.corrP H P R * Hᵀ = Spec.gain H P R * R := by
  have h := gain_mul hS
  have : Spec.gain H P R * R = P * Hᵀ - Spec.gain H P R * H * P * Hᵀ := by
    rw [← h]
    conv_rhs => rw [Spec.innovCov]
    simp only [Matrix.mul_add, Matrix.mul_assoc]; abel
  rw [this, Spec.corrP, Matrix.sub_mul]

theorem predicted_measurement_cov (hR : Rᵀ = R) (hS : IsUnit (Spec.innovCov H P R).det) :
    R - H * Spec.corrP H P R * Hᵀ = R * (Spec.innovCov H P R)⁻¹ * Rᵀ := by
  rw [Matrix.mul_assoc, corrP_mul_trans hS, Spec.gain, ← Matrix.mul_assoc, ← Matrix.mul_assoc, ← Matrix.mul_assoc, hR]
  have : H * P * Hᵀ = Spec.innovCov H P R - R := by rw [Spec.innovCov]; abel
  rw [this, Matrix.sub_mul, Matrix.mul_nonsing_inv _ hS, Matrix.sub_mul, Matrix.one_mul]
  abel

theorem measurement_cov_le (hR : Rᵀ = R) (hS : (Spec.innovCov H P R).PosDef) :
    (R - H * Spec.corrP H P R * Hᵀ).PosSemidef := by
  rw [predicted_measurement_cov hR (pd_det hS)]
  exact psd_congr hS.inv.posSemidef R

theorem optimal (hP : Pᵀ = P) (hR : Rᵀ = R) (hS : (Spec.innovCov H P R).PosDef) (G : Matrix (Fin n) (Fin m) ℝ) :
    ((1 - G * H) * P * (1 - G * H)ᵀ + G * R * Gᵀ - Spec.corrP H P R).PosSemidef := by
  rw [joseph_general hP hR (pd_det hS), add_sub_cancel_left]
  exact psd_congr hS.posSemidef _

theorem optimal_eq (hP : Pᵀ = P) (hR : Rᵀ = R) (hS : (Spec.innovCov H P R).PosDef) (G : Matrix (Fin n) (Fin m) ℝ) :
    (1 - G * H) * P * (1 - G * H)ᵀ + G * R * Gᵀ = Spec.corrP H P R ↔ G = Spec.gain H P R := by
  rw [joseph_general hP hR (pd_det hS)]
  refine ⟨fun h => ?_, fun h => by simp [h]⟩
  have h0 : (G - Spec.gain H P R) * Spec.innovCov H P R * (G - Spec.gain H P R)ᵀ = 0 := by simpa using h
  rw [← sub_eq_zero]
  set D := G - Spec.gain H P R
  ext i j
  by_contra hne
  have hv : (fun k => D i k) ≠ 0 := fun hz => hne (by simpa using congrFun hz j)
  have hpos := hS.dotProduct_mulVec_pos hv
  have hz : (D * Spec.innovCov H P R * Dᵀ) i i = 0 := by rw [h0]; rfl
  rw [Matrix.mul_assoc, Matrix.mul_apply] at hz
  simp only [star_trivial] at hpos
  have : (fun k => D i k) ⬝ᵥ (Spec.innovCov H P R *ᵥ fun k => D i k) = 0 := by
    rw [← hz]
    simp only [dotProduct, Matrix.mul_apply, Matrix.mulVec, Matrix.transpose_apply]
  linarith

theorem information_mul (hP : P.PosDef) (hR : R.PosDef) :
    Spec.corrP H P R * (P⁻¹ + Hᵀ * R⁻¹ * H) = 1 := by
  have hS := pd_det (innovCov_pd (H := H) hP.posSemidef hR)
  rw [Matrix.mul_add, ← Matrix.mul_assoc, ← Matrix.mul_assoc, corrP_mul_trans hS, Matrix.mul_assoc (Spec.gain H P R),
    Matrix.mul_nonsing_inv _ (pd_det hR), Matrix.mul_one, Spec.corrP, Matrix.sub_mul,
    Matrix.mul_nonsing_inv _ (pd_det hP), Matrix.mul_assoc _ P, Matrix.mul_nonsing_inv _ (pd_det hP), Matrix.mul_one]
  abel

theorem information (hP : P.PosDef) (hR : R.PosDef) : (Spec.corrP H P R)⁻¹ = P⁻¹ + Hᵀ * R⁻¹ * H :=
  Matrix.inv_eq_right_inv (information_mul hP hR)

theorem corrP_pd (hP : P.PosDef) (hR : R.PosDef) : (Spec.corrP H P R).PosDef := by
  have h1 : (P⁻¹ + Hᵀ * R⁻¹ * H).PosDef := by
    have := psd_congr hR.inv.posSemidef Hᵀ
    rw [Matrix.transpose_transpose] at this
    exact hP.inv.add_posSemidef this
  rw [← information hP hR, Matrix.posDef_inv_iff] at h1
  exact h1

theorem gain_information (hP : P.PosDef) (hR : R.PosDef) : Spec.gain H P R = Spec.corrP H P R * Hᵀ * R⁻¹ := by
  rw [corrP_mul_trans (pd_det (innovCov_pd hP.posSemidef hR)), Matrix.mul_assoc,
    Matrix.mul_nonsing_inv _ (pd_det hR), Matrix.mul_one]

end Correct

/-! ## Monotonicity -/

theorem psd_sub_trans {A B C : Matrix (Fin n) (Fin n) ℝ} (h1 : (B - A).PosSemidef) (h2 : (C - B).PosSemidef) :
    (C - A).PosSemidef := by
  have := h1.add h2
  rwa [show B - A + (C - B) = C - A by abel] at this

theorem predP_mono {A P P' Q Q' : Matrix (Fin n) (Fin n) ℝ} (h : (P' - P).PosSemidef) (hQ : (Q' - Q).PosSemidef) :
    (Spec.predP A P' Q' - Spec.predP A P Q).PosSemidef := by
  have : Spec.predP A P' Q' - Spec.predP A P Q = A * (P' - P) * Aᵀ + (Q' - Q) := by
    simp only [Spec.predP, Matrix.mul_sub, Matrix.sub_mul]; abel
  rw [this]
  exact (psd_congr h A).add hQ

theorem predPTuned_mono {A P P' Q Q' : Matrix (Fin n) (Fin n) ℝ} (lambda : ℝ) (h : (P' - P).PosSemidef)
    (hQ : (Q' - Q).PosSemidef) :
    (Spec.predPTuned lambda A P' Q' - Spec.predPTuned lambda A P Q).PosSemidef := by
  have : Spec.predPTuned lambda A P' Q' - Spec.predPTuned lambda A P Q
      = (lambda ^ 2)⁻¹ • (A * (P' - P) * Aᵀ) + (Q' - Q) := by
    simp only [Spec.predPTuned, Matrix.mul_sub, Matrix.sub_mul, smul_sub]; abel
  rw [this]
  exact ((psd_congr h A).smul (by positivity)).add hQ

theorem ctlP_mono {B : Matrix (Fin n) (Fin l) ℝ} {P P' Q Q'} (h : (P' - P).PosSemidef) (hQ : (Q' - Q).PosSemidef) :
    (Spec.ctlP B Q' P' - Spec.ctlP B Q P).PosSemidef := by
  have : Spec.ctlP B Q' P' - Spec.ctlP B Q P = (P' - P) + B * (Q' - Q) * Bᵀ := by
    simp only [Spec.ctlP, Matrix.mul_sub, Matrix.sub_mul]; abel
  rw [this]
  exact h.add (psd_congr hQ B)

theorem corrP_mono {H : Matrix (Fin m) (Fin n) ℝ} {P P' R R'} (hP : Pᵀ = P) (hP' : P'ᵀ = P') (hR : Rᵀ = R)
    (hR' : R'ᵀ = R') (hS : (Spec.innovCov H P R).PosDef) (hS' : (Spec.innovCov H P' R').PosDef)
    (h : (P' - P).PosSemidef) (hRR : (R' - R).PosSemidef) :
    (Spec.corrP H P' R' - Spec.corrP H P R).PosSemidef := by
  refine psd_sub_trans (optimal hP hR hS (Spec.gain H P' R')) ?_
  rw [joseph hP' hR' (pd_det hS')]
  set G := Spec.gain H P' R'
  have : (1 - G * H) * P' * (1 - G * H)ᵀ + G * R' * Gᵀ - ((1 - G * H) * P * (1 - G * H)ᵀ + G * R * Gᵀ)
      = (1 - G * H) * (P' - P) * (1 - G * H)ᵀ + G * (R' - R) * Gᵀ := by
    generalize 1 - G * H = F
    rw [Matrix.mul_sub, Matrix.sub_mul, Matrix.mul_sub, Matrix.sub_mul]; abel
  rw [this]
  exact (psd_congr h _).add (psd_congr hRR _)

/-! ## Tuning -/

theorem predPTuned_antitone {A P Q : Matrix (Fin n) (Fin n) ℝ} (hP : P.PosSemidef) {a b : ℝ} (ha : 0 < |a|)
    (hab : |a| ≤ |b|) : (Spec.predPTuned a A P Q - Spec.predPTuned b A P Q).PosSemidef := by
  have : Spec.predPTuned a A P Q - Spec.predPTuned b A P Q = ((a ^ 2)⁻¹ - (b ^ 2)⁻¹) • (A * P * Aᵀ) := by
    simp only [Spec.predPTuned, sub_smul]; abel
  rw [this]
  refine (psd_congr hP A).smul ?_
  rw [← sq_abs a, ← sq_abs b, sub_nonneg]
  exact inv_anti₀ (by positivity) (pow_le_pow_left₀ ha.le hab 2)

/-! ## Two measurements -/

theorem seq_gain {H₁ : Matrix (Fin m₁) (Fin n) ℝ} {H₂ : Matrix (Fin m₂) (Fin n) ℝ} {P R₁ R₂}
    (hS : IsUnit (Spec.innovCov (Spec.stack H₁ H₂) P (Spec.blockDiag R₁ R₂)).det) (hS₁ : IsUnit (Spec.innovCov H₁ P R₁).det)
    (hS₂ : IsUnit (Spec.innovCov H₂ (Spec.corrP H₁ P R₁) R₂).det) :
    Spec.gain (Spec.stack H₁ H₂) P (Spec.blockDiag R₁ R₂) = Matrix.of fun i => Fin.append
      ((Spec.gain H₁ P R₁ - Spec.gain H₂ (Spec.corrP H₁ P R₁) R₂ * H₂ * Spec.gain H₁ P R₁) i)
      (Spec.gain H₂ (Spec.corrP H₁ P R₁) R₂ i) := by
  symm
  apply gain_unique hS
  have k1 := gain_mul hS₁
  have k2 := gain_mul hS₂
  set K₁ := Spec.gain H₁ P R₁
  set K₂ := Spec.gain H₂ (Spec.corrP H₁ P R₁) R₂
  -- the blocks of S
  have b11 : ∀ i j, Spec.innovCov (Spec.stack H₁ H₂) P (Spec.blockDiag R₁ R₂) (Fin.castAdd m₂ i) (Fin.castAdd m₂ j) = Spec.innovCov H₁ P R₁ i j := by
    intro i j; simp [Spec.innovCov, Matrix.mul_apply, Spec.stack, Spec.blockDiag]
  have b12 : ∀ i j, Spec.innovCov (Spec.stack H₁ H₂) P (Spec.blockDiag R₁ R₂) (Fin.castAdd m₂ i) (Fin.natAdd m₁ j) = (H₁ * P * H₂ᵀ) i j := by
    intro i j; simp [Spec.innovCov, Matrix.mul_apply, Spec.stack, Spec.blockDiag]
  have b21 : ∀ i j, Spec.innovCov (Spec.stack H₁ H₂) P (Spec.blockDiag R₁ R₂) (Fin.natAdd m₁ i) (Fin.castAdd m₂ j) = (H₂ * P * H₁ᵀ) i j := by
    intro i j; simp [Spec.innovCov, Matrix.mul_apply, Spec.stack, Spec.blockDiag]
  have b22 : ∀ i j, Spec.innovCov (Spec.stack H₁ H₂) P (Spec.blockDiag R₁ R₂) (Fin.natAdd m₁ i) (Fin.natAdd m₁ j) = Spec.innovCov H₂ P R₂ i j := by
    intro i j; simp [Spec.innovCov, Matrix.mul_apply, Spec.stack, Spec.blockDiag]
  have c1 : (K₁ - K₂ * H₂ * K₁) * Spec.innovCov H₁ P R₁ + K₂ * (H₂ * P * H₁ᵀ) = P * H₁ᵀ := by
    rw [Matrix.sub_mul, k1, Matrix.mul_assoc (K₂ * H₂), k1]
    simp only [Matrix.mul_assoc]; abel
  have c2 : (K₁ - K₂ * H₂ * K₁) * (H₁ * P * H₂ᵀ) + K₂ * Spec.innovCov H₂ P R₂ = P * H₂ᵀ := by
    have : Spec.innovCov H₂ P R₂ = Spec.innovCov H₂ (Spec.corrP H₁ P R₁) R₂ + H₂ * K₁ * (H₁ * P * H₂ᵀ) := by
      simp only [Spec.innovCov, Spec.corrP, Matrix.mul_sub, Matrix.sub_mul, Matrix.mul_assoc]
      abel
    rw [this, Matrix.mul_add, k2, Spec.corrP]
    simp only [Matrix.sub_mul, Matrix.mul_assoc]
    abel
  ext i j
  rw [Matrix.mul_apply, Fin.sum_univ_add]
  refine Fin.addCases (fun j => ?_) (fun j => ?_) j
  · simp only [Matrix.of_apply, Fin.append_left, Fin.append_right, b11, b21]
    have := congrFun (congrFun c1 i) j
    rw [Matrix.add_apply, Matrix.mul_apply, Matrix.mul_apply] at this
    rw [this]
    simp [Matrix.mul_apply, Spec.stack]
  · simp only [Matrix.of_apply, Fin.append_left, Fin.append_right, b12, b22]
    have := congrFun (congrFun c2 i) j
    rw [Matrix.add_apply, Matrix.mul_apply, Matrix.mul_apply] at this
    rw [this]
    simp [Matrix.mul_apply, Spec.stack]

theorem blockDiag_pd {R₁ : Matrix (Fin m₁) (Fin m₁) ℝ} {R₂ : Matrix (Fin m₂) (Fin m₂) ℝ} (h₁ : R₁.PosDef)
    (h₂ : R₂.PosDef) : (Spec.blockDiag R₁ R₂).PosDef := by
  refine Matrix.PosDef.of_dotProduct_mulVec_pos ?_ ?_
  · rw [Matrix.IsHermitian, Matrix.conjTranspose_eq_transpose_of_trivial]
    have e1 := pd_symm h₁
    have e2 := pd_symm h₂
    ext i j
    refine Fin.addCases (fun i => ?_) (fun i => ?_) i <;> refine Fin.addCases (fun j => ?_) (fun j => ?_) j <;>
      simp [Spec.blockDiag]
    · exact congrFun (congrFun e1 i) j
    · exact congrFun (congrFun e2 i) j
  · intro x hx
    have key : star x ⬝ᵥ (Spec.blockDiag R₁ R₂ *ᵥ x) =
        star (fun i => x (Fin.castAdd m₂ i)) ⬝ᵥ (R₁ *ᵥ fun i => x (Fin.castAdd m₂ i)) +
        star (fun i => x (Fin.natAdd m₁ i)) ⬝ᵥ (R₂ *ᵥ fun i => x (Fin.natAdd m₁ i)) := by
      simp [dotProduct, Matrix.mulVec, Fin.sum_univ_add, Spec.blockDiag]
    rw [key]
    by_cases hx1 : (fun i => x (Fin.castAdd m₂ i)) = 0
    · have hx2 : (fun i => x (Fin.natAdd m₁ i)) ≠ 0 := by
        intro hx2
        apply hx
        ext i
        refine Fin.addCases (fun i => ?_) (fun i => ?_) i
        · exact congrFun hx1 i
        · exact congrFun hx2 i
      have a := h₁.posSemidef.dotProduct_mulVec_nonneg (fun i => x (Fin.castAdd m₂ i))
      have b := h₂.dotProduct_mulVec_pos hx2
      linarith
    · have a := h₁.dotProduct_mulVec_pos hx1
      have b := h₂.posSemidef.dotProduct_mulVec_nonneg (fun i => x (Fin.natAdd m₁ i))
      linarith

section Seq
variable {H₁ : Matrix (Fin m₁) (Fin n) ℝ} {H₂ : Matrix (Fin m₂) (Fin n) ℝ} {P : Matrix (Fin n) (Fin n) ℝ}
  {R₁ : Matrix (Fin m₁) (Fin m₁) ℝ} {R₂ : Matrix (Fin m₂) (Fin m₂) ℝ}

theorem append_mul (K₁ : Matrix (Fin n) (Fin m₁) ℝ) (K₂ : Matrix (Fin n) (Fin m₂) ℝ) :
    (Matrix.of fun i => Fin.append (K₁ i) (K₂ i)) * Spec.stack H₁ H₂ = K₁ * H₁ + K₂ * H₂ := by
  ext i j
  simp [Matrix.mul_apply, Fin.sum_univ_add, Spec.stack]

theorem append_mulVec (K₁ : Matrix (Fin n) (Fin m₁) ℝ) (K₂ : Matrix (Fin n) (Fin m₂) ℝ) (x : Fin n → ℝ)
    (z₁ : Fin m₁ → ℝ) (z₂ : Fin m₂ → ℝ) :
    (Matrix.of fun i => Fin.append (K₁ i) (K₂ i)) *ᵥ (Fin.append z₁ z₂ - Spec.stack H₁ H₂ *ᵥ x) =
      K₁ *ᵥ (z₁ - H₁ *ᵥ x) + K₂ *ᵥ (z₂ - H₂ *ᵥ x) := by
  ext i
  simp [Matrix.mulVec, dotProduct, Fin.sum_univ_add, Spec.stack]

theorem batch_corrP (hS : IsUnit (Spec.innovCov (Spec.stack H₁ H₂) P (Spec.blockDiag R₁ R₂)).det)
    (hS₁ : IsUnit (Spec.innovCov H₁ P R₁).det) (hS₂ : IsUnit (Spec.innovCov H₂ (Spec.corrP H₁ P R₁) R₂).det) :
    Spec.corrP (Spec.stack H₁ H₂) P (Spec.blockDiag R₁ R₂) = Spec.corrP H₂ (Spec.corrP H₁ P R₁) R₂ := by
  rw [Spec.corrP, seq_gain hS hS₁ hS₂, append_mul]
  generalize hK : Spec.gain H₂ (Spec.corrP H₁ P R₁) R₂ = K₂
  rw [Spec.corrP, hK, Spec.corrP]
  generalize Spec.gain H₁ P R₁ = K₁
  simp only [Matrix.sub_mul, Matrix.mul_sub, Matrix.add_mul, Matrix.mul_assoc]
  abel

theorem batch_corrX (hS : IsUnit (Spec.innovCov (Spec.stack H₁ H₂) P (Spec.blockDiag R₁ R₂)).det)
    (hS₁ : IsUnit (Spec.innovCov H₁ P R₁).det) (hS₂ : IsUnit (Spec.innovCov H₂ (Spec.corrP H₁ P R₁) R₂).det)
    (x : Fin n → ℝ) (z₁ : Fin m₁ → ℝ) (z₂ : Fin m₂ → ℝ) :
    Spec.corrX (Spec.stack H₁ H₂) P (Spec.blockDiag R₁ R₂) x (Fin.append z₁ z₂) =
      Spec.corrX H₂ (Spec.corrP H₁ P R₁) R₂ (Spec.corrX H₁ P R₁ x z₁) z₂ := by
  rw [Spec.corrX, seq_gain hS hS₁ hS₂, append_mulVec]
  generalize hK : Spec.gain H₂ (Spec.corrP H₁ P R₁) R₂ = K₂
  rw [Spec.corrX, hK, Spec.corrX]
  generalize Spec.gain H₁ P R₁ = K₁
  simp only [Matrix.sub_mulVec, Matrix.mulVec_sub, Matrix.mulVec_add, ← Matrix.mulVec_mulVec]
  abel

end Seq

/-! ## Permuted measurements -/

theorem perm_gain {m' : Nat} (e : Fin m' ≃ Fin m) (H : Matrix (Fin m) (Fin n) ℝ) (P : Matrix (Fin n) (Fin n) ℝ)
    (R : Matrix (Fin m) (Fin m) ℝ) :
    Spec.gain (H.submatrix e id) P (R.submatrix e e) = (Spec.gain H P R).submatrix id e := by
  have h : Spec.innovCov (H.submatrix e id) P (R.submatrix e e) = (Spec.innovCov H P R).submatrix e e := by
    ext i j; simp [Spec.innovCov, Matrix.mul_apply]
  rw [Spec.gain, Spec.gain, h, Matrix.inv_submatrix_equiv]
  ext i j
  simp only [Matrix.mul_apply, Matrix.submatrix_apply, Matrix.transpose_apply, id]
  exact e.sum_comp (fun k => (∑ k', P i k' * H k k') * (Spec.innovCov H P R)⁻¹ k (e j))

theorem perm_corrP {m' : Nat} (e : Fin m' ≃ Fin m) (H : Matrix (Fin m) (Fin n) ℝ) (P : Matrix (Fin n) (Fin n) ℝ)
    (R : Matrix (Fin m) (Fin m) ℝ) :
    Spec.corrP (H.submatrix e id) P (R.submatrix e e) = Spec.corrP H P R := by
  rw [Spec.corrP, perm_gain, Spec.corrP]
  congr 2
  ext i j
  simp only [Matrix.mul_apply, Matrix.submatrix_apply, id]
  exact e.sum_comp (fun k => Spec.gain H P R i k * H k j)

theorem perm_corrX {m' : Nat} (e : Fin m' ≃ Fin m) (H : Matrix (Fin m) (Fin n) ℝ) (P : Matrix (Fin n) (Fin n) ℝ)
    (R : Matrix (Fin m) (Fin m) ℝ) (x : Fin n → ℝ) (z : Fin m → ℝ) :
    Spec.corrX (H.submatrix e id) P (R.submatrix e e) x (z ∘ e) = Spec.corrX H P R x z := by
  rw [Spec.corrX, perm_gain, Spec.corrX]
  congr 1
  ext i
  simp only [Matrix.mulVec, dotProduct, Matrix.submatrix_apply, id, Pi.sub_apply, Function.comp]
  exact e.sum_comp (fun k => Spec.gain H P R i k * (z k - ∑ j, H k j * x j))

end Minikalman
