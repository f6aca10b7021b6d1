import Verif.Spec.LeastSquares
import Verif.Proofs.History
import Mathlib.Analysis.InnerProductSpace.Symmetric
import Mathlib.Analysis.InnerProductSpace.Projection.Submodule
import Mathlib.Analysis.InnerProductSpace.PiL2
import Mathlib.Analysis.Matrix.Order

/-! # Least squares: helper lemmas -/

set_option linter.unusedSectionVars false

namespace Minikalman
namespace Spec

open Matrix

variable {n m k : Nat}

theorem pow_pos_of_ne {a : ℝ} (h : a ≠ 0) : 0 < a ^ 2 := by positivity

theorem dot_symm {P : Matrix (Fin k) (Fin k) ℝ} (h : P.IsSymm) (a b : Fin k → ℝ) : a ⬝ᵥ P *ᵥ b = b ⬝ᵥ P *ᵥ a := by
  rw [Matrix.dotProduct_mulVec, ← Matrix.mulVec_transpose, h.eq, dotProduct_comm]

theorem dot_mulVec_left (a : Fin n → ℝ) (H : Matrix (Fin m) (Fin n) ℝ) (b : Fin m → ℝ) :
    (Hᵀ *ᵥ b) ⬝ᵥ a = b ⬝ᵥ H *ᵥ a := by
  rw [Matrix.dotProduct_mulVec, ← Matrix.mulVec_transpose]

theorem psd_symm {P : Matrix (Fin k) (Fin k) ℝ} (h : P.PosSemidef) : P.IsSymm := by
  have := h.isHermitian
  rwa [Matrix.IsHermitian, Matrix.conjTranspose_eq_transpose_of_trivial] at this

theorem psd_quad {P : Matrix (Fin k) (Fin k) ℝ} (h : P.PosSemidef) (a : Fin k → ℝ) : 0 ≤ a ⬝ᵥ P *ᵥ a := by
  have := h.dotProduct_mulVec_nonneg a
  simpa using this

theorem quad_add {P : Matrix (Fin k) (Fin k) ℝ} (h : P.IsSymm) (a b : Fin k → ℝ) :
    (a + b) ⬝ᵥ P *ᵥ (a + b) = a ⬝ᵥ P *ᵥ a + 2 * (b ⬝ᵥ P *ᵥ a) + b ⬝ᵥ P *ᵥ b := by
  rw [Matrix.mulVec_add, add_dotProduct, dotProduct_add, dotProduct_add, dot_symm h a b]
  ring

theorem quad_sub {P : Matrix (Fin k) (Fin k) ℝ} (h : P.IsSymm) (a b : Fin k → ℝ) :
    (a - b) ⬝ᵥ P *ᵥ (a - b) = a ⬝ᵥ P *ᵥ a - 2 * (b ⬝ᵥ P *ᵥ a) + b ⬝ᵥ P *ᵥ b := by
  rw [Matrix.mulVec_sub, sub_dotProduct, dotProduct_sub, dotProduct_sub, dot_symm h a b]
  ring

/-- A deviation costs at least what any linear functional says. -/
theorem Price.lower {Q : Matrix (Fin k) (Fin k) ℝ} (hQ : Q.PosSemidef) {w : Fin k → ℝ} {c : ℝ} (h : Price Q w c)
    (η : Fin k → ℝ) : 2 * (η ⬝ᵥ w) - η ⬝ᵥ Q *ᵥ η ≤ c := by
  obtain ⟨η0, rfl, rfl⟩ := h
  have := psd_quad hQ (η0 - η)
  rw [quad_sub (psd_symm hQ)] at this
  linarith

theorem Price.mk' (Q : Matrix (Fin k) (Fin k) ℝ) (η : Fin k → ℝ) : Price Q (Q *ᵥ η) (η ⬝ᵥ Q *ᵥ η) := ⟨η, rfl, rfl⟩

/-- The cheapest scenarios ending in each true state, given by estimate, covariance and minimal cost. -/
structure Fits (x : Fin n → ℝ) (P : Matrix (Fin n) (Fin n) ℝ) (c : ℝ) (Reach : (Fin n → ℝ) → ℝ → Prop) : Prop where
  lower : ∀ v J, Reach v J → ∀ η : Fin n → ℝ, c + 2 * (η ⬝ᵥ (v - x)) - η ⬝ᵥ P *ᵥ η ≤ J
  attain : ∀ η : Fin n → ℝ, Reach (x + P *ᵥ η) (c + η ⬝ᵥ P *ᵥ η)

theorem fits_init {x : Fin n → ℝ} {P : Matrix (Fin n) (Fin n) ℝ} (hP : P.PosSemidef) :
    Fits x P 0 (fun v J => Price P (v - x) J) := by
  refine ⟨fun v J h η => ?_, fun η => ?_⟩
  · have := h.lower hP η
    linarith
  · rw [add_sub_cancel_left, zero_add]
    exact .mk' P η

theorem fits_predict {x : Fin n → ℝ} {A P Q : Matrix (Fin n) (Fin n) ℝ} {c : ℝ} {Reach : (Fin n → ℝ) → ℝ → Prop}
    (h : Fits x P c Reach) (hQ : Q.PosSemidef) {r : ℝ} (hr : 0 < r) :
    Fits (A *ᵥ x) (r⁻¹ • (A * P * Aᵀ) + Q) (r * c) (fun v' J' => ∃ v J, Reach v J ∧
      ∃ w c, Price Q w c ∧ v' = A *ᵥ v + w ∧ J' = r * J + c) := by
  have quad : ∀ η : Fin n → ℝ, η ⬝ᵥ (r⁻¹ • (A * P * Aᵀ) + Q) *ᵥ η
      = r * ((r⁻¹ • (Aᵀ *ᵥ η)) ⬝ᵥ P *ᵥ (r⁻¹ • (Aᵀ *ᵥ η))) + η ⬝ᵥ Q *ᵥ η := by
    intro η
    have e : (Aᵀ *ᵥ η) ⬝ᵥ P *ᵥ (Aᵀ *ᵥ η) = η ⬝ᵥ (A * P * Aᵀ) *ᵥ η := by
      rw [dot_mulVec_left, Matrix.mulVec_mulVec, Matrix.mulVec_mulVec, Matrix.mul_assoc]
    rw [Matrix.mulVec_smul, smul_dotProduct, dotProduct_smul, e, Matrix.add_mulVec, dotProduct_add,
      Matrix.smul_mulVec, dotProduct_smul]
    simp only [smul_eq_mul]
    field_simp
  refine ⟨?_, ?_⟩
  · rintro _ _ ⟨v, J, hv, w, d, hw, rfl, rfl⟩ η
    have h1 := h.lower v J hv (r⁻¹ • (Aᵀ *ᵥ η))
    have h2 := hw.lower hQ η
    rw [quad η]
    have e1 : (r⁻¹ • (Aᵀ *ᵥ η)) ⬝ᵥ (v - x) = r⁻¹ * (η ⬝ᵥ (A *ᵥ v - A *ᵥ x)) := by
      rw [smul_dotProduct, dot_mulVec_left, Matrix.mulVec_sub]; rfl
    have e2 : η ⬝ᵥ (A *ᵥ v + w - A *ᵥ x) = η ⬝ᵥ (A *ᵥ v - A *ᵥ x) + η ⬝ᵥ w := by
      rw [← dotProduct_add]; congr 1; abel
    rw [e1] at h1
    rw [e2]
    have h3 := mul_le_mul_of_nonneg_left h1 hr.le
    have h4 : r * (c + 2 * (r⁻¹ * (η ⬝ᵥ (A *ᵥ v - A *ᵥ x))) - (r⁻¹ • (Aᵀ *ᵥ η)) ⬝ᵥ P *ᵥ (r⁻¹ • (Aᵀ *ᵥ η)))
        = r * c + 2 * (η ⬝ᵥ (A *ᵥ v - A *ᵥ x)) - r * ((r⁻¹ • (Aᵀ *ᵥ η)) ⬝ᵥ P *ᵥ (r⁻¹ • (Aᵀ *ᵥ η))) := by
      field_simp
    rw [h4] at h3
    linarith
  · intro η
    refine ⟨_, _, h.attain (r⁻¹ • (Aᵀ *ᵥ η)), Q *ᵥ η, _, .mk' Q η, ?_, ?_⟩
    · rw [Matrix.mulVec_add, Matrix.add_mulVec, Matrix.mulVec_smul, Matrix.mulVec_smul, Matrix.smul_mulVec,
        Matrix.mulVec_mulVec, Matrix.mulVec_mulVec, Matrix.mul_assoc, add_assoc]
    · rw [quad η]
      ring

theorem fits_control {l : Nat} {x : Fin n → ℝ} {P : Matrix (Fin n) (Fin n) ℝ} {B : Matrix (Fin n) (Fin l) ℝ}
    {u : Fin l → ℝ} {Q : Matrix (Fin l) (Fin l) ℝ} {c : ℝ} {Reach : (Fin n → ℝ) → ℝ → Prop}
    (h : Fits x P c Reach) (hQ : Q.PosSemidef) :
    Fits (ctlX B u x) (ctlP B Q P) c (fun v' J' => ∃ v J, Reach v J ∧
      ∃ w c, Price Q w c ∧ v' = v + B *ᵥ (u + w) ∧ J' = J + c) := by
  have quad : ∀ η : Fin n → ℝ, η ⬝ᵥ (ctlP B Q P) *ᵥ η = η ⬝ᵥ P *ᵥ η + (Bᵀ *ᵥ η) ⬝ᵥ Q *ᵥ (Bᵀ *ᵥ η) := by
    intro η
    rw [dot_mulVec_left, Matrix.mulVec_mulVec, Matrix.mulVec_mulVec, ctlP, Matrix.add_mulVec, dotProduct_add,
      Matrix.mul_assoc]
  refine ⟨?_, ?_⟩
  · rintro _ _ ⟨v, J, hv, w, d, hw, rfl, rfl⟩ η
    have h1 := h.lower v J hv η
    have h2 := hw.lower hQ (Bᵀ *ᵥ η)
    rw [quad η]
    have e : η ⬝ᵥ (v + B *ᵥ (u + w) - ctlX B u x) = η ⬝ᵥ (v - x) + (Bᵀ *ᵥ η) ⬝ᵥ w := by
      rw [dot_mulVec_left, ← dotProduct_add, ctlX, Matrix.mulVec_add]
      congr 1
      abel
    rw [e]
    linarith
  · intro η
    refine ⟨_, _, h.attain η, Q *ᵥ (Bᵀ *ᵥ η), _, .mk' Q _, ?_, ?_⟩
    · rw [ctlX, ctlP, Matrix.mulVec_add, Matrix.add_mulVec, Matrix.mulVec_mulVec, Matrix.mulVec_mulVec, Matrix.mul_assoc]
      abel
    · rw [quad η]
      ring

theorem fits_correct {x : Fin n → ℝ} {P : Matrix (Fin n) (Fin n) ℝ} {H : Matrix (Fin m) (Fin n) ℝ} {z : Fin m → ℝ}
    {R : Matrix (Fin m) (Fin m) ℝ} {c : ℝ} {Reach : (Fin n → ℝ) → ℝ → Prop} (h : Fits x P c Reach)
    (hP : P.IsSymm) (hR : R.PosSemidef) (hS : (H * P * Hᵀ + R).PosDef) :
    Fits (corrX H P R x z) (corrP H P R) (c + (z - H *ᵥ x) ⬝ᵥ (innovCov H P R)⁻¹ *ᵥ (z - H *ᵥ x))
      (fun v' J' => ∃ v J, Reach v J ∧ ∃ c, Price R (z - H *ᵥ v) c ∧ v' = v ∧ J' = J + c) := by
  set S := innovCov H P R with hSdef
  have hS' : S.PosDef := hS
  have hSsym : S.IsSymm := psd_symm hS'.posSemidef
  have hSi : S⁻¹.IsSymm := by
    unfold Matrix.IsSymm
    rw [Matrix.transpose_nonsing_inv, hSsym.eq]
  have hdet : IsUnit S.det := hS'.isUnit.map Matrix.detMonoidHom
  obtain ⟨y, hy⟩ : ∃ y, y = z - H *ᵥ x := ⟨_, rfl⟩
  rw [← hy]
  -- the multiplier of the measurement error
  have key : ∀ η : Fin n → ℝ, ∃ ζ : Fin m → ℝ,
      S *ᵥ ζ = y - H *ᵥ (P *ᵥ η) ∧
      corrX H P R x z + corrP H P R *ᵥ η = x + P *ᵥ (η + Hᵀ *ᵥ ζ) ∧
      ζ ⬝ᵥ (y - H *ᵥ (P *ᵥ η)) = y ⬝ᵥ S⁻¹ *ᵥ y - 2 * (η ⬝ᵥ gain H P R *ᵥ y) + η ⬝ᵥ (gain H P R * H * P) *ᵥ η ∧
      (H *ᵥ (P *ᵥ η)) ⬝ᵥ ζ = η ⬝ᵥ gain H P R *ᵥ y - η ⬝ᵥ (gain H P R * H * P) *ᵥ η := by
    intro η
    have hg : ∀ q : Fin m → ℝ, gain H P R *ᵥ q = P *ᵥ (Hᵀ *ᵥ (S⁻¹ *ᵥ q)) := by
      intro q
      rw [gain, Matrix.mulVec_mulVec, Matrix.mulVec_mulVec, Matrix.mul_assoc]
    have hd : ∀ q : Fin m → ℝ, η ⬝ᵥ gain H P R *ᵥ q = (H *ᵥ (P *ᵥ η)) ⬝ᵥ S⁻¹ *ᵥ q := by
      intro q
      rw [hg, dot_symm hP, dot_mulVec_left, dotProduct_comm]
    have hk : (gain H P R * H * P) *ᵥ η = gain H P R *ᵥ (H *ᵥ (P *ᵥ η)) := by
      rw [Matrix.mulVec_mulVec, Matrix.mulVec_mulVec, Matrix.mul_assoc]
    refine ⟨S⁻¹ *ᵥ (y - H *ᵥ (P *ᵥ η)), ?_, ?_, ?_, ?_⟩
    · rw [Matrix.mulVec_mulVec, Matrix.mul_nonsing_inv _ hdet, Matrix.one_mulVec]
    · rw [corrX, corrP, Matrix.sub_mulVec, hk, Matrix.mulVec_add, ← hg, ← hy, Matrix.mulVec_sub]
      abel
    · rw [dotProduct_comm, quad_sub hSi, hd, hk, hd]
    · rw [hk, hd, hd, Matrix.mulVec_sub, dotProduct_sub]
  have quadξ : ∀ (η : Fin n → ℝ) (ζ : Fin m → ℝ), (η + Hᵀ *ᵥ ζ) ⬝ᵥ P *ᵥ (η + Hᵀ *ᵥ ζ) + ζ ⬝ᵥ R *ᵥ ζ
      = η ⬝ᵥ P *ᵥ η + 2 * ((H *ᵥ (P *ᵥ η)) ⬝ᵥ ζ) + ζ ⬝ᵥ S *ᵥ ζ := by
    intro η ζ
    rw [quad_add hP, dot_mulVec_left, dot_mulVec_left, dotProduct_comm (H *ᵥ (P *ᵥ η)), hSdef, innovCov,
      Matrix.add_mulVec, dotProduct_add]
    have : ζ ⬝ᵥ H *ᵥ (P *ᵥ (Hᵀ *ᵥ ζ)) = ζ ⬝ᵥ (H * P * Hᵀ) *ᵥ ζ := by
      rw [Matrix.mulVec_mulVec, Matrix.mulVec_mulVec, Matrix.mul_assoc]
    rw [this]
    ring
  have quadP : ∀ η : Fin n → ℝ, η ⬝ᵥ corrP H P R *ᵥ η = η ⬝ᵥ P *ᵥ η - η ⬝ᵥ (gain H P R * H * P) *ᵥ η := by
    intro η
    rw [corrP, Matrix.sub_mulVec, dotProduct_sub]
  refine ⟨?_, ?_⟩
  · rintro v _ ⟨_, J, hv, d, hd, rfl, rfl⟩ η
    obtain ⟨ζ, k1, k2, k3, k4⟩ := key η
    have h1 := h.lower v J hv (η + Hᵀ *ᵥ ζ)
    have h2 := hd.lower hR ζ
    have h3 := quadξ η ζ
    rw [k1, k3] at h3
    have e1 : (η + Hᵀ *ᵥ ζ) ⬝ᵥ (v - x) = η ⬝ᵥ (v - x) + ζ ⬝ᵥ H *ᵥ (v - x) := by
      rw [add_dotProduct, dot_mulVec_left]
    have e2 : ζ ⬝ᵥ (z - H *ᵥ v) = ζ ⬝ᵥ y - ζ ⬝ᵥ H *ᵥ (v - x) := by
      rw [← dotProduct_sub, hy, Matrix.mulVec_sub]
      congr 1
      abel
    have e3 : ζ ⬝ᵥ y = (y ⬝ᵥ S⁻¹ *ᵥ y - 2 * (η ⬝ᵥ gain H P R *ᵥ y) + η ⬝ᵥ (gain H P R * H * P) *ᵥ η)
        + (η ⬝ᵥ gain H P R *ᵥ y - η ⬝ᵥ (gain H P R * H * P) *ᵥ η) := by
      rw [← k3, ← k4, dotProduct_sub, dotProduct_comm ζ (H *ᵥ (P *ᵥ η))]
      ring
    have e4 : η ⬝ᵥ (v - corrX H P R x z) = η ⬝ᵥ (v - x) - η ⬝ᵥ gain H P R *ᵥ y := by
      rw [← dotProduct_sub, corrX, ← hy]
      congr 1
      abel
    rw [e4, quadP]
    rw [e1] at h1
    rw [e2, e3] at h2
    rw [k4] at h3
    linarith
  · intro η
    obtain ⟨ζ, k1, k2, k3, k4⟩ := key η
    rw [k2]
    refine ⟨_, _, h.attain (η + Hᵀ *ᵥ ζ), ζ ⬝ᵥ R *ᵥ ζ, ⟨ζ, ?_, rfl⟩, rfl, ?_⟩
    · have e : H *ᵥ (P *ᵥ (Hᵀ *ᵥ ζ)) = S *ᵥ ζ - R *ᵥ ζ := by
        rw [hSdef, innovCov, Matrix.add_mulVec, Matrix.mulVec_mulVec, Matrix.mulVec_mulVec, Matrix.mul_assoc,
          add_sub_cancel_right]
      rw [Matrix.mulVec_add, Matrix.mulVec_add, Matrix.mulVec_add, e, k1, hy]
      abel
    · have h3 := quadξ η ζ
      rw [k1, k3, k4] at h3
      rw [quadP]
      linarith

theorem fits_congr {x : Fin n → ℝ} {P : Matrix (Fin n) (Fin n) ℝ} {c : ℝ} {Reach Reach' : (Fin n → ℝ) → ℝ → Prop}
    (h : Fits x P c Reach) (he : ∀ v J, Reach' v J ↔ Reach v J) : Fits x P c Reach' :=
  ⟨fun v J hv => h.lower v J ((he v J).1 hv), fun η => (he _ _).2 (h.attain η)⟩

/-- A vector orthogonal to the kernel of a symmetric matrix is in its range. -/
theorem mem_range_of_ker {P : Matrix (Fin k) (Fin k) ℝ} (hP : P.IsSymm) {d : Fin k → ℝ}
    (h : ∀ η : Fin k → ℝ, P *ᵥ η = 0 → η ⬝ᵥ d = 0) : ∃ η, d = P *ᵥ η := by
  have hs : P.toEuclideanLin.IsSymmetric := Matrix.isSymmetric_toEuclideanLin_iff.2 (by
    rw [Matrix.IsHermitian, Matrix.conjTranspose_eq_transpose_of_trivial]; exact hP)
  have h1 : (WithLp.toLp 2 d : EuclideanSpace ℝ (Fin k)) ∈ (LinearMap.range P.toEuclideanLin)ᗮᗮ := by
    rw [hs.orthogonal_range, Submodule.mem_orthogonal]
    intro u hu
    have hu' : P *ᵥ (WithLp.ofLp u) = 0 := by
      have : P.toEuclideanLin u = 0 := hu
      have := congrArg WithLp.ofLp this
      simpa using this
    have := h _ hu'
    simpa [PiLp.inner_apply, dotProduct, mul_comm] using this
  rw [Submodule.orthogonal_orthogonal] at h1
  obtain ⟨η, hη⟩ := h1
  refine ⟨WithLp.ofLp η, ?_⟩
  have := congrArg WithLp.ofLp hη
  simpa using this.symm

/-- A linear functional minus the quadratic form is bounded only if the functional is in the range. -/
theorem price_of_bounded {P : Matrix (Fin k) (Fin k) ℝ} (hP : P.PosSemidef) {d : Fin k → ℝ} {K : ℝ}
    (h : ∀ η : Fin k → ℝ, 2 * (η ⬝ᵥ d) - η ⬝ᵥ P *ᵥ η ≤ K) : ∃ c, Price P d c ∧ c ≤ K := by
  have hr : ∃ η, d = P *ᵥ η := by
    refine mem_range_of_ker (psd_symm hP) fun η hη => ?_
    by_contra hne
    have h1 := h (((K + 1) / (2 * (η ⬝ᵥ d))) • η)
    rw [Matrix.mulVec_smul, hη, smul_zero, dotProduct_zero, smul_dotProduct, smul_eq_mul] at h1
    have : 2 * ((K + 1) / (2 * (η ⬝ᵥ d)) * (η ⬝ᵥ d)) = K + 1 := by field_simp
    linarith
  obtain ⟨η, rfl⟩ := hr
  refine ⟨_, .mk' P η, ?_⟩
  have := h η
  linarith

theorem Fits.price {x : Fin n → ℝ} {P : Matrix (Fin n) (Fin n) ℝ} {c : ℝ} {Reach : (Fin n → ℝ) → ℝ → Prop}
    (h : Fits x P c Reach) (hP : P.PosSemidef) :
    (∀ v J, Reach v J → ∃ d, Price P (v - x) d ∧ c + d ≤ J) ∧ ∀ v d, Price P (v - x) d → Reach v (c + d) := by
  refine ⟨fun v J hv => ?_, ?_⟩
  · obtain ⟨d, h1, h2⟩ := price_of_bounded hP (d := v - x) (K := J - c) fun η => by
      have := h.lower v J hv η
      linarith
    exact ⟨d, h1, by linarith⟩
  · rintro v d ⟨η, h1, rfl⟩
    have e : v = x + P *ᵥ η := by rw [← h1, add_sub_cancel]
    rw [e]
    exact h.attain η

/-- Nothing but the estimate itself is free. -/
theorem Price.nonneg {P : Matrix (Fin k) (Fin k) ℝ} (hP : P.PosSemidef) {d : Fin k → ℝ} {c : ℝ} (h : Price P d c) :
    0 ≤ c := by
  obtain ⟨η, _, rfl⟩ := h
  exact psd_quad hP η

theorem Price.eq_zero {P : Matrix (Fin k) (Fin k) ℝ} (hP : P.PosSemidef) {d : Fin k → ℝ} (h : Price P d 0) : d = 0 := by
  obtain ⟨η, rfl, h0⟩ := h
  have := (hP.dotProduct_mulVec_zero_iff η).1 (by simpa using h0.symm)
  exact this

/-- For invertible `Q` the price is `wᵀ Q⁻¹ w`. -/
theorem price_iff {Q : Matrix (Fin k) (Fin k) ℝ} (hQ : Q.PosDef) (w : Fin k → ℝ) (c : ℝ) :
    Price Q w c ↔ c = w ⬝ᵥ Q⁻¹ *ᵥ w := by
  have hdet : IsUnit Q.det := hQ.isUnit.map Matrix.detMonoidHom
  constructor
  · rintro ⟨η, rfl, rfl⟩
    rw [Matrix.mulVec_mulVec, Matrix.nonsing_inv_mul _ hdet, Matrix.one_mulVec, dotProduct_comm]
  · rintro rfl
    refine ⟨Q⁻¹ *ᵥ w, ?_, ?_⟩
    · rw [Matrix.mulVec_mulVec, Matrix.mul_nonsing_inv _ hdet, Matrix.one_mulVec]
    · rw [Matrix.mulVec_mulVec, Matrix.mul_nonsing_inv _ hdet, Matrix.one_mulVec, dotProduct_comm]

/-! ## Histories -/

theorem step_fits {s s' : State n ℝ} {op : Op ℝ} (hs : s.Psd) (hr : s.Regular op) (hk : op.KeepsEstimate)
    (h : s.step op = some s') {c : ℝ} {Reach : (Fin n → ℝ) → ℝ → Prop} (hf : Fits s.x s.P c Reach) :
    ∃ c', Fits s'.x s'.P c' (fun v' J' => ∃ v J, Reach v J ∧ s.Scenario op v J v' J') := by
  have aux : ∀ {α : Type} {o : Option α} {f : α → State n ℝ}, o.map f = some s' → ∃ a, o = some a ∧ f a = s' := by
    intro α o f h
    cases o with
    | none => cases h
    | some a => exact ⟨a, rfl, Option.some.inj h⟩
  have same : Fits s.x s.P c (fun v' J' => ∃ v J, Reach v J ∧ v' = v ∧ J' = J) :=
    fits_congr hf fun v J => ⟨by rintro ⟨_, _, h, rfl, rfl⟩; exact h, fun h => ⟨v, J, h, rfl, rfl⟩⟩
  cases op with
  | predict =>
    cases h
    have := fits_predict (A := s.A) hf hs.Q one_pos
    simp only [inv_one, one_smul, one_mul] at this
    exact ⟨c, this⟩
  | predictTuned lambda =>
    cases h
    exact ⟨_, fits_predict (A := s.A) hf hs.Q (pow_pos_of_ne hr)⟩
  | control i =>
    obtain ⟨d, hd, rfl⟩ := aux h
    refine ⟨c, fits_congr (fits_control hf (hs.ctl _ (List.mem_of_getElem? hd))) fun v J => ?_⟩
    simp only [State.Scenario, hd, Option.some.injEq, exists_eq_left']
  | correct i =>
    obtain ⟨o, ho, rfl⟩ := aux h
    refine ⟨_, fits_congr (fits_correct (z := o.2.z) hf (psd_symm hs.P) (hs.obs _ (List.mem_of_getElem? ho)).posSemidef
      (hr _ ho)) fun v J => ?_⟩
    simp only [State.Scenario, ho, Option.some.injEq, exists_eq_left']
  | setX => exact hk.elim
  | setP => exact hk.elim
  | setA => cases h; exact ⟨c, same⟩
  | setQ => cases h; exact ⟨c, same⟩
  | setU i v => obtain ⟨o, ho, rfl⟩ := aux h; exact ⟨c, same⟩
  | setB i v => obtain ⟨o, ho, rfl⟩ := aux h; exact ⟨c, same⟩
  | setQc i v => obtain ⟨o, ho, rfl⟩ := aux h; exact ⟨c, same⟩
  | setZ i v => obtain ⟨o, ho, rfl⟩ := aux h; exact ⟨c, same⟩
  | setH i v => obtain ⟨o, ho, rfl⟩ := aux h; exact ⟨c, same⟩
  | setR i v => obtain ⟨o, ho, rfl⟩ := aux h; exact ⟨c, same⟩

theorem run_fits {s s' : State n ℝ} {ops : List (Op ℝ)} (hs : s.Psd) (hl : ∀ op ∈ ops, op.NonzeroLambda)
    (hd : ∀ op ∈ ops, s.PsdData op) (hk : ∀ op ∈ ops, op.KeepsEstimate) (h : s.run ops = some s') {c : ℝ}
    {Reach : (Fin n → ℝ) → ℝ → Prop} (hf : Fits s.x s.P c Reach) :
    s'.Psd ∧ ∃ c', Fits s'.x s'.P c' (fun v' J' => ∃ v J, Reach v J ∧ s.ScenarioRun ops v J v' J') := by
  induction ops generalizing s c Reach with
  | nil =>
    cases h
    exact ⟨hs, c, fits_congr hf fun v J =>
      ⟨by rintro ⟨_, _, h, rfl, rfl⟩; exact h, fun h => ⟨v, J, h, rfl, rfl⟩⟩⟩
  | cons op ops ih =>
    simp only [State.run] at h
    cases hst : s.step op with
    | none => rw [hst] at h; cases h
    | some s1 =>
      rw [hst, Option.bind_some] at h
      have hr := psd_regular hs (hl op (by simp))
      obtain ⟨c1, hf1⟩ := step_fits hs hr (hk op (by simp)) hst hf
      obtain ⟨p, c2, hf2⟩ := ih (step_cov_inv psd_closed hst hs (hd op (by simp)) hr) (fun o ho => hl o (by simp [ho]))
        (fun o ho => covData_congr hst (hd o (by simp [ho]))) (fun o ho => hk o (by simp [ho])) h hf1
      refine ⟨p, c2, fits_congr hf2 fun v' J' => ?_⟩
      constructor
      · rintro ⟨v, J, h1, v1, J1, t, h2, h3, h4⟩
        rw [hst] at h3
        cases h3
        exact ⟨v1, J1, ⟨v, J, h1, h2⟩, h4⟩
      · rintro ⟨v1, J1, ⟨v, J, h1, h2⟩, h4⟩
        exact ⟨v, J, h1, v1, J1, s1, h2, hst, h4⟩

theorem run_explains {s s' : State n ℝ} {ops : List (Op ℝ)} (hs : s.Psd) (hl : ∀ op ∈ ops, op.NonzeroLambda)
    (hd : ∀ op ∈ ops, s.PsdData op) (hk : ∀ op ∈ ops, op.KeepsEstimate) (h : s.run ops = some s') :
    ∃ J, (∀ v K, s.Explains ops v K → ∃ c, Price s'.P (v - s'.x) c ∧ J + c ≤ K) ∧
      ∀ v c, Price s'.P (v - s'.x) c → s.Explains ops v (J + c) := by
  obtain ⟨p, c, hf⟩ := run_fits hs hl hd hk h (fits_init hs.P)
  exact ⟨c, hf.price p.P⟩

end Spec
end Minikalman
