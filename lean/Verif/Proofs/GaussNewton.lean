import Verif.Spec.GaussNewton
import Verif.Proofs.Riccati
import Verif.Proofs.Residual
import Verif.Props.ExtendedSteps
import Mathlib.Analysis.Calculus.Deriv.Mul
import Mathlib.Analysis.Calculus.Deriv.Add
import Mathlib.Analysis.Calculus.FDeriv.Comp
import Mathlib.Analysis.Calculus.Deriv.Comp
import Mathlib.Analysis.Calculus.Deriv.Prod
import Mathlib.Analysis.Calculus.LocalExtr.Basic

/-!
# A nonlinear correction is a Gauss-Newton step
-/

namespace Minikalman

open Matrix

variable {n m : Nat} {σ : Type}

/-- C72 with a closure that computes a function. -/
theorem xcorrect_computes [MDT ℝ] [ExactReal] (bld : Build) {f : ExtendedKalman n ℝ} {o : ExtendedObservation n m ℝ}
    {x : Fin n → ℝ} {A P Q : Matrix (Fin n) (Fin n) ℝ} {H : Matrix (Fin m) (Fin n) ℝ} {z : Fin m → ℝ}
    {R : Matrix (Fin m) (Fin m) ℝ} (hm : 0 < m) (hf : f.asRegular.Reps x A P Q) (ho : o.asRegular.Reps H z R)
    (hpd : (H * P * Hᵀ + R).PosDef) {c : σ → Mat n 1 ℝ → Mat m 1 ℝ → Res (σ × Mat m 1 ℝ)} {g : (Fin n → ℝ) → Fin m → ℝ}
    (hc : Computes c g) (st : σ) :
    ∃ st' f' o', f.correctNonlinear bld o c st = .ok (st', f', o') ∧
      f'.asRegular.Reps (x + Spec.gain H P R *ᵥ (z - g x)) A (Spec.corrP H P R) Q ∧ o'.asRegular.Reps H z R ∧
      o'.K.Reps (Spec.gain H P R) := by
  obtain ⟨st', out, h1, h2, h3⟩ := hc st f.x o.y x hf.x ho.y
  obtain ⟨f', o', k1, k2, _, k3, _, _, _, _, _, _, _, k4, _⟩ := C72_correct_nonlinear bld hm hf ho rfl hpd rfl h1 h3 h2
  exact ⟨st', f', o', k1, k2, k3, k4⟩

section Cost
variable {H : Matrix (Fin m) (Fin n) ℝ} {P : Matrix (Fin n) (Fin n) ℝ} {R : Matrix (Fin m) (Fin m) ℝ}

theorem dot_symm {k : Nat} {M : Matrix (Fin k) (Fin k) ℝ} (h : Mᵀ = M) (u v : Fin k → ℝ) : u ⬝ᵥ M *ᵥ v = v ⬝ᵥ M *ᵥ u := by
  rw [Matrix.dotProduct_mulVec, ← Matrix.mulVec_transpose, h, dotProduct_comm]

theorem inv_symm {k : Nat} {M : Matrix (Fin k) (Fin k) ℝ} (h : Mᵀ = M) : M⁻¹ᵀ = M⁻¹ := by
  rw [Matrix.transpose_nonsing_inv, h]

/-- The step solves the normal equations. -/
theorem normal_equations (hP : P.PosDef) (hR : R.PosDef) (r : Fin m → ℝ) :
    (P⁻¹ + Hᵀ * R⁻¹ * H) *ᵥ (Spec.gain H P R *ᵥ r) = Hᵀ *ᵥ (R⁻¹ *ᵥ r) := by
  have h := _root_.mul_eq_one_comm.1 (information_mul (H := H) hP hR)
  rw [gain_information hP hR]
  generalize P⁻¹ + Hᵀ * R⁻¹ * H = M at h
  rw [Matrix.mulVec_mulVec, ← Matrix.mul_assoc, ← Matrix.mul_assoc, h, Matrix.one_mul, Matrix.mulVec_mulVec]

theorem trans_dot (H : Matrix (Fin m) (Fin n) ℝ) (d : Fin n → ℝ) (r : Fin m → ℝ) : d ⬝ᵥ Hᵀ *ᵥ r = (H *ᵥ d) ⬝ᵥ r := by
  rw [Matrix.dotProduct_mulVec, Matrix.vecMul_transpose]

theorem misfit_expand (hR : R.PosDef) (d : Fin n → ℝ) (r : Fin m → ℝ) :
    Spec.misfit P R d (r - H *ᵥ d) =
      d ⬝ᵥ (P⁻¹ + Hᵀ * R⁻¹ * H) *ᵥ d - 2 * (d ⬝ᵥ Hᵀ *ᵥ (R⁻¹ *ᵥ r)) + r ⬝ᵥ R⁻¹ *ᵥ r := by
  have hs := inv_symm (pd_symm hR)
  have e1 : d ⬝ᵥ (Hᵀ * R⁻¹ * H) *ᵥ d = (H *ᵥ d) ⬝ᵥ R⁻¹ *ᵥ (H *ᵥ d) := by
    rw [Matrix.mul_assoc, ← Matrix.mulVec_mulVec, ← Matrix.mulVec_mulVec, trans_dot]
  rw [Spec.misfit, Matrix.add_mulVec, dotProduct_add, e1, trans_dot, Matrix.mulVec_sub, sub_dotProduct, dotProduct_sub,
    dotProduct_sub, dot_symm hs r (H *ᵥ d)]
  ring

theorem misfit_square (hP : P.PosDef) (hR : R.PosDef) (d : Fin n → ℝ) (r : Fin m → ℝ) :
    Spec.misfit P R d (r - H *ᵥ d) =
      Spec.misfit P R (Spec.gain H P R *ᵥ r) (r - H *ᵥ (Spec.gain H P R *ᵥ r)) +
        (d - Spec.gain H P R *ᵥ r) ⬝ᵥ (Spec.corrP H P R)⁻¹ *ᵥ (d - Spec.gain H P R *ᵥ r) := by
  rw [information hP hR, misfit_expand hR, misfit_expand hR, ← normal_equations hP hR]
  have hs : (P⁻¹ + Hᵀ * R⁻¹ * H)ᵀ = P⁻¹ + Hᵀ * R⁻¹ * H := by
    rw [← information hP hR]; exact inv_symm (pd_symm (corrP_pd hP hR))
  generalize P⁻¹ + Hᵀ * R⁻¹ * H = M at hs
  generalize Spec.gain H P R *ᵥ r = k
  rw [Matrix.mulVec_sub, sub_dotProduct, dotProduct_sub, dotProduct_sub, dot_symm hs k d]
  ring

end Cost

/-- The derivative of a quadratic form along a differentiable curve. -/
theorem quad_deriv {k : Nat} {M : Matrix (Fin k) (Fin k) ℝ} (hM : Mᵀ = M) {c : ℝ → Fin k → ℝ} {c' : Fin k → ℝ} {t : ℝ}
    (h : HasDerivAt c c' t) : HasDerivAt (fun s => c s ⬝ᵥ M *ᵥ c s) (2 * (c' ⬝ᵥ M *ᵥ c t)) t := by
  rw [hasDerivAt_pi] at h
  have h2 : ∀ i, HasDerivAt (fun s => (M *ᵥ c s) i) ((M *ᵥ c') i) t := fun i => by
    have := HasDerivAt.fun_sum (u := Finset.univ) fun j (_ : j ∈ Finset.univ) => (h j).const_mul (M i j)
    exact this
  have h3 := HasDerivAt.fun_sum (u := Finset.univ) fun j (_ : j ∈ Finset.univ) => (h j).mul (h2 j)
  have e : ∑ i, (c' i * (M *ᵥ c t) i + c t i * (M *ᵥ c') i) = 2 * (c' ⬝ᵥ M *ᵥ c t) := by
    rw [Finset.sum_add_distrib]
    show c' ⬝ᵥ M *ᵥ c t + c t ⬝ᵥ M *ᵥ c' = _
    rw [dot_symm hM (c t) c']
    ring
  rw [e] at h3
  exact h3

/-- The slope of the nonlinear cost along a line through the estimate. -/
theorem cost_deriv {H : Matrix (Fin m) (Fin n) ℝ} {P : Matrix (Fin n) (Fin n) ℝ} {R : Matrix (Fin m) (Fin m) ℝ} (hP : P.PosDef)
    (hR : R.PosDef) {g : (Fin n → ℝ) → Fin m → ℝ} {x : Fin n → ℝ} (hg : Spec.IsDerivative g H x) (z : Fin m → ℝ) (d : Fin n → ℝ) :
    HasDerivAt (fun t : ℝ => Spec.misfit P R (x + t • d - x) (z - g (x + t • d)))
      (-(2 * (d ⬝ᵥ Hᵀ *ᵥ (R⁻¹ *ᵥ (z - g x))))) 0 := by
  have hl : HasDerivAt (fun t : ℝ => x + t • d) d 0 := by
    have := ((hasDerivAt_id (0 : ℝ)).smul_const d).const_add x
    rwa [one_smul] at this
  have hx : x + (0 : ℝ) • d = x := by rw [zero_smul, add_zero]
  have hg' : HasFDerivAt g H.mulVecLin.toContinuousLinearMap (x + (0 : ℝ) • d) := by rw [hx]; exact hg
  have h1 : HasDerivAt (fun t : ℝ => g (x + t • d)) (H *ᵥ d) 0 := hg'.comp_hasDerivAt (f := fun t : ℝ => x + t • d) (0 : ℝ) hl
  have h2 : HasDerivAt (fun t : ℝ => z - g (x + t • d)) (-(H *ᵥ d)) 0 := h1.const_sub z
  have h3 : HasDerivAt (fun t : ℝ => x + t • d - x) d 0 := hl.sub_const x
  have h4 := (quad_deriv (inv_symm (pd_symm hP)) h3).add (quad_deriv (inv_symm (pd_symm hR)) h2)
  have e : 2 * (d ⬝ᵥ P⁻¹ *ᵥ (x + (0 : ℝ) • d - x)) + 2 * (-(H *ᵥ d) ⬝ᵥ R⁻¹ *ᵥ (z - g (x + (0 : ℝ) • d))) =
      -(2 * (d ⬝ᵥ Hᵀ *ᵥ (R⁻¹ *ᵥ (z - g x)))) := by
    rw [hx, sub_self, Matrix.mulVec_zero, dotProduct_zero, trans_dot, neg_dotProduct]
    ring
  rw [e] at h4
  exact h4

end Minikalman
