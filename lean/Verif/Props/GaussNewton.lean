import Verif.Proofs.GaussNewton
import Verif.Props.ExtendedHistory
import Mathlib.Analysis.Calculus.Deriv.Slope

/-!
# Property C98: what a nonlinear correction means

All theorems are about runs of `correct_nonlinear` on an extended filter holding given real matrices, in exact arithmetic, with a closure
that computes a function `g`. Only the last theorems relate the supplied matrix `H` to `g`.
-/

namespace Minikalman

open Matrix

variable {n m : Nat} {σ : Type} [MDT ℝ] [ExactReal] {f : ExtendedKalman n ℝ} {o : ExtendedObservation n m ℝ} {x : Fin n → ℝ}
  {A P Q : Matrix (Fin n) (Fin n) ℝ} {H : Matrix (Fin m) (Fin n) ℝ} {z : Fin m → ℝ} {R : Matrix (Fin m) (Fin m) ℝ}
  {c : σ → Mat n 1 ℝ → Mat m 1 ℝ → Res (σ × Mat m 1 ℝ)} {g : (Fin n → ℝ) → Fin m → ℝ}

/-- C98: a nonlinear measurement never increases the reported uncertainty either: in the Loewner order, in every variance, in the
trace. Of all gains `G`, the one used gives the smallest error covariance of the linearised system, and no other gain does. -/
theorem C98_reduces_uncertainty (bld : Build) (hm : 0 < m) (hf : f.asRegular.Reps x A P Q) (ho : o.asRegular.Reps H z R)
    (hP : P.PosSemidef) (hR : R.PosDef) (hc : Computes c g) (st : σ) :
    ∃ st' f' o' x' P' K, f.correctNonlinear bld o c st = .ok (st', f', o') ∧ f'.asRegular.Reps x' A P' Q ∧ o'.K.Reps K ∧
      (P - P').PosSemidef ∧ (∀ i, P' i i ≤ P i i) ∧ P'.trace ≤ P.trace ∧
      ∀ G : Matrix (Fin n) (Fin m) ℝ, ((1 - G * H) * P * (1 - G * H)ᵀ + G * R * Gᵀ - P').PosSemidef ∧
        ((1 - G * H) * P * (1 - G * H)ᵀ + G * R * Gᵀ = P' ↔ G = K) := by
  have hS := innovCov_pd (H := H) hP hR
  obtain ⟨st', f', o', h1, h2, _, h3⟩ := xcorrect_computes bld hm hf ho hS hc st
  have hle := corrP_le (psd_symm hP) (pd_symm hR) hS
  refine ⟨st', f', o', _, _, _, h1, h2, h3, hle, fun i => ?_, ?_,
    fun G => ⟨optimal (psd_symm hP) (pd_symm hR) hS G, optimal_eq (psd_symm hP) (pd_symm hR) hS G⟩⟩
  · have := hle.diag_nonneg (i := i)
    rw [Matrix.sub_apply] at this
    linarith
  · have := hle.trace_nonneg
    rw [Matrix.trace_sub] at this
    linarith

/-- C98: information adds up: the inverse of the covariance grows by `Hᵀ R⁻¹ H`. -/
theorem C98_information_form (bld : Build) (hm : 0 < m) (hf : f.asRegular.Reps x A P Q) (ho : o.asRegular.Reps H z R)
    (hP : P.PosDef) (hR : R.PosDef) (hc : Computes c g) (st : σ) :
    ∃ st' f' o' x' P', f.correctNonlinear bld o c st = .ok (st', f', o') ∧ f'.asRegular.Reps x' A P' Q ∧ P'.PosDef ∧
      P'⁻¹ = P⁻¹ + Hᵀ * R⁻¹ * H ∧ P'⁻¹ *ᵥ (x' - x) = Hᵀ *ᵥ (R⁻¹ *ᵥ (z - g x)) := by
  obtain ⟨st', f', o', h1, h2, _, _⟩ := xcorrect_computes bld hm hf ho (innovCov_pd hP.posSemidef hR) hc st
  refine ⟨st', f', o', _, _, h1, h2, corrP_pd hP hR, information hP hR, ?_⟩
  rw [add_sub_cancel_left, information hP hR, normal_equations hP hR]

/-- C98: a measurement that the function predicts exactly leaves the estimate alone, whatever Jacobian was supplied. -/
theorem C98_predicted_measurement (bld : Build) (hm : 0 < m) (hf : f.asRegular.Reps x A P Q) (ho : o.asRegular.Reps H z R)
    (hS : (H * P * Hᵀ + R).PosDef) (hc : Computes c g) (hz : z = g x) (st : σ) :
    ∃ st' f' o' P', f.correctNonlinear bld o c st = .ok (st', f', o') ∧ f'.asRegular.Reps x A P' Q := by
  obtain ⟨st', f', o', h1, h2, _, _⟩ := xcorrect_computes bld hm hf ho hS hc st
  refine ⟨st', f', o', Spec.corrP H P R, h1, ?_⟩
  rwa [hz, sub_self, Matrix.mulVec_zero, add_zero] at h2

/-- C98: what remains of the difference between the measurement and the linearised prediction is the part `R S⁻¹` of what it was. -/
theorem C98_residual (bld : Build) (hm : 0 < m) (hf : f.asRegular.Reps x A P Q) (ho : o.asRegular.Reps H z R)
    {S : Matrix (Fin m) (Fin m) ℝ} (hS : S = H * P * Hᵀ + R) (hpd : S.PosDef) (hc : Computes c g) (st : σ) :
    ∃ st' f' o' x' P', f.correctNonlinear bld o c st = .ok (st', f', o') ∧ f'.asRegular.Reps x' A P' Q ∧
      z - (g x + H *ᵥ (x' - x)) = R *ᵥ (S⁻¹ *ᵥ (z - g x)) ∧ H * P' = R * S⁻¹ * (H * P) := by
  subst hS
  obtain ⟨st', f', o', h1, h2, _, _⟩ := xcorrect_computes bld hm hf ho hpd hc st
  refine ⟨st', f', o', _, _, h1, h2, ?_, residual_P (pd_det hpd)⟩
  rw [add_sub_cancel_left, Matrix.mulVec_mulVec, obs_gain (pd_det hpd), Matrix.sub_mulVec, Matrix.one_mulVec, Matrix.mulVec_mulVec]
  show _ = (R * (Spec.innovCov H P R)⁻¹) *ᵥ (z - g x)
  abel

/-- C98: the correction is one Gauss-Newton step. Replace the function by its linearisation `v ↦ g x + H (v - x)`: the new estimate is
the cheapest explanation of prior and measurement, every other `v` costs `(v - x')ᵀ P'⁻¹ (v - x')` more. -/
theorem C98_gauss_newton (bld : Build) (hm : 0 < m) (hf : f.asRegular.Reps x A P Q) (ho : o.asRegular.Reps H z R)
    (hP : P.PosDef) (hR : R.PosDef) (hc : Computes c g) (st : σ) :
    ∃ st' f' o' x' P', f.correctNonlinear bld o c st = .ok (st', f', o') ∧ f'.asRegular.Reps x' A P' Q ∧
      ∀ v, Spec.misfit P R (v - x) (z - (g x + H *ᵥ (v - x))) =
          Spec.misfit P R (x' - x) (z - (g x + H *ᵥ (x' - x))) + (v - x') ⬝ᵥ P'⁻¹ *ᵥ (v - x') ∧
        (v ≠ x' → Spec.misfit P R (x' - x) (z - (g x + H *ᵥ (x' - x))) < Spec.misfit P R (v - x) (z - (g x + H *ᵥ (v - x)))) := by
  obtain ⟨st', f', o', h1, h2, _, _⟩ := xcorrect_computes bld hm hf ho (innovCov_pd hP.posSemidef hR) hc st
  refine ⟨st', f', o', _, _, h1, h2, fun v => ?_⟩
  have key := misfit_square (H := H) hP hR (v - x) (z - g x)
  rw [sub_sub, sub_sub, sub_sub v x] at key
  have e : x + Spec.gain H P R *ᵥ (z - g x) - x = Spec.gain H P R *ᵥ (z - g x) := add_sub_cancel_left _ _
  rw [e]
  refine ⟨key, fun hv => ?_⟩
  rw [key]
  have := (corrP_pd (H := H) hP hR).inv.dotProduct_mulVec_pos (x := v - (x + Spec.gain H P R *ᵥ (z - g x))) (sub_ne_zero.2 hv)
  simp only [star_trivial] at this
  linarith

/-- C98: if the supplied `H` is the Jacobian of the function at the estimate, the correction moves downhill on the true, nonlinear cost
`C v`: its slope along the step is `-2 (x' - x)ᵀ P'⁻¹ (x' - x)`; a small enough part of the step makes it strictly cheaper. -/
theorem C98_descent (bld : Build) (hm : 0 < m) (hf : f.asRegular.Reps x A P Q) (ho : o.asRegular.Reps H z R)
    (hP : P.PosDef) (hR : R.PosDef) (hc : Computes c g) (hg : Spec.IsDerivative g H x) (st : σ) {C : (Fin n → ℝ) → ℝ}
    (hC : ∀ v, C v = Spec.misfit P R (v - x) (z - g v)) :
    ∃ st' f' o' x' P', f.correctNonlinear bld o c st = .ok (st', f', o') ∧ f'.asRegular.Reps x' A P' Q ∧
      HasDerivAt (fun t : ℝ => C (x + t • (x' - x))) (-(2 * ((x' - x) ⬝ᵥ P'⁻¹ *ᵥ (x' - x)))) 0 ∧
      (x' ≠ x → 0 < (x' - x) ⬝ᵥ P'⁻¹ *ᵥ (x' - x) ∧ ∃ ε : ℝ, 0 < ε ∧ ∀ t : ℝ, 0 < t → t < ε → C (x + t • (x' - x)) < C x) := by
  obtain ⟨st', f', o', h1, h2, _, _⟩ := xcorrect_computes bld hm hf ho (innovCov_pd hP.posSemidef hR) hc st
  obtain ⟨x', hx'⟩ : ∃ x', x' = x + Spec.gain H P R *ᵥ (z - g x) := ⟨_, rfl⟩
  rw [← hx'] at h2
  have hd : x' - x = Spec.gain H P R *ᵥ (z - g x) := by rw [hx', add_sub_cancel_left]
  have key := cost_deriv hP hR hg z (x' - x)
  rw [← normal_equations hP hR, ← hd, ← information hP hR] at key
  have key : HasDerivAt (fun t : ℝ => C (x + t • (x' - x))) (-(2 * ((x' - x) ⬝ᵥ (Spec.corrP H P R)⁻¹ *ᵥ (x' - x)))) 0 := by
    simp only [hC]; exact key
  refine ⟨st', f', o', x', _, h1, h2, key, fun hne => ?_⟩
  have hpos := (corrP_pd (H := H) hP hR).inv.dotProduct_mulVec_pos (x := x' - x) (sub_ne_zero.2 hne)
  simp only [star_trivial] at hpos
  refine ⟨hpos, ?_⟩
  have hlim := key.tendsto_slope_zero_right
  have hev := hlim.eventually (gt_mem_nhds (show _ < (0 : ℝ) by linarith))
  rw [eventually_nhdsWithin_iff, Metric.eventually_nhds_iff] at hev
  obtain ⟨ε, hε, hb⟩ := hev
  refine ⟨ε, hε, fun t ht htε => ?_⟩
  have := @hb t (by rw [Real.dist_eq, sub_zero, abs_of_pos ht]; exact htε) ht
  rw [zero_add, smul_eq_mul, zero_smul, add_zero] at this
  have h0 := inv_pos.2 ht
  nlinarith

/-- C98: the estimate stays where it is exactly if it is a critical point of the nonlinear cost. -/
theorem C98_stationary (bld : Build) (hm : 0 < m) (hf : f.asRegular.Reps x A P Q) (ho : o.asRegular.Reps H z R)
    (hP : P.PosDef) (hR : R.PosDef) (hc : Computes c g) (hg : Spec.IsDerivative g H x) (st : σ) :
    ∃ st' f' o' x' P', f.correctNonlinear bld o c st = .ok (st', f', o') ∧ f'.asRegular.Reps x' A P' Q ∧
      (x' = x ↔ ∀ d, HasDerivAt (fun t : ℝ => Spec.misfit P R (x + t • d - x) (z - g (x + t • d))) 0 0) := by
  obtain ⟨st', f', o', h1, h2, _, _⟩ := xcorrect_computes bld hm hf ho (innovCov_pd hP.posSemidef hR) hc st
  refine ⟨st', f', o', _, _, h1, h2, ?_⟩
  have hn := normal_equations (H := H) hP hR (z - g x)
  constructor
  · intro h d
    have h0 : Spec.gain H P R *ᵥ (z - g x) = 0 := by simpa using h
    have := cost_deriv hP hR hg z d
    rwa [← hn, h0, Matrix.mulVec_zero, dotProduct_zero, mul_zero, neg_zero] at this
  · intro h
    have h1 := (h (Spec.gain H P R *ᵥ (z - g x))).unique (cost_deriv hP hR hg z _)
    rw [← hn, ← information hP hR] at h1
    by_contra hne
    have hne : Spec.gain H P R *ᵥ (z - g x) ≠ 0 := fun h => hne (by rw [h, add_zero])
    have hpos := (corrP_pd (H := H) hP hR).inv.dotProduct_mulVec_pos (x := Spec.gain H P R *ᵥ (z - g x)) hne
    simp only [star_trivial] at hpos
    linarith

/-- C98: more prior uncertainty and more measurement noise never give less reported uncertainty. The two filters may hold different
estimates and measurements, and their closures may compute different functions. -/
theorem C98_monotone (bld bld' : Build) {f₂ : ExtendedKalman n ℝ} {o₂ : ExtendedObservation n m ℝ} {x₂ P₂ A₂ Q₂ z₂ R₂}
    {c₂ : σ → Mat n 1 ℝ → Mat m 1 ℝ → Res (σ × Mat m 1 ℝ)} {g₂ : (Fin n → ℝ) → Fin m → ℝ} (hm : 0 < m)
    (hf : f.asRegular.Reps x A P Q) (hf₂ : f₂.asRegular.Reps x₂ A₂ P₂ Q₂) (ho : o.asRegular.Reps H z R)
    (ho₂ : o₂.asRegular.Reps H z₂ R₂) (hP : P.PosSemidef) (hR : R.PosDef) (hPP : (P₂ - P).PosSemidef) (hRR : (R₂ - R).PosSemidef)
    (hc : Computes c g) (hc₂ : Computes c₂ g₂) (st st₂ : σ) :
    ∃ a f' o' x' P' a₂ f₂' o₂' x₂' P₂', f.correctNonlinear bld o c st = .ok (a, f', o') ∧ f'.asRegular.Reps x' A P' Q ∧
      f₂.correctNonlinear bld' o₂ c₂ st₂ = .ok (a₂, f₂', o₂') ∧ f₂'.asRegular.Reps x₂' A₂ P₂' Q₂ ∧ (P₂' - P').PosSemidef := by
  have hP₂ : P₂.PosSemidef := by
    have := hP.add hPP
    rwa [add_sub_cancel] at this
  have hR₂ : R₂.PosDef := by
    have := hR.add_posSemidef hRR
    rwa [add_sub_cancel] at this
  have hS := innovCov_pd (H := H) hP hR
  have hS₂ := innovCov_pd (H := H) hP₂ hR₂
  obtain ⟨a, f', o', h1, h2, _⟩ := xcorrect_computes bld hm hf ho hS hc st
  obtain ⟨a₂, f₂', o₂', k1, k2, _⟩ := xcorrect_computes bld' hm hf₂ ho₂ hS₂ hc₂ st₂
  exact ⟨a, f', o', _, _, a₂, f₂', o₂', _, _, h1, h2, k1, k2,
    corrP_mono (psd_symm hP) (psd_symm hP₂) (pd_symm hR) (pd_symm hR₂) hS hS₂ hPP hRR⟩

namespace Ex

omit [MDT ℝ] [ExactReal] in
/-- The Jacobian that `xops` supplies for the first measurement of `meas` is right if the estimate is `(1, b)`. -/
theorem meas_jacobian (b : ℝ) : Spec.IsDerivative (meas 1) !![2, 1] ![1, b] := by
  unfold Spec.IsDerivative
  rw [hasFDerivAt_pi']
  intro i
  have h0 : HasFDerivAt (fun x : Fin 2 → ℝ => x 0) (ContinuousLinearMap.proj 0 : (Fin 2 → ℝ) →L[ℝ] ℝ) ![1, b] :=
    (ContinuousLinearMap.proj 0 : (Fin 2 → ℝ) →L[ℝ] ℝ).hasFDerivAt
  have h1 : HasFDerivAt (fun x : Fin 2 → ℝ => x 1) (ContinuousLinearMap.proj 1 : (Fin 2 → ℝ) →L[ℝ] ℝ) ![1, b] :=
    (ContinuousLinearMap.proj 1 : (Fin 2 → ℝ) →L[ℝ] ℝ).hasFDerivAt
  refine ((h0.mul h0).add h1).congr_fderiv ?_
  ext v
  fin_cases i
  simp [dotProduct, Fin.sum_univ_two]
  ring

end Ex

/-- A filter, a sensor and a nonlinear function with its Jacobian, where the step is not zero. -/
example : (Ex.filter ℝ).asExtended.asRegular.Reps ![1, 2] !![1, 1; 0, 1] !![1, 0; 0, 1] !![1, 0; 0, 2] ∧
    ({ Ex.obs ℝ with H := ⟨[2, 1]⟩ } : RegularObservation 2 1 ℝ).asExtended.asRegular.Reps !![2, 1] ![5] !![3] ∧
    (!![1, 0; 0, 1] : Matrix (Fin 2) (Fin 2) ℝ).PosDef ∧ (!![3] : Matrix (Fin 1) (Fin 1) ℝ).PosDef ∧
    Computes (σ := Unit) (closureOf (Ex.meas 1)) (Ex.meas 1) ∧ Spec.IsDerivative (Ex.meas 1) !![2, 1] ![1, 2] ∧
    (![5] : Fin 1 → ℝ) ≠ Ex.meas 1 ![1, 2] := by
  have h := Ex.obs_reps ℝ
  refine ⟨Ex.filter_reps ℝ, ⟨?_, h.z, h.R, h.y, h.S, h.K, h.tempSInv, h.tempHP, h.tempPHt, h.tempKHP⟩, ?_, ?_,
    computes_closureOf _, Ex.meas_jacobian 2, ?_⟩
  · intro i j
    fin_cases i; fin_cases j <;> rfl
  · rw [show (!![1, 0; 0, 1] : Matrix (Fin 2) (Fin 2) ℝ) = 1 by ext i j; fin_cases i <;> fin_cases j <;> rfl]
    exact Matrix.PosDef.one
  · rw [show (!![3] : Matrix (Fin 1) (Fin 1) ℝ) = Matrix.diagonal fun _ => 3 by
      ext i j; fin_cases i; fin_cases j; rfl]
    exact Matrix.PosDef.diagonal fun _ => by norm_num
  · intro h
    have := congrFun h 0
    simp [Ex.meas] at this
    norm_num at this

namespace Ex

/-- One state `1/10` of variance `1`. -/
def squareFilter : ExtendedKalman 1 ℚ where
  x := ⟨[1/10]⟩
  A := ⟨[1]⟩
  P := ⟨[1]⟩
  Q := ⟨[0]⟩
  predictedX := ⟨[0]⟩
  tempP := ⟨[0]⟩

/-- A sensor for the square of the state that measured `1`, with noise of variance `1/20`; `H` is the derivative at `1/10`. -/
def squareObs : ExtendedObservation 1 1 ℚ where
  H := ⟨[1/5]⟩
  z := ⟨[1]⟩
  R := ⟨[1/20]⟩
  y := ⟨[0]⟩
  S := ⟨[0]⟩
  K := ⟨[0]⟩
  tempSInv := ⟨[0]⟩
  tempHP := ⟨[0]⟩
  tempPHt := ⟨[0]⟩
  tempKHP := ⟨[0]⟩

/-- `|x, y| y[0] = x[0] * x[0]`. -/
def gnSquare {m : Nat} (st : Unit) (x : Mat 1 1 ℚ) (out : Mat m 1 ℚ) : Res (Unit × Mat m 1 ℚ) := do
  let v ← x.get 0 0
  let out ← out.set 0 0 (v * v)
  pure (st, out)

/-- `|x, y| y[0] = x[0]`. -/
def same {m : Nat} (st : Unit) (x : Mat 1 1 ℚ) (out : Mat m 1 ℚ) : Res (Unit × Mat m 1 ℚ) := do
  let v ← x.get 0 0
  let out ← out.set 0 0 v
  pure (st, out)

/-- The estimate `0` of variance `1`, a sensor for the square that measured `9` and a sensor for the state itself that measured `4`. -/
def squareWorld : XWorld 1 ℚ Unit where
  kf := { squareFilter with x := ⟨[0]⟩ }
  obs := [⟨1, { squareObs with z := ⟨[9]⟩, R := ⟨[1]⟩ }⟩, ⟨1, { squareObs with H := ⟨[1]⟩, z := ⟨[4]⟩, R := ⟨[3]⟩ }⟩]
  env := ()

end Ex

omit [MDT ℝ] [ExactReal] in
/-- C98, a trap: the full step can overshoot. With the right Jacobian, the measurement `1` of the square of the state moves the estimate
from `1/10` (square `1/100`) to `23/10` (square `5.29`), while the reported variance drops from `1` to `5/9`: the disagreement with
the measurement has become more than four times as large, and the filter is more confident than before. -/
theorem C98_overshoot : ∃ f' o', Ex.squareFilter.correctNonlinear ⟨true, false⟩ Ex.squareObs Ex.gnSquare () = .ok ((), f', o') ∧
    f'.x = ⟨[23/10]⟩ ∧ f'.P = ⟨[5/9]⟩ ∧ 4 * |1 - (1/10 : ℚ) ^ 2| < |1 - (23/10 : ℚ) ^ 2| := by
  refine ⟨{ Ex.squareFilter with x := ⟨[23/10]⟩, P := ⟨[5/9]⟩ },
    { Ex.squareObs with y := ⟨[99/100]⟩, S := ⟨[3/10]⟩, K := ⟨[20/9]⟩, tempSInv := ⟨[100/9]⟩, tempHP := ⟨[1/5]⟩,
                        tempPHt := ⟨[1/5]⟩, tempKHP := ⟨[4/9]⟩ }, by decide +kernel, rfl, rfl, ?_⟩
  rw [abs_of_pos (by norm_num), abs_of_neg (by norm_num)]
  norm_num

omit [MDT ℝ] [ExactReal] in
/-- C98: unlike for the regular filter (C43, C75), the order of two independent nonlinear corrections matters. Sensor `0` measures the
square of the state, sensor `1` the state; both orders supply the right Jacobian (twice the current estimate) before correcting with
sensor `0`. One order ends with the estimate `1` of variance `3/4`, the other with `4` of variance `3/16`. -/
theorem C98_order_matters :
    (Ex.squareWorld.run ⟨true, false⟩ [.assign (.H 0 [0]), .correct 0 fun _ => Ex.gnSquare, .correct 1 fun _ => Ex.same]).map
        (fun w => (w.kf.x.data, w.kf.P.data)) = .ok ([1], [3/4]) ∧
      (Ex.squareWorld.run ⟨true, false⟩ [.correct 1 fun _ => Ex.same, .assign (.H 0 [2]), .correct 0 fun _ => Ex.gnSquare]).map
        (fun w => (w.kf.x.data, w.kf.P.data)) = .ok ([4], [3/16]) ∧
      (Ex.squareWorld.run ⟨true, false⟩ [.correct 1 fun _ => Ex.same]).map (fun w => w.kf.x.data) = .ok [1] := by
  decide +kernel

end Minikalman
