import Verif.Proofs.ExtendedHistory
import Verif.Spec.Examples
import Verif.Proofs.Riccati

/-!
# Property C72: the single steps of the extended filter

What one call of `predict_nonlinear`, `predict_tuned_nonlinear` and `correct_nonlinear` computes, in terms of what the
user's closure wrote in that call.
-/

set_option linter.unusedSectionVars false

namespace Minikalman

open Matrix

variable {T σ : Type} {n m : Nat}

/-- C72: `predict_nonlinear` with a closure that turns the prediction buffer into one holding `x'`: the state is `x'`, the
covariance `A P Aᵀ + Q`, and `A` and `Q` are kept; in any commutative ring. -/
theorem C72_predict_nonlinear [CommRing T] [MDT T] {f : ExtendedKalman n T} {x x' : Fin n → T}
    {A P Q : Matrix (Fin n) (Fin n) T} (hn : 0 < n) (hf : f.asRegular.Reps x A P Q)
    {g : σ → Mat n 1 T → Mat n 1 T → Res (σ × Mat n 1 T)} {st st' : σ} {out : Mat n 1 T}
    (hg : g st f.x f.predictedX = .ok (st', out)) (hl : out.data.length = f.predictedX.data.length) (hx : out.RepsV x') :
    ∃ f', f.predictNonlinear g st = .ok (st', f') ∧ f'.asRegular.Reps x' A (A * P * Aᵀ + Q) Q ∧
      f'.predictedX = out ∧ f'.A = f.A ∧ f'.Q = f.Q ∧ f.x.SameTail f'.x ∧ f.P.SameTail f'.P ∧ f.tempP.SameTail f'.tempP := by
  obtain ⟨f', k1, k2, k3, k4, k5, k6, k7, k8, k9⟩ := xpredict_run hn hf.valid hg hl hx hf.A hf.P hf.Q
  rw [mulSeq_eq_mul, mulSeq_eq_mul] at k3
  have hp : f'.predictedX.Valid := by
    rw [k4]
    exact (show n * 1 ≤ f.predictedX.data.length from hf.predictedX).trans_eq hl.symm
  refine ⟨f', k1, ⟨k2, ?_, k3, ?_, hp, k9.valid hf.tempP⟩, k4, k5, k6, k7, k8, k9⟩
  · show f'.A.Reps _
    rw [k5]; exact hf.A
  · show f'.Q.Reps _
    rw [k6]; exact hf.Q

/-- C72 for `predict_tuned_nonlinear`: the covariance is `λ⁻² A P Aᵀ + Q`. -/
theorem C72_predict_tuned_nonlinear [Field T] [MDT T] [ExactField T] {f : ExtendedKalman n T} {x x' : Fin n → T}
    {A P Q : Matrix (Fin n) (Fin n) T} (hn : 0 < n) (hf : f.asRegular.Reps x A P Q) {lambda : T} (hlam : lambda ≠ 0)
    {g : σ → Mat n 1 T → Mat n 1 T → Res (σ × Mat n 1 T)} {st st' : σ} {out : Mat n 1 T}
    (hg : g st f.x f.predictedX = .ok (st', out)) (hl : out.data.length = f.predictedX.data.length) (hx : out.RepsV x') :
    ∃ f', f.predictTunedNonlinear lambda g st = .ok (st', f') ∧
      f'.asRegular.Reps x' A ((lambda ^ 2)⁻¹ • (A * P * Aᵀ) + Q) Q ∧
      f'.predictedX = out ∧ f'.A = f.A ∧ f'.Q = f.Q ∧ f.x.SameTail f'.x ∧ f.P.SameTail f'.P ∧ f.tempP.SameTail f'.tempP := by
  obtain ⟨f', k1, k2, k3, k4, k5, k6, k7, k8, k9⟩ := xpredictTuned_run hn hf.valid lambda
    (ExactField.recip_eq _ (mul_ne_zero hlam hlam)) hg hl hx hf.A hf.P hf.Q
  rw [mulSeq_eq_mul, mulSeq_eq_mul] at k3
  have hp : f'.predictedX.Valid := by
    rw [k4]
    exact (show n * 1 ≤ f.predictedX.data.length from hf.predictedX).trans_eq hl.symm
  refine ⟨f', k1, ⟨k2, ?_, ?_, ?_, hp, k9.valid hf.tempP⟩, k4, k5, k6, k7, k8, k9⟩
  · show f'.A.Reps _
    rw [k5]; exact hf.A
  · show f'.P.Reps _
    convert k3 using 1
    ext i j
    simp [pow_two, mul_comm]
  · show f'.Q.Reps _
    rw [k6]; exact hf.Q

/-- C72: `correct_nonlinear` with a closure that turns the innovation buffer into one holding the expected measurement
`h`, and positive definite `S = H P Hᵀ + R`: with `K = P Hᵀ S⁻¹` the state is `x + K (z - h)`, the covariance `P - K H P`;
`A`, `Q`, `H`, `z`, `R` are kept. Afterwards the observation holds the innovation `z - h`, the Cholesky factor of `S`,
`S⁻¹` and `K`. -/
theorem C72_correct_nonlinear [MDT ℝ] [ExactReal] (bld : Build) {f : ExtendedKalman n ℝ} {o : ExtendedObservation n m ℝ}
    {x : Fin n → ℝ} {A P Q : Matrix (Fin n) (Fin n) ℝ} {H : Matrix (Fin m) (Fin n) ℝ} {z e : Fin m → ℝ}
    {R S : Matrix (Fin m) (Fin m) ℝ} {K : Matrix (Fin n) (Fin m) ℝ} (hm : 0 < m)
    (hf : f.asRegular.Reps x A P Q) (ho : o.asRegular.Reps H z R) (hS : S = H * P * Hᵀ + R) (hpd : S.PosDef)
    (hK : K = P * Hᵀ * S⁻¹)
    {h : σ → Mat n 1 ℝ → Mat m 1 ℝ → Res (σ × Mat m 1 ℝ)} {st st' : σ} {out : Mat m 1 ℝ}
    (hh : h st f.x o.y = .ok (st', out)) (hl : out.data.length = o.y.data.length) (he : out.RepsV e) :
    ∃ f' o', f.correctNonlinear bld o h st = .ok (st', f', o') ∧
      f'.asRegular.Reps (x + K *ᵥ (z - e)) A (P - K * H * P) Q ∧ f' = { f with x := f'.x, P := f'.P } ∧
      o'.asRegular.Reps H z R ∧ o'.H = o.H ∧ o'.z = o.z ∧ o'.R = o.R ∧ o'.y.RepsV (z - e) ∧
      (∃ L : Matrix (Fin m) (Fin m) ℝ, o'.S.Reps L ∧ (∀ i j, i < j → L i j = 0) ∧ (∀ i, 0 < L i i) ∧ L * Lᵀ = S) ∧
      o'.tempSInv.Reps S⁻¹ ∧ S * S⁻¹ = 1 ∧ o'.K.Reps K ∧ f.x.SameTail f'.x ∧ f.P.SameTail f'.P := by
  subst hS hK
  obtain ⟨y', k1, k2, k3, k4⟩ := y_after (o := o.asRegular) ho.valid hl ho.z he
  obtain ⟨o', x', P', r1, r2, r3, r4, r5, r8, r9, r10, _, _, _, r6, r7⟩ :=
    update_exact bld (o := { o.asRegular with y := y' }) hm k4 ho.H ho.R hf.P hf.x k2 hpd
  have ho2 := (frame_of_y (o := o.asRegular) k3 ho.valid r2).1
  refine ⟨{ f with x := x', P := P' }, o'.asExtended, ?_, ⟨r6, hf.A, ?_, hf.Q, hf.predictedX, hf.tempP⟩, rfl,
    ⟨r2.H ▸ ho.H, r2.z ▸ ho.z, r2.R ▸ ho.R, ho2.y, ho2.S, ho2.K, ho2.tempSInv, ho2.tempHP, ho2.tempPHt, ho2.tempKHP⟩,
    r2.H, r2.z, r2.R, ?_, r8, r9, Matrix.mul_nonsing_inv _ ((Matrix.isUnit_iff_isUnit_det _).mp hpd.isUnit), r10, r3, r4⟩
  · rw [xcorrect_run bld hh k1]
    have r1' : ({ o with y := y' } : ExtendedObservation n m ℝ).asRegular.updateWithInnovation bld f.x f.P =
      .ok (o', x', P') := r1
    rw [r1']; rfl
  · rw [Matrix.mul_assoc]; exact r7
  · show o'.y.RepsV _
    rw [r5]; exact k2

/-- C72, the inputs of the extended filter are kept by every step that returns, in any arithmetic and with any closure. -/
theorem C72_inputs_kept [Zero T] [One T] [Add T] [Sub T] [Mul T] [Neg T] [MDT T] {f f' : ExtendedKalman n T} {st st' : σ} :
    (∀ g, f.predictNonlinear g st = .ok (st', f') → f'.A = f.A ∧ f'.Q = f.Q) ∧
    (∀ lambda g, f.predictTunedNonlinear lambda g st = .ok (st', f') → f'.A = f.A ∧ f'.Q = f.Q) ∧
    (∀ (bld : Build) (m : Nat) (o o' : ExtendedObservation n m T) h, f.correctNonlinear bld o h st = .ok (st', f', o') →
      f' = { f with x := f'.x, P := f'.P } ∧ o'.H = o.H ∧ o'.z = o.z ∧ o'.R = o.R) := by
  refine ⟨fun g h => ?_, fun lambda g h => ?_, fun bld m o o' hh h => ?_⟩
  · unfold ExtendedKalman.predictNonlinear ExtendedKalman.predictXNonlinear ExtendedKalman.predictP at h
    obtain ⟨⟨_, f1⟩, h1, h⟩ := bind_ok h
    obtain ⟨⟨_, px⟩, _, h1⟩ := bind_ok h1
    obtain ⟨_, _, h1⟩ := bind_ok h1
    cases h1
    obtain ⟨f2, h2, h⟩ := bind_ok h
    cases h
    obtain ⟨_, _, h2⟩ := bind_ok h2
    obtain ⟨_, _, h2⟩ := bind_ok h2
    obtain ⟨_, _, h2⟩ := bind_ok h2
    cases h2; exact ⟨rfl, rfl⟩
  · unfold ExtendedKalman.predictTunedNonlinear ExtendedKalman.predictXNonlinear ExtendedKalman.predictPTuned at h
    obtain ⟨⟨_, f1⟩, h1, h⟩ := bind_ok h
    obtain ⟨⟨_, px⟩, _, h1⟩ := bind_ok h1
    obtain ⟨_, _, h1⟩ := bind_ok h1
    cases h1
    obtain ⟨f2, h2, h⟩ := bind_ok h
    cases h
    obtain ⟨_, _, h2⟩ := bind_ok h2
    obtain ⟨_, _, h2⟩ := bind_ok h2
    obtain ⟨_, _, h2⟩ := bind_ok h2
    obtain ⟨_, _, h2⟩ := bind_ok h2
    cases h2; exact ⟨rfl, rfl⟩
  · unfold ExtendedKalman.correctNonlinear ExtendedObservation.correctNonlinear at h
    obtain ⟨⟨_, o1, _, _⟩, h1, h⟩ := bind_ok h
    cases h
    obtain ⟨_, _, h1⟩ := bind_ok h1
    obtain ⟨_, _, h1⟩ := bind_ok h1
    obtain ⟨⟨o2, _, _⟩, h2, h1⟩ := bind_ok h1
    cases h1
    unfold ExtendedObservation.updateWithInnovation at h2
    obtain ⟨_, _, h2⟩ := bind_ok h2
    obtain ⟨_, _, h2⟩ := bind_ok h2
    obtain ⟨_, _, h2⟩ := bind_ok h2
    obtain ⟨_, _, h2⟩ := bind_ok h2
    obtain ⟨_, _, h2⟩ := bind_ok h2
    obtain ⟨_, _, h2⟩ := bind_ok h2
    obtain ⟨_, _, h2⟩ := bind_ok h2
    obtain ⟨_, _, h2⟩ := bind_ok h2
    obtain ⟨_, _, h2⟩ := bind_ok h2
    obtain ⟨_, _, h2⟩ := bind_ok h2
    obtain ⟨_, _, h2⟩ := bind_ok h2
    cases h2; exact ⟨rfl, rfl, rfl, rfl⟩

/-! The hypotheses are met, for example, by closures that square: `x₀ ↦ x₀² + x₁` and `h(x) = x₀²`. -/

/-- `|x, next| { next[0] = x[0] * x[0] + x[1]; next[1] = x[1]; }` -/
noncomputable def Ex.squareTransition : Unit → Mat 2 1 ℝ → Mat 2 1 ℝ → Res (Unit × Mat 2 1 ℝ) := fun _ x out => do
  let out ← out.indexSet 0 ((← x.index 0) * (← x.index 0) + (← x.index 1))
  let out ← out.indexSet 1 (← x.index 1)
  pure ((), out)

/-- `|x, y| y[0] = x[0] * x[0]` -/
noncomputable def Ex.squareObservation : Unit → Mat 2 1 ℝ → Mat 1 1 ℝ → Res (Unit × Mat 1 1 ℝ) := fun _ x out => do
  let out ← out.indexSet 0 ((← x.index 0) * (← x.index 0))
  pure ((), out)

example : ∃ out, Ex.squareTransition () (Ex.filter ℝ).asExtended.x (Ex.filter ℝ).asExtended.predictedX = .ok ((), out) ∧
    out.data.length = (Ex.filter ℝ).asExtended.predictedX.data.length ∧ out.RepsV ![3, 2] ∧
    (Ex.filter ℝ).asExtended.asRegular.Reps ![1, 2] !![1, 1; 0, 1] !![1, 0; 0, 1] !![1, 0; 0, 2] := by
  refine ⟨⟨[1 * 1 + 2, 2]⟩, rfl, rfl, fun i => ?_, Ex.filter_reps ℝ⟩
  fin_cases i
  · show some _ = some _
    congr 1; norm_num
  · rfl

example : ∃ out, Ex.squareObservation () (Ex.filter ℝ).asExtended.x (Ex.obs ℝ).asExtended.y = .ok ((), out) ∧
    out.data.length = (Ex.obs ℝ).asExtended.y.data.length ∧ out.RepsV ![1] ∧
    (Ex.obs ℝ).asExtended.asRegular.Reps !![1, 0] ![5] !![3] ∧
    (Spec.innovCov !![1, 0] !![1, 0; 0, 1] !![3] : Matrix (Fin 1) (Fin 1) ℝ).PosDef := by
  refine ⟨⟨[1 * 1]⟩, rfl, rfl, fun i => ?_, Ex.obs_reps ℝ, Ex.innovCov_posDef⟩
  fin_cases i
  show some _ = some _
  congr 1; norm_num

end Minikalman
