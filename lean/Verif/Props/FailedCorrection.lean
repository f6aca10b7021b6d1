import Verif.Proofs.FailedCorrection
import Verif.Props.ExtendedSteps

/-!
# C103: what a correction computes when the innovation covariance is not positive definite

`correct` ignores the Boolean of the decomposition (C25) and goes on with the matrix as the decomposition left it. The theorems say,
for exact arithmetic, what this amounts to: a correction with a made-up innovation covariance.
-/

namespace Minikalman

open Matrix

variable {n m : Nat}

/-- C103: for every symmetric matrix that is not positive definite there is exactly one pivot at which the decomposition gives up and
exactly one matrix it leaves. The pivot is where the leading blocks cease to be positive definite. -/
theorem C103_stopped_unique {S : Matrix (Fin m) (Fin m) ℝ} (hm : 0 < m) (hS : S.IsSymm) :
    (¬ S.PosDef ↔ ∃ p W, Spec.Stopped S p W) ∧
    (∀ {p q W V}, Spec.Stopped S p W → Spec.Stopped S q V → p = q ∧ W = V) ∧
    ∀ {p W}, Spec.Stopped S p W → (Spec.leading S p.2.le).PosDef ∧ ¬ (Spec.leading S (show p.1 + 1 ≤ m from p.2)).PosDef := by
  refine ⟨⟨fun h => ?_, fun ⟨p, W, h⟩ => stopped_not_posDef h⟩, stopped_unique, fun h =>
    ⟨leading_posDef hS h, stopped_not_posDef (stopped_leading h)⟩⟩
  let _ := panickingReal
  have _ := panickingReal_exact
  obtain ⟨_, p, W, _, _, h1, _⟩ := chol_stopped ⟨true, false⟩ hm hS (rowMajor_reps S) h
  exact ⟨p, W, h1⟩

section Real

variable [MDT ℝ] [ExactReal]

/-- C103: a correction whose innovation covariance is not positive definite does exactly what a correction with the innovation
covariance `W Wᵀ` would do, where `W` is what the decomposition left, provided `W` has no zero on its diagonal: it returns
normally, with `x + K y` and `P - K H P` for the gain `K = P Hᵀ (W Wᵀ)⁻¹`. -/
theorem C103_failed_correction (bld : Build) {f : RegularKalman n ℝ} {o : RegularObservation n m ℝ} {x A P Q H z R} (hn : 0 < n)
    (hm : 0 < m) (hf : f.Reps x A P Q) (ho : o.Reps H z R) (hP : P.IsSymm) (hR : R.IsSymm)
    {p W} (hW : Spec.Stopped (Spec.innovCov H P R) p W) (hd : ∀ i, W i i ≠ 0) :
    ∃ f' o', f.correct bld o = .ok (f', o') ∧ o'.Reps H z R ∧ o'.K.Reps (P * Hᵀ * (W * Wᵀ)⁻¹) ∧
      f'.Reps (x + (P * Hᵀ * (W * Wᵀ)⁻¹) *ᵥ (z - H *ᵥ x)) A (P - P * Hᵀ * (W * Wᵀ)⁻¹ * (H * P)) Q := by
  have hov := ho.valid
  obtain ⟨y1, y2, h1, h2, h3, h4⟩ := innovation_any hn hov ho.H ho.z hf.x
  rw [mulVecSeq_eq_mulVec] at h3
  have hsym : (H * P * Hᵀ + R).IsSymm := by
    unfold Matrix.IsSymm
    rw [Matrix.transpose_add, Matrix.transpose_mul, Matrix.transpose_mul, Matrix.transpose_transpose, hP, hR, Matrix.mul_assoc]
  obtain ⟨o', x', P', r1, fr, r2, r3, r4, _, r5, r6, r7⟩ := update_left bld (o := { o with y := y2 }) hm (obs_with_y_valid hov h4)
    ho.H ho.R hf.P hf.x h3 hsym (stopped_not_posDef hW) hW hd
  refine ⟨{ f with x := x', P := P' }, o', ?_, fr.reps ⟨ho.H, ho.z, ho.R, h4.valid ho.y, ho.S, ho.K, ho.tempSInv, ho.tempHP, ho.tempPHt, ho.tempKHP⟩, r5,
    ⟨r6, hf.A, r7, hf.Q, hf.predictedX, hf.tempP⟩⟩
  unfold RegularKalman.correct RegularObservation.correct
  simp only [h1, h2, res_bind_ok, r1]
  rfl

/-- C103: if what the decomposition left has a zero on its diagonal – always so if the very first pivot fails – and division by zero
panics, as in the fixed point types, then the correction panics, and `x` and `P` stay as they were (C67). -/
theorem C103_zero_pivot_panics (bld : Build) {f : RegularKalman n ℝ} {o : RegularObservation n m ℝ} {x A P Q H z R} (hn : 0 < n)
    (hm : 0 < m) (hf : f.Reps x A P Q) (ho : o.Reps H z R) (hP : P.IsSymm) (hR : R.IsSymm)
    {p W} (hW : Spec.Stopped (Spec.innovCov H P R) p W) (hd : p.1 = 0 ∨ ∃ i, W i i = 0)
    {e : Panic} (he : MDT.recip (0 : ℝ) = .error e) (hother : ∀ e', ScalarPanic ℝ e' → e' = e) :
    f.correct bld o = .error e := by
  have hov := ho.valid
  obtain ⟨y1, y2, h1, h2, h3, h4⟩ := innovation_any hn hov ho.H ho.z hf.x
  have hsym : (H * P * Hᵀ + R).IsSymm := by
    unfold Matrix.IsSymm
    rw [Matrix.transpose_add, Matrix.transpose_mul, Matrix.transpose_mul, Matrix.transpose_transpose, hP, hR, Matrix.mul_assoc]
  obtain ⟨i, hi⟩ : ∃ i, W i i = 0 := hd.elim (fun h0 => ⟨p, hW.first h0⟩) id
  have := update_left_zero bld (o := { o with y := y2 }) (x := f.x) hm (obs_with_y_valid hov h4) ho.H ho.R hf.P hsym (stopped_not_posDef hW) hW hi he hother
  unfold RegularKalman.correct RegularObservation.correct
  simp only [h1, h2, res_bind_ok, this]
  rfl

/-- C103 for the extended filter: the same with the innovation `z - g x`. -/
theorem C103_extended {σ : Type} (bld : Build) {f : ExtendedKalman n ℝ} {o : ExtendedObservation n m ℝ} {x A P Q H z R} (hm : 0 < m)
    (hf : f.asRegular.Reps x A P Q) (ho : o.asRegular.Reps H z R) (hP : P.IsSymm) (hR : R.IsSymm)
    {c : σ → Mat n 1 ℝ → Mat m 1 ℝ → Res (σ × Mat m 1 ℝ)} {g : (Fin n → ℝ) → Fin m → ℝ} (hc : Computes c g) (st : σ)
    {p W} (hW : Spec.Stopped (Spec.innovCov H P R) p W) :
    ((∀ i, W i i ≠ 0) → ∃ st' f' o', f.correctNonlinear bld o c st = .ok (st', f', o') ∧ o'.asRegular.Reps H z R ∧
      o'.K.Reps (P * Hᵀ * (W * Wᵀ)⁻¹) ∧
      f'.asRegular.Reps (x + (P * Hᵀ * (W * Wᵀ)⁻¹) *ᵥ (z - g x)) A (P - P * Hᵀ * (W * Wᵀ)⁻¹ * (H * P)) Q) ∧
    ∀ e : Panic, MDT.recip (0 : ℝ) = .error e → (∀ e', ScalarPanic ℝ e' → e' = e) → (p.1 = 0 ∨ ∃ i, W i i = 0) →
      f.correctNonlinear bld o c st = .error e := by
  have hsym : (H * P * Hᵀ + R).IsSymm := by
    unfold Matrix.IsSymm
    rw [Matrix.transpose_add, Matrix.transpose_mul, Matrix.transpose_mul, Matrix.transpose_transpose, hP, hR, Matrix.mul_assoc]
  obtain ⟨st', out, h1, h2, h3⟩ := hc st f.x o.y x hf.x ho.y
  obtain ⟨y', k1, k2, k3, k4⟩ := y_after (o := o.asRegular) ho.valid h3 ho.z h2
  refine ⟨fun hd => ?_, fun e he hother hd => ?_⟩
  · obtain ⟨o', x', P', r1, r2, r3, r4, r5, _, r6, r7, r8⟩ := update_left bld (o := { o.asRegular with y := y' }) hm k4 ho.H ho.R hf.P
      hf.x k2 hsym (stopped_not_posDef hW) hW hd
    have ho2 := (frame_of_y (o := o.asRegular) k3 ho.valid r2).1
    refine ⟨st', { f with x := x', P := P' }, o'.asExtended, ?_, ⟨r2.H ▸ ho.H, r2.z ▸ ho.z, r2.R ▸ ho.R, ho2.y, ho2.S, ho2.K,
      ho2.tempSInv, ho2.tempHP, ho2.tempPHt, ho2.tempKHP⟩, r6, ⟨r7, hf.A, r8, hf.Q, hf.predictedX, hf.tempP⟩⟩
    rw [xcorrect_run bld h1 k1]
    have r1' : ({ o with y := y' } : ExtendedObservation n m ℝ).asRegular.updateWithInnovation bld f.x f.P =
      .ok (o', x', P') := r1
    rw [r1']; rfl
  · obtain ⟨i, hi⟩ : ∃ i, W i i = 0 := hd.elim (fun h0 => ⟨p, hW.first h0⟩) id
    have := update_left_zero bld (o := { o.asRegular with y := y' }) (x := f.x) hm k4 ho.H ho.R hf.P hsym (stopped_not_posDef hW) hW hi
      he hother
    have r1' : ({ o with y := y' } : ExtendedObservation n m ℝ).asRegular.updateWithInnovation bld f.x f.P = .error e := this
    rw [xcorrect_run bld h1 k1, r1']; rfl

end Real

/-- C103: the made-up innovation covariance is positive definite, so it is not the true one, and nothing in the result gives the
failure away: the new covariance is symmetric and not larger than the old one, just as after a proper correction. -/
theorem C103_looks_proper {S W : Matrix (Fin m) (Fin m) ℝ} {p : Fin m} {P : Matrix (Fin n) (Fin n) ℝ} (H : Matrix (Fin m) (Fin n) ℝ)
    (hW : Spec.Stopped S p W) (hd : ∀ i, W i i ≠ 0) (hP : P.IsSymm) :
    (W * Wᵀ).PosDef ∧ W * Wᵀ ≠ S ∧ (P - P * Hᵀ * (W * Wᵀ)⁻¹ * (H * P)).IsSymm ∧
      (P - (P - P * Hᵀ * (W * Wᵀ)⁻¹ * (H * P))).PosSemidef := by
  have hpd : (W * Wᵀ).PosDef := posDef_of_factor (isUnit_of_lower hW.above hd)
  have e : P * Hᵀ * (W * Wᵀ)⁻¹ * (H * P) = (H * P)ᵀ * (W * Wᵀ)⁻¹ * (H * P) := by rw [Matrix.transpose_mul, hP]
  have hs : ((W * Wᵀ)⁻¹)ᵀ = (W * Wᵀ)⁻¹ := by
    rw [Matrix.transpose_nonsing_inv, Matrix.transpose_mul, Matrix.transpose_transpose]
  refine ⟨hpd, fun h => stopped_not_posDef hW (h ▸ hpd), ?_, ?_⟩
  · unfold Matrix.IsSymm
    rw [e, Matrix.transpose_sub, hP]
    congr 1
    generalize H * P = Y
    rw [Matrix.transpose_mul, Matrix.transpose_mul, Matrix.transpose_transpose, hs, Matrix.mul_assoc]
  · rw [sub_sub_cancel, e]
    have := hpd.inv.posSemidef.conjTranspose_mul_mul_same (H * P)
    rwa [Matrix.conjTranspose_eq_transpose_of_trivial] at this

/-! ## Non-vacuity -/

namespace Ex

/-- Two sensors, whose second has a negative "variance". -/
def badS : Matrix (Fin 2) (Fin 2) ℝ := !![4, 2; 2, -1]

/-- What the decomposition of `badS` leaves: the first column of the factor, and `(-1 - 1) / 2` at the second pivot. -/
def badW : Matrix (Fin 2) (Fin 2) ℝ := !![2, 0; 1, -1]

theorem bad_stopped : Spec.Stopped badS 1 badW where
  above i j h := by fin_cases i <;> fin_cases j <;> first | rfl | exact absurd h (by decide)
  pivots j h := by fin_cases j <;> [norm_num [badW]; exact absurd h (by decide)]
  columns i j h hij := by
    fin_cases j
    · fin_cases i <;> norm_num [badW, badS, Matrix.mul_apply, Fin.sum_univ_two]
    · exact absurd h (by decide)
  left := by norm_num [badW, badS, Finset.sum_filter, Fin.sum_univ_two]
  first h := absurd h (by decide)
  later q h := by
    fin_cases q
    · norm_num [badW, badS, Finset.sum_filter, Fin.sum_univ_two]
    · exact absurd h (by decide)
  rest i j h hij hne := by
    fin_cases j
    · exact absurd h (by decide)
    · fin_cases i
      · exact absurd hij (by decide)
      · exact absurd ⟨rfl, rfl⟩ hne

/-- `badS` is symmetric and not positive definite, and the matrix left has no zero on its diagonal. -/
example : badS.IsSymm ∧ ¬ badS.PosDef ∧ (∀ i, badW i i ≠ 0) ∧ badW * badWᵀ = !![4, 2; 2, 2] := by
  refine ⟨?_, stopped_not_posDef bad_stopped, fun i => ?_, ?_⟩
  · ext i j; fin_cases i <;> fin_cases j <;> rfl
  · fin_cases i <;> norm_num [badW]
  · ext i j; fin_cases i <;> fin_cases j <;> norm_num [badW, Matrix.mul_apply, Fin.sum_univ_two]

/-- A filter with unit covariance at the origin. -/
noncomputable def badFilter : RegularKalman 2 ℝ where
  x := ⟨Spec.rowMajor (!![0; 0] : Matrix (Fin 2) (Fin 1) ℝ)⟩
  A := ⟨Spec.rowMajor (1 : Matrix (Fin 2) (Fin 2) ℝ)⟩
  P := ⟨Spec.rowMajor (1 : Matrix (Fin 2) (Fin 2) ℝ)⟩
  Q := ⟨Spec.rowMajor (0 : Matrix (Fin 2) (Fin 2) ℝ)⟩
  predictedX := ⟨[0, 0]⟩
  tempP := ⟨[0, 0, 0, 0]⟩

/-- An observation of both states with the noise "covariance" `[3, 2; 2, -2]`. -/
noncomputable def badObservation : RegularObservation 2 2 ℝ where
  H := ⟨Spec.rowMajor (1 : Matrix (Fin 2) (Fin 2) ℝ)⟩
  z := ⟨[1, 1]⟩
  R := ⟨Spec.rowMajor (!![3, 2; 2, -2] : Matrix (Fin 2) (Fin 2) ℝ)⟩
  y := ⟨[0, 0]⟩
  S := ⟨[0, 0, 0, 0]⟩
  K := ⟨[0, 0, 0, 0]⟩
  tempSInv := ⟨[0, 0, 0, 0]⟩
  tempHP := ⟨[0, 0, 0, 0]⟩
  tempPHt := ⟨[0, 0, 0, 0]⟩
  tempKHP := ⟨[0, 0, 0, 0]⟩

theorem badFilter_reps : badFilter.Reps (fun _ => 0) 1 1 0 where
  x i := by fin_cases i <;> rfl
  A := rowMajor_reps 1
  P := rowMajor_reps 1
  Q := rowMajor_reps 0
  predictedX := by decide
  tempP := by decide

theorem badObservation_reps : badObservation.Reps 1 (fun _ => 1) !![3, 2; 2, -2] where
  H := rowMajor_reps 1
  z i := by fin_cases i <;> rfl
  R := rowMajor_reps _
  y := by decide
  S := by decide
  K := by decide
  tempSInv := by decide
  tempHP := by decide
  tempPHt := by decide
  tempKHP := by decide

theorem badS_eq : Spec.innovCov (1 : Matrix (Fin 2) (Fin 2) ℝ) 1 !![3, 2; 2, -2] = badS := by
  ext i j
  fin_cases i <;> fin_cases j <;> norm_num [Spec.innovCov, badS]

/-- The hypotheses of `C103_failed_correction` are met: this correction returns normally, although `S = [4, 2; 2, -1]`, and uses the
gain `[4, 2; 2, 2]⁻¹`. -/
example (bld : Build) [MDT ℝ] [ExactReal] :
    ∃ f' o', badFilter.correct bld badObservation = .ok (f', o') ∧ o'.K.Reps (!![4, 2; 2, 2] : Matrix (Fin 2) (Fin 2) ℝ)⁻¹ := by
  have hsR : (!![3, 2; 2, -2] : Matrix (Fin 2) (Fin 2) ℝ).IsSymm := by ext i j; fin_cases i <;> fin_cases j <;> rfl
  obtain ⟨f', o', h1, _, h2, _⟩ := C103_failed_correction bld (by decide) (by decide) badFilter_reps badObservation_reps
    Matrix.transpose_one hsR (badS_eq ▸ bad_stopped) (fun i => by fin_cases i <;> norm_num [badW])
  have e : badW * badWᵀ = !![4, 2; 2, 2] := by
    ext i j; fin_cases i <;> fin_cases j <;> norm_num [badW, Matrix.mul_apply, Fin.sum_univ_two]
  rw [Matrix.one_mul, Matrix.transpose_one, Matrix.one_mul, e] at h2
  exact ⟨f', o', h1, h2⟩

/-- The hypotheses of `C103_zero_pivot_panics` are met by real numbers that panic where the fixed point types do. -/
example : @MDT.recip ℝ panickingReal 0 = .error .arithmetic ∧ ∀ e', @ScalarPanic ℝ panickingReal e' → e' = .arithmetic := by
  refine ⟨by simp [MDT.recip], fun e' h => ?_⟩
  rcases h with ⟨x, h | h⟩
  · simp only [MDT.recip] at h
    split at h <;> cases h; rfl
  · simp only [MDT.squareRoot] at h
    split at h <;> cases h; rfl

end Ex

end Minikalman
