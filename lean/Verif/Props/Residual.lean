import Verif.Proofs.Residual
import Verif.Props.Float
import Verif.Props.Riccati

/-!
# Properties C80, C81: what a correction does to the measured quantities

C80: in exact arithmetic, what remains of the difference between measurement and estimate after `correct` is the part
`R S⁻¹` of what it was; with a noise-free sensor the estimate reproduces the measurement exactly and no uncertainty about
the measured quantities remains. C81: this is a trap: with floating point numbers, the same noise-free measurement applied again
meets an innovation covariance that is not positive, and the whole estimate becomes infinite or NaN without any error.
-/

namespace Minikalman

open Matrix

variable {fmt : Format} {n m : Nat}

/-! ## C80 -/

/-- C80: `z - H x' = R S⁻¹ (z - H x)`, and the covariances of the measured quantities with the state shrink alike. -/
theorem C80_residual [MDT ℝ] [ExactReal] (bld : Build) {f : RegularKalman n ℝ} {o : RegularObservation n m ℝ}
    {x : Fin n → ℝ} {A P Q : Matrix (Fin n) (Fin n) ℝ} {H : Matrix (Fin m) (Fin n) ℝ} {z : Fin m → ℝ}
    {R S : Matrix (Fin m) (Fin m) ℝ} (hn : 0 < n) (hm : 0 < m) (hf : f.Reps x A P Q) (ho : o.Reps H z R)
    (hS : S = H * P * Hᵀ + R) (hpd : S.PosDef) :
    ∃ f' o' x' P', f.correct bld o = .ok (f', o') ∧ f'.Reps x' A P' Q ∧
      z - H *ᵥ x' = R *ᵥ (S⁻¹ *ᵥ (z - H *ᵥ x)) ∧ H * P' = R * S⁻¹ * (H * P) := by
  subst hS
  obtain ⟨f', o', h1, h2, _⟩ := kcorrect_exact bld hn hm hf ho hpd
  exact ⟨f', o', _, _, h1, h2, residual_x (pd_det hpd) x z, residual_P (pd_det hpd)⟩

/-- C80: a noise-free measurement is reproduced exactly, and leaves no uncertainty about the measured quantities. -/
theorem C80_noise_free [MDT ℝ] [ExactReal] (bld : Build) {f : RegularKalman n ℝ} {o : RegularObservation n m ℝ}
    {x : Fin n → ℝ} {A P Q : Matrix (Fin n) (Fin n) ℝ} {H : Matrix (Fin m) (Fin n) ℝ} {z : Fin m → ℝ}
    (hn : 0 < n) (hm : 0 < m) (hf : f.Reps x A P Q) (ho : o.Reps H z 0) (hpd : (H * P * Hᵀ).PosDef) :
    ∃ f' o' x' P', f.correct bld o = .ok (f', o') ∧ f'.Reps x' A P' Q ∧ H *ᵥ x' = z ∧ H * P' = 0 := by
  obtain ⟨f', o', x', P', h1, h2, h3, h4⟩ := C80_residual bld hn hm hf ho (add_zero _).symm hpd
  refine ⟨f', o', x', P', h1, h2, ?_, ?_⟩
  · rw [Matrix.zero_mulVec, sub_eq_zero] at h3
    exact h3.symm
  · rw [h4, Matrix.zero_mul, Matrix.zero_mul]

/-! ## C81 -/

/-- No call on floating point numbers panics. -/
theorem correct_returns (bld : Build) {f : RegularKalman n (Bin fmt)} {o : RegularObservation n m (Bin fmt)} {x A P Q H z R}
    (hn : 0 < n) (hm : 0 < m) (hf : f.Reps x A P Q) (ho : o.Reps H z R) : ∃ f' o', f.correct bld o = .ok (f', o') := by
  unfold RegularKalman.correct
  rcases correct_safe bld hn hm ho.valid hf.valid.x hf.valid.P with ⟨e, _, h⟩ | ⟨⟨o1, x1, P1⟩, h, _⟩
  · exact absurd h (not_scalarPanic e)
  · exact ⟨_, _, by rw [h]; rfl⟩

/-- C81: with floating point numbers, a `correct` whose innovation covariance `S` (as computed) turns out not to be positive
definite at its first pivot, or at a pivot that is zero, returns without an error, and no entry of the state and of the covariance
is finite any more. The pivots are those of the decomposition that `S` holds afterwards. -/
theorem C81_singular (bld : Build) {f : RegularKalman n (Bin fmt)} {o : RegularObservation n m (Bin fmt)}
    {x A P Q H z R} (hn : 0 < n) (hm : 0 < m) (hf : f.Reps x A P Q) (ho : o.Reps H z R) :
    ∃ f' o' x' P' L, f.correct bld o = .ok (f', o') ∧ f'.x.RepsV x' ∧ f'.P.Reps P' ∧ o'.S.Reps L ∧
      ∀ S, S = Spec.mulSeq (Spec.mulSeq H P) Hᵀ + R → ∀ p, (∀ c, c < p → MDT.le (Spec.cholRest S L c c) 0 = false) →
        MDT.le (Spec.cholRest S L p p) 0 = true →
        (p.1 = 0 ∨ (Spec.cholRest S L p p).Finite ∧ (Spec.cholRest S L p p).val = 0) →
        (∀ i, ¬ (x' i).Finite) ∧ ∀ i j, ¬ (P' i j).Finite := by
  obtain ⟨f', o', h⟩ := correct_returns bld hn hm hf ho
  obtain ⟨x', P', h1, h2⟩ := correct_reps bld hn hm hf ho h
  obtain ⟨L, hL⟩ := correct_S bld hn hm hf ho h
  refine ⟨f', o', x', P', L, h, h1, h2, hL, ?_⟩
  rintro S rfl p hb hp h0
  obtain ⟨x2, P2, h3, h4, h5⟩ := correct_singular bld hn hf ho h hL hb hp h0
  obtain rfl := h1.unique h3
  obtain rfl := h2.unique h4
  exact h5

/-- C81: in particular if the first variance of `S` is zero or negative. -/
theorem C81_first_variance (bld : Build) {f : RegularKalman n (Bin fmt)} {o : RegularObservation n m (Bin fmt)}
    {x A P Q H z R} (hn : 0 < n) (hm : 0 < m) (hf : f.Reps x A P Q) (ho : o.Reps H z R)
    (hS : MDT.le ((Spec.mulSeq (Spec.mulSeq H P) Hᵀ + R) ⟨0, hm⟩ ⟨0, hm⟩) 0 = true) :
    ∃ f' o' x' P', f.correct bld o = .ok (f', o') ∧ f'.x.RepsV x' ∧ f'.P.Reps P' ∧
      (∀ i, ¬ (x' i).Finite) ∧ ∀ i j, ¬ (P' i j).Finite := by
  obtain ⟨f', o', x', P', L, h1, h2, h3, h4, h5⟩ := C81_singular bld hn hm hf ho
  refine ⟨f', o', x', P', h1, h2, h3, h5 _ rfl ⟨0, hm⟩ (fun c hc => ?_) ?_ (Or.inl rfl)⟩
  · exact absurd hc (Nat.not_lt_zero _)
  · exact hS

/-! ## Non-vacuity -/

namespace Ex

/-- The position sensor of the example, without noise. -/
def exactObs (T : Type) [Field T] : RegularObservation 2 1 T := { obs T with R := ⟨[0]⟩ }

/-- The hypotheses of C80 are met, with and without noise. -/
example : (filter ℝ).Reps ![1, 2] !![1, 1; 0, 1] !![1, 0; 0, 1] !![1, 0; 0, 2] ∧ (obs ℝ).Reps !![1, 0] ![5] !![3] ∧
    (Spec.innovCov !![1, 0] !![1, 0; 0, 1] !![3] : Matrix (Fin 1) (Fin 1) ℝ).PosDef ∧
    (exactObs ℝ).Reps !![1, 0] ![5] 0 ∧
    ((!![1, 0] : Matrix (Fin 1) (Fin 2) ℝ) * (!![1, 0; 0, 1] : Matrix (Fin 2) (Fin 2) ℝ) *
      (!![1, 0] : Matrix (Fin 1) (Fin 2) ℝ)ᵀ).PosDef := by
  refine ⟨filter_reps ℝ, obs_reps ℝ, innovCov_posDef, ⟨(obs_reps ℝ).H, (obs_reps ℝ).z, ?_, (obs_reps ℝ).y, (obs_reps ℝ).S, (obs_reps ℝ).K, (obs_reps ℝ).tempSInv,
    (obs_reps ℝ).tempHP, (obs_reps ℝ).tempPHt, (obs_reps ℝ).tempKHP⟩, ?_⟩
  · intro i j; fin_cases i; fin_cases j; rfl
  · have : (!![1, 0] : Matrix (Fin 1) (Fin 2) ℝ) * (!![1, 0; 0, 1] : Matrix (Fin 2) (Fin 2) ℝ) *
        (!![1, 0] : Matrix (Fin 1) (Fin 2) ℝ)ᵀ = Matrix.diagonal fun _ => 1 := by
      ext i j; fin_cases i; fin_cases j
      simp [Matrix.vecMul, Fin.sum_univ_two, dotProduct]
    rw [this]
    exact Matrix.PosDef.diagonal fun _ => by norm_num

/-- The same on rational numbers: the position becomes the measured one, and its variance and covariance vanish. -/
example : ((filter ℚ).correct ⟨true, false⟩ (exactObs ℚ)).map (fun r => (r.1.x.data, r.1.P.data)) =
    .ok ([5, 2, 77], [0, 0, 0, 1, 78]) := by decide +kernel

/-- Two sensors for the same quantity, without noise: the second pivot is zero and the whole estimate is lost. -/
example : ((f32World [0, 1] [1, 0, 0, 1] 0).kf.correct ⟨true, false⟩
      { f32Obs with H := ⟨[1, 0, 1, 0]⟩, R := ⟨[0, 0, 0, 0]⟩ }).map
      (fun r => (r.1.x.data.map f32Units, r.1.P.data.map f32Units, r.2.S.data)) =
    .ok ([none, none], [none, none, none, none], [1, 1, 1, 0]) := by decide +kernel

/-- On `f32`: the first noise-free measurement is reproduced exactly, the second is not positive and the whole estimate is lost.
-/
example : f32Outcome ((f32World [0, 1] [1, 0, 0, 1] 0).run ⟨true, false⟩ [.correct 0]) =
      .ok ([f32Units (f32 7 5), f32Units 1], [some 0, some 0, some 0, f32Units 1]) ∧
    f32Outcome ((f32World [0, 1] [1, 0, 0, 1] 0).run ⟨true, false⟩ [.correct 0, .correct 0]) =
      .ok ([none, none], [none, none, none, none]) := by decide +kernel

end Ex
end Minikalman
