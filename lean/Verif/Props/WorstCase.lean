import Verif.Proofs.WorstCase
import Verif.Props.History

/-!
# Property C82: worst-case error and influence of the initial guess

No probabilities: whatever the disturbances are, as long as the system moved, was steered and was measured as modelled, the
estimation error is bounded by the reported covariance times the total energy of the disturbances (`Spec/WorstCase`). And the
influence of the initial guess is always bounded by the reported covariance, whatever is measured.
-/

namespace Minikalman

open Matrix

variable {n : Nat}

/-- C82: the error after a history is within `c0 + c` of the reported covariance, if the initial error was within `c0` of the
initial covariance and the disturbances had the total energy `c`; no step panics. -/
theorem C82_worst_case_error [MDT ℝ] [ExactReal] (bld : Build) {w : World n ℝ} {s : Spec.State n ℝ} (h : w.Reps s) (hs : s.Psd)
    {ops : List (Op ℝ)} (hops : ∀ op ∈ ops, op.WellFormed w) (hl : ∀ op ∈ ops, op.NonzeroLambda) (hd : ∀ op ∈ ops, s.PsdData op)
    {ξ ξ' : Fin n → ℝ} {c0 c : ℝ} (hc0 : 0 ≤ c0) (h0 : Spec.Within c0 s.P (s.x - ξ)) (ht : Spec.Reality s ξ ops c ξ') :
    ∃ w1 x P, w.run bld ops = .ok w1 ∧ w1.kf.x.RepsV x ∧ w1.kf.P.Reps P ∧ 0 ≤ c ∧ Spec.Within (c0 + c) P (x - ξ') ∧
      ∀ i, |x i - ξ' i| ≤ √((c0 + c) * P i i) := by
  obtain ⟨w1, s1, h1, h2, h3, _⟩ := run_refines bld h hops (psd_regularRun hs hl hd)
  obtain ⟨hc, s2, h4, h5⟩ := Spec.reality_within ht hc0 hs hl hd h0
  rw [h2] at h4
  cases h4
  exact ⟨w1, s1.x, s1.P, h1, h3.kf.x, h3.kf.P, hc, h5, fun i => h5.entry i⟩

/-- C82 with positive definite covariances: `(x - ξ)ᵀ P⁻¹ (x - ξ)` grows at most by the energy of the disturbances. -/
theorem C82_mahalanobis [MDT ℝ] [ExactReal] (bld : Build) {w : World n ℝ} {s : Spec.State n ℝ} (h : w.Reps s) (hs : s.Psd)
    (hP0 : s.P.PosDef)
    {ops : List (Op ℝ)} (hops : ∀ op ∈ ops, op.WellFormed w) (hl : ∀ op ∈ ops, op.NonzeroLambda) (hd : ∀ op ∈ ops, s.PsdData op)
    {ξ ξ' : Fin n → ℝ} {c : ℝ} (ht : Spec.Reality s ξ ops c ξ') :
    ∃ w1 x P, w.run bld ops = .ok w1 ∧ w1.kf.x.RepsV x ∧ w1.kf.P.Reps P ∧
      (P.PosDef → (x - ξ') ⬝ᵥ P⁻¹ *ᵥ (x - ξ') ≤ (s.x - ξ) ⬝ᵥ s.P⁻¹ *ᵥ (s.x - ξ) + c) := by
  have h0 : 0 ≤ (s.x - ξ) ⬝ᵥ s.P⁻¹ *ᵥ (s.x - ξ) := Spec.quad_nonneg hP0.inv.posSemidef _
  obtain ⟨w1, x, P, h1, h2, h3, hc, h4, _⟩ := C82_worst_case_error bld h hs hops hl hd h0
    ((Spec.within_iff h0 hP0 _).2 le_rfl) ht
  exact ⟨w1, x, P, h1, h2, h3, fun hP => (Spec.within_iff (add_nonneg h0 hc) hP _).1 h4⟩

/-- C82: two filters that start with different guesses and then see the same calls stay within `c` of the (common) reported
covariance of each other, if they were so at the start; no step panics. -/
theorem C82_initial_guess [MDT ℝ] [ExactReal] (bld bld' : Build) {w w' : World n ℝ} {s : Spec.State n ℝ} {x0' : Fin n → ℝ}
    (h : w.Reps s) (h' : w'.Reps { s with x := x0' }) (hs : s.Psd) {ops : List (Op ℝ)} (hops : ∀ op ∈ ops, op.WellFormed w)
    (hops' : ∀ op ∈ ops, op.WellFormed w') (hl : ∀ op ∈ ops, op.NonzeroLambda) (hd : ∀ op ∈ ops, s.PsdData op)
    (hk : ∀ op ∈ ops, Spec.KeepsUncertainty op) {c : ℝ} (hc : 0 ≤ c) (h0 : Spec.Within c s.P (x0' - s.x)) :
    ∃ w1 w1' x x' P, w.run bld ops = .ok w1 ∧ w'.run bld' ops = .ok w1' ∧ w1.kf.x.RepsV x ∧ w1'.kf.x.RepsV x' ∧
      w1.kf.P.Reps P ∧ w1'.kf.P.Reps P ∧ Spec.Within c P (x' - x) ∧ ∀ i, |x' i - x i| ≤ √(c * P i i) := by
  obtain ⟨w1, s1, h1, h2, h3, _⟩ := run_refines bld h hops (psd_regularRun hs hl hd)
  have hs' : Spec.State.Psd { s with x := x0' } := ⟨hs.P, hs.Q, hs.ctl, hs.obs⟩
  have hd' : ∀ op ∈ ops, Spec.State.PsdData { s with x := x0' } op := by
    intro op hop
    have := hd op hop
    cases op <;> exact this
  obtain ⟨w1', s1', h1', h2', h3', _⟩ := run_refines bld' h' hops' (psd_regularRun hs' hl hd')
  obtain ⟨x1', h4, h5⟩ := Spec.run_initial hc hs hl hk hd h2 h0
  rw [h4] at h2'
  cases h2'
  exact ⟨w1, w1', s1.x, x1', s1.P, h1, h1', h3.kf.x, h3'.kf.x, h3.kf.P, h3'.kf.P, h5, fun i => h5.entry i⟩

/-- `Within` for positive definite covariances. -/
theorem C82_within_iff {c : ℝ} {M : Matrix (Fin n) (Fin n) ℝ} (hc : 0 ≤ c) (hM : M.PosDef) (v : Fin n → ℝ) :
    Spec.Within c M v ↔ v ⬝ᵥ M⁻¹ *ᵥ v ≤ c := Spec.within_iff hc hM v

/-! ## Non-vacuity -/

namespace Ex

/-- A prediction, a control and a measurement. -/
def opsReal : List (Op ℝ) := [.predict, .control 0, .correct 0]

/-- The system was at `(1, 1)`, the process noise was `(-1, 0)`, the control acted exactly and the measured value was by one
too large. -/
theorem reality : ∃ ξ', Spec.Reality (state ℝ) ![1, 1] opsReal (1 + (0 + (1/3 + 0))) ξ' := by
  refine ⟨_, .predict ![-1, 0] 1 zero_le_one ?_ rfl (.control 0 (l := 1) (k := ⟨!![1; 2], ![3], !![1]⟩) rfl ![0] 0 le_rfl ?_ rfl
    (.correct 0 (m := 1) (o := ⟨!![1, 0], ![5], !![3]⟩) rfl ![1] (1/3) (by norm_num) ?_ ?_ rfl .nil))⟩
  · intro y
    show (y ⬝ᵥ (![-1, 0] : Fin 2 → ℝ)) ^ 2 ≤ 1 * (y ⬝ᵥ (!![1, 0; 0, 2] : Matrix (Fin 2) (Fin 2) ℝ) *ᵥ y)
    simp [dotProduct, Fin.sum_univ_two, Matrix.mulVec]
    nlinarith [sq_nonneg (y 0), sq_nonneg (y 1)]
  · intro y
    simp [dotProduct, Matrix.mulVec]
  · intro y
    show (y ⬝ᵥ (![1] : Fin 1 → ℝ)) ^ 2 ≤ 1/3 * (y ⬝ᵥ (!![3] : Matrix (Fin 1) (Fin 1) ℝ) *ᵥ y)
    simp [dotProduct, Matrix.mulVec]
    nlinarith [sq_nonneg (y 0)]
  · ext i
    fin_cases i
    simp [state, Matrix.vecHead, Matrix.vecTail]
    norm_num

theorem initial_within : Spec.Within 1 (state ℝ).P ((state ℝ).x - ![1, 1]) := by
  intro y
  show (y ⬝ᵥ ((![1, 2] : Fin 2 → ℝ) - ![1, 1])) ^ 2 ≤ 1 * (y ⬝ᵥ (!![1, 0; 0, 1] : Matrix (Fin 2) (Fin 2) ℝ) *ᵥ y)
  simp [dotProduct, Fin.sum_univ_two, Matrix.mulVec]
  nlinarith [sq_nonneg (y 0), sq_nonneg (y 1)]

theorem opsReal_ok : ∀ op ∈ opsReal, op.WellFormed (world ℝ) ∧ op.NonzeroLambda ∧ (state ℝ).PsdData op ∧
    Spec.KeepsUncertainty op := by
  simp only [opsReal, List.mem_cons, List.not_mem_nil, or_false, forall_eq_or_imp, forall_eq]
  exact ⟨⟨trivial, trivial, trivial, trivial⟩, ⟨Nat.zero_lt_one, trivial, trivial, trivial⟩,
    ⟨Nat.zero_lt_two, trivial, trivial, trivial⟩⟩

/-- The hypotheses of C82 are met: the error is at most `√(7/3)` standard deviations. -/
example : (world ℝ).Reps (state ℝ) ∧ (state ℝ).Psd ∧ Spec.Within 1 (state ℝ).P ((state ℝ).x - ![1, 1]) ∧
    (∃ ξ', Spec.Reality (state ℝ) ![1, 1] opsReal (1 + (0 + (1/3 + 0))) ξ') ∧
    ∀ op ∈ opsReal, op.WellFormed (world ℝ) ∧ op.NonzeroLambda ∧ (state ℝ).PsdData op ∧ Spec.KeepsUncertainty op :=
  ⟨world_reps ℝ, state_psd, initial_within, reality, opsReal_ok⟩

end Ex
end Minikalman
