import Verif.Proofs.LeastSquares
import Verif.Props.History

/-!
# Property C69: the estimate solves the least squares problem

The true course of the state is unknown. Among all courses that explain the history (initial state, disturbances,
measurement errors), weigh each by its weighted sum of squares (`Spec/LeastSquares`). The estimate the program ends with
is where the best one ends.
-/

namespace Minikalman

open Matrix

variable {n : Nat}

/-- C69: in exact arithmetic, after any history of calls that does not overwrite the estimate or the covariance (all
other data may be overwritten at any time; covariances positive semi-definite, measurement noises positive definite,
`λ ≠ 0`), the program has not panicked and its state vector is the end of the cheapest scenario that explains the
history. Every scenario that ends elsewhere is strictly more expensive. -/
theorem C69_least_squares [MDT ℝ] [ExactReal] (bld : Build) {w : World n ℝ} {s : Spec.State n ℝ} (h : w.Reps s)
    (hs : s.Psd) {ops : List (Op ℝ)} (hops : ∀ op ∈ ops, op.WellFormed w) (hl : ∀ op ∈ ops, op.NonzeroLambda)
    (hd : ∀ op ∈ ops, s.PsdData op) (hk : ∀ op ∈ ops, op.KeepsEstimate) :
    ∃ w' x J, w.run bld ops = .ok w' ∧ w'.kf.x.RepsV x ∧ s.Explains ops x J ∧
      ∀ v K, s.Explains ops v K → J ≤ K ∧ (v ≠ x → J < K) := by
  obtain ⟨w', s', h1, h2, h3, _⟩ := run_refines bld h hops (psd_regularRun hs hl hd)
  obtain ⟨hp, c, hf⟩ := Spec.run_fits hs hl hd hk h2 (Spec.fits_init hs.P)
  obtain ⟨a, b⟩ := hf.price hp.P
  refine ⟨w', s'.x, c, h1, h3.kf.x, ?_, ?_⟩
  · have := b s'.x 0 ⟨0, by rw [sub_self, Matrix.mulVec_zero], by rw [Matrix.mulVec_zero, dotProduct_zero]⟩
    rwa [add_zero] at this
  · intro v K hv
    obtain ⟨d, h5, h6⟩ := a v K hv
    have h7 := h5.nonneg hp.P
    refine ⟨by linarith, fun hne => ?_⟩
    by_contra hc
    have : d = 0 := by linarith
    subst this
    exact hne (sub_eq_zero.1 (h5.eq_zero hp.P))

/-- C69, the covariance: the cheapest scenario ending in `v` costs exactly `J + (v - x)ᵀ P⁻¹ (v - x)`, where `x` and `P`
are what the program ends with and `J` is the least cost at all. For singular `P`, states `v` with `v - x` outside the
range of `P` have no explanation (see `Price`). -/
theorem C69_covariance_is_curvature [MDT ℝ] [ExactReal] (bld : Build) {w : World n ℝ} {s : Spec.State n ℝ}
    (h : w.Reps s) (hs : s.Psd) {ops : List (Op ℝ)} (hops : ∀ op ∈ ops, op.WellFormed w)
    (hl : ∀ op ∈ ops, op.NonzeroLambda) (hd : ∀ op ∈ ops, s.PsdData op) (hk : ∀ op ∈ ops, op.KeepsEstimate) :
    ∃ w' x P J, w.run bld ops = .ok w' ∧ w'.kf.x.RepsV x ∧ w'.kf.P.Reps P ∧
      (∀ v K, s.Explains ops v K → ∃ c, Spec.Price P (v - x) c ∧ J + c ≤ K) ∧
      ∀ v c, Spec.Price P (v - x) c → s.Explains ops v (J + c) := by
  obtain ⟨w', s', h1, h2, h3, _⟩ := run_refines bld h hops (psd_regularRun hs hl hd)
  obtain ⟨J, a, b⟩ := Spec.run_explains hs hl hd hk h2
  exact ⟨w', s'.x, s'.P, J, h1, h3.kf.x, h3.kf.P, a, b⟩

/-- For a positive definite `Q`, a deviation `w` costs `wᵀ Q⁻¹ w`. -/
theorem C69_price {k : Nat} {Q : Matrix (Fin k) (Fin k) ℝ} (hQ : Q.PosDef) (w : Fin k → ℝ) (c : ℝ) :
    Spec.Price Q w c ↔ c = w ⬝ᵥ Q⁻¹ *ᵥ w := Spec.price_iff hQ w c

namespace Ex

/-- `ops` without the call that overwrites the state. -/
def opsKeep : List (Op ℝ) :=
  [.predict, .control 0, .correct 0, .setZ 1 [7], .correct 1, .setU 0 [-1], .control 0, .predictTuned 2,
    .setR 0 [4], .setA [1, 2, 0, 1], .correct 0]

theorem opsKeep_sub : ∀ op ∈ opsKeep, op ∈ ops ℝ := by
  intro op h
  simp only [opsKeep, List.mem_cons, List.not_mem_nil, or_false] at h
  rcases h with rfl | rfl | rfl | rfl | rfl | rfl | rfl | rfl | rfl | rfl | rfl <;> simp [ops]

end Ex

example : (Ex.world ℝ).Reps (Ex.state ℝ) ∧ (Ex.state ℝ).Psd ∧ (∀ op ∈ Ex.opsKeep, op.WellFormed (Ex.world ℝ)) ∧
    (∀ op ∈ Ex.opsKeep, op.NonzeroLambda) ∧ (∀ op ∈ Ex.opsKeep, (Ex.state ℝ).PsdData op) ∧
    ∀ op ∈ Ex.opsKeep, op.KeepsEstimate := by
  refine ⟨Ex.world_reps ℝ, Ex.state_psd, fun op h => Ex.ops_wellFormed ℝ op (Ex.opsKeep_sub op h),
    fun op h => (Ex.ops_psdData op (Ex.opsKeep_sub op h)).2, fun op h => (Ex.ops_psdData op (Ex.opsKeep_sub op h)).1, ?_⟩
  intro op h
  simp only [Ex.opsKeep, List.mem_cons, List.not_mem_nil, or_false] at h
  rcases h with rfl | rfl | rfl | rfl | rfl | rfl | rfl | rfl | rfl | rfl | rfl <;> trivial

/-- A scenario of a one state filter: estimate 0 with variance 1, then a measurement 2 with variance 1. The true state 1
deviates by 1 from both, which costs 1 + 1. -/
example : ((⟨![0], !![1], !![1], !![0], [], [⟨1, !![1], ![2], !![1]⟩]⟩ : Spec.State 1 ℝ)).Explains [.correct 0] ![1] 2 := by
  refine ⟨![1], 1, ⟨![1], ?_, ?_⟩, ![1], 2, _, ⟨_, rfl, 1, ⟨![1], ?_, ?_⟩, rfl, ?_⟩, rfl, rfl, rfl⟩
  · ext i; fin_cases i; simp
  · simp [Matrix.mulVec, dotProduct]
  · ext i; fin_cases i; simp; norm_num
  · simp [Matrix.mulVec, dotProduct]
  · norm_num

end Minikalman
