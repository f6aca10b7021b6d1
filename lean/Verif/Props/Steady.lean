import Verif.Proofs.Steady
import Verif.Props.History

/-!
# Properties C84 and C85: long-term behaviour of a periodically operated filter

The same predictions, controls and corrections again and again, with new data in each cycle, exact arithmetic. C84: the
covariances stay bounded, settle down monotonically, and under the usual condition on the process noise converge to the same limit
from everywhere. C85: the initial guess is forgotten exponentially.
-/

namespace Minikalman

open Matrix Filter Topology

variable {n : Nat}

/-- The runs of the program and their covariances. -/
theorem run_cycles [MDT ℝ] [ExactReal] (bld : Build) {w : World n ℝ} {s : Spec.State n ℝ} (h : w.Reps s) (hs : s.Psd)
    {cyc : Nat → List (Op ℝ)} (hc : Spec.Periodic cyc) (hops : ∀ k, ∀ op ∈ cyc k, op.WellFormed w)
    (hl : ∀ op ∈ cyc 0, op.NonzeroLambda) (k : Nat) :
    ∃ wk sk, w.run bld (Spec.cycles cyc k) = .ok wk ∧ s.run (Spec.cycles cyc k) = some sk ∧ wk.Reps sk ∧ sk.Psd ∧
      sk.P = (Spec.covRun s (cyc 0))^[k] s.P := by
  have hsteps : ∀ op ∈ Spec.cycles cyc k, Spec.StepOrData op := fun op hop => by
    obtain ⟨j, hj⟩ := Spec.mem_cycles hop
    exact hc.stepsAll j op hj
  have hlam : ∀ op ∈ Spec.cycles cyc k, op.NonzeroLambda := fun op hop => by
    obtain ⟨j, hj⟩ := Spec.mem_cycles hop
    obtain ⟨o, ho, hd⟩ := Spec.forall₂_mem_right (hc.same j) hj
    exact Spec.lambda_data hd (hl o ho)
  have hreg := psd_regularRun hs hlam fun op hop => Spec.psdData_steps s (hsteps op hop)
  obtain ⟨wk, sk, h1, h2, h3, _⟩ := run_refines bld h (fun op hop => by
    obtain ⟨j, hj⟩ := Spec.mem_cycles hop
    exact hops j op hj) hreg
  refine ⟨wk, sk, h1, h2, h3, run_cov_inv psd_closed h2 hs (fun op hop => Spec.psdData_steps s (hsteps op hop)) hreg, ?_⟩
  rw [(Spec.run_cov hsteps h2).2, Spec.covRun_cycles hc]

theorem cycle_reaches [MDT ℝ] [ExactReal] {w : World n ℝ} {s : Spec.State n ℝ} (h : w.Reps s) (hs : s.Psd)
    {cyc : Nat → List (Op ℝ)} (hc : Spec.Periodic cyc) (hops : ∀ k, ∀ op ∈ cyc k, op.WellFormed w)
    (hl : ∀ op ∈ cyc 0, op.NonzeroLambda) (C D : Matrix (Fin n) (Fin n) ℝ) :
    Spec.Reaches s (cyc 0) C D ↔ Spec.covRun s (cyc 0) C = D := by
  obtain ⟨_, s1, _, h2, _⟩ := run_cycles ⟨true, false⟩ h hs hc hops hl 1
  exact Spec.reaches_iff hc.steps h2 C D

section
variable [MDT ℝ] [ExactReal] (bld : Build) {w : World n ℝ} {s : Spec.State n ℝ} (h : w.Reps s) (hs : s.Psd)
    {cyc : Nat → List (Op ℝ)} (hc : Spec.Periodic cyc) (hops : ∀ k, ∀ op ∈ cyc k, op.WellFormed w)
    (hl : ∀ op ∈ cyc 0, op.NonzeroLambda)
include h hs hc hops hl

/-- C84: if a cycle does not enlarge the covariance `C`, the covariance stays below every multiple of `C` it started below, for
all time; no call panics. -/
theorem C84_bounded {C : Matrix (Fin n) (Fin n) ℝ} (hC : Spec.NotEnlarged s (cyc 0) C) {a : ℝ} (ha : 1 ≤ a)
    (hb : (a • C - s.P).PosSemidef) (k : Nat) :
    ∃ wk P, w.run bld (Spec.cycles cyc k) = .ok wk ∧ wk.kf.P.Reps P ∧ (a • C - P).PosSemidef := by
  obtain ⟨wk, sk, h1, _, h3, _, h5⟩ := run_cycles bld h hs hc hops hl k
  obtain ⟨hC0, D, hD, hCD⟩ := hC
  rw [cycle_reaches h hs hc hops hl] at hD
  subst hD
  refine ⟨wk, sk.P, h1, h3.kf.P, ?_⟩
  rw [h5]
  exact Spec.iter_bounded (Spec.covRun_map hs _) hC0 hCD ha hs.P hb k

/-- C84: if the first cycle does not enlarge the covariance, no later one does, and the covariance converges to a stationary
one. -/
theorem C84_decreasing (h0 : Spec.NotEnlarged s (cyc 0) s.P) :
    ∃ (P : Nat → Matrix (Fin n) (Fin n) ℝ) (L : Matrix (Fin n) (Fin n) ℝ),
      (∀ k, ∃ wk, w.run bld (Spec.cycles cyc k) = .ok wk ∧ wk.kf.P.Reps (P k)) ∧ (∀ k, (P k - P (k + 1)).PosSemidef) ∧
      Tendsto P atTop (𝓝 L) ∧ Spec.Stationary s (cyc 0) L ∧ ∀ k, (P k - L).PosSemidef := by
  obtain ⟨_, D, hD, hCD⟩ := h0
  rw [cycle_reaches h hs hc hops hl] at hD
  subst hD
  obtain ⟨L, h1, h2, h3, h4⟩ := Spec.iter_decreasing_converges (Spec.covRun_map hs (cyc 0)) hs.P hCD
  refine ⟨fun k => (Spec.covRun s (cyc 0))^[k] s.P, L, fun k => ?_, Spec.iter_decreasing (Spec.covRun_map hs _) hs.P hCD, h1,
    ⟨h2, (cycle_reaches h hs hc hops hl L L).2 h3⟩, h4⟩
  obtain ⟨wk, sk, r1, _, r3, _, r5⟩ := run_cycles bld h hs hc hops hl k
  exact ⟨wk, r1, by have := r3.kf.P; rwa [r5] at this⟩

/-- C84: a filter that starts with an exactly known state gets less certain with every cycle, and converges to the smallest
stationary covariance if there is one (or any covariance a cycle does not enlarge). -/
theorem C84_increasing (h0 : s.P = 0) {C : Matrix (Fin n) (Fin n) ℝ} (hC : Spec.NotEnlarged s (cyc 0) C) :
    ∃ (P : Nat → Matrix (Fin n) (Fin n) ℝ) (L : Matrix (Fin n) (Fin n) ℝ),
      (∀ k, ∃ wk, w.run bld (Spec.cycles cyc k) = .ok wk ∧ wk.kf.P.Reps (P k)) ∧ (∀ k, (P (k + 1) - P k).PosSemidef) ∧
      Tendsto P atTop (𝓝 L) ∧ Spec.Stationary s (cyc 0) L ∧
      ∀ C', Spec.NotEnlarged s (cyc 0) C' → (C' - L).PosSemidef := by
  obtain ⟨hC0, D, hD, hCD⟩ := hC
  rw [cycle_reaches h hs hc hops hl] at hD
  subst hD
  obtain ⟨L, h1, h2, h3, _, _, h6⟩ := Spec.iter_zero_converges (Spec.covRun_map hs (cyc 0)) hC0 hCD
  refine ⟨fun k => (Spec.covRun s (cyc 0))^[k] 0, L, fun k => ?_, h6, h1, ⟨h2, (cycle_reaches h hs hc hops hl L L).2 h3⟩, ?_⟩
  · obtain ⟨wk, sk, r1, _, r3, _, r5⟩ := run_cycles bld h hs hc hops hl k
    rw [h0] at r5
    exact ⟨wk, r1, by have := r3.kf.P; rwa [r5] at this⟩
  · rintro C' ⟨hC', D, hD, hCD'⟩
    rw [cycle_reaches h hs hc hops hl] at hD
    subst hD
    obtain ⟨L', h1', _, _, h4', _⟩ := Spec.iter_zero_converges (Spec.covRun_map hs (cyc 0)) hC' hCD'
    rwa [tendsto_nhds_unique h1 h1']

/-- C84: if every direction of the state is disturbed (`Q` positive definite), a cycle contains a prediction, and there is a
covariance a cycle does not enlarge, there is exactly one stationary covariance, and every filter with this model converges to it,
whatever its initial covariance is. -/
theorem C84_unique_limit (hQ : s.Q.PosDef) (hp : ∃ op ∈ cyc 0, Spec.IsPredict op) {C : Matrix (Fin n) (Fin n) ℝ}
    (hC : Spec.NotEnlarged s (cyc 0) C) :
    ∃ L, L.PosDef ∧ Spec.Stationary s (cyc 0) L ∧ (∀ D, Spec.Stationary s (cyc 0) D → D = L) ∧
      ∀ (bld' : Build) (w' : World n ℝ) (x0 : Fin n → ℝ) (P0 : Matrix (Fin n) (Fin n) ℝ), w'.Reps { s with x := x0, P := P0 } →
        P0.PosSemidef → (∀ k, ∀ op ∈ cyc k, op.WellFormed w') → ∃ P : Nat → Matrix (Fin n) (Fin n) ℝ,
        (∀ k, ∃ wk, w'.run bld' (Spec.cycles cyc k) = .ok wk ∧ wk.kf.P.Reps (P k)) ∧ Tendsto P atTop (𝓝 L) := by
  obtain ⟨hC0, D, hD, hCD⟩ := hC
  rw [cycle_reaches h hs hc hops hl] at hD
  subst hD
  obtain ⟨L, h1, h2, _, h4, h5⟩ := Spec.strict_converges (Spec.covRun_map hs (cyc 0)) (Spec.covRun_strict hs hQ hp) hC0 hCD
  refine ⟨L, h1, ⟨h1.posSemidef, (cycle_reaches h hs hc hops hl L L).2 h2⟩,
    fun D hD => h4 D hD.1 ((cycle_reaches h hs hc hops hl D D).1 hD.2), fun bld' w' x0 P0 hw hP0 hops' =>
    ⟨fun k => (Spec.covRun s (cyc 0))^[k] P0, fun k => ?_, h5 P0 hP0⟩⟩
  obtain ⟨wk, sk, r1, _, r3, _, r5⟩ := run_cycles bld' hw ⟨hP0, hs.Q, hs.ctl, hs.obs⟩ hc hops' hl k
  rw [(Spec.SameModel.refl s x0 P0).covRun] at r5
  exact ⟨wk, r1, by have := r3.kf.P; rwa [r5] at this⟩

/-- C85: under the same conditions, and if no prediction deflates the covariance (`|λ| ≤ 1`), the estimates of two filters that
start with different guesses and see the same data approach each other exponentially. -/
theorem C85_initial_guess_forgotten (hQ : s.Q.PosDef) (hp : ∃ op ∈ cyc 0, Spec.IsPredict op)
    (hk : ∀ op ∈ cyc 0, Spec.KeepsUncertainty op) {C : Matrix (Fin n) (Fin n) ℝ} (hC : Spec.NotEnlarged s (cyc 0) C)
    (bld' : Build) {w' : World n ℝ} {x0' : Fin n → ℝ} (h' : w'.Reps { s with x := x0' })
    (hops' : ∀ k, ∀ op ∈ cyc k, op.WellFormed w') :
    ∃ θ K : ℝ, 0 < θ ∧ θ < 1 ∧ ∀ k, ∃ wk wk' x x', w.run bld (Spec.cycles cyc k) = .ok wk ∧
      w'.run bld' (Spec.cycles cyc k) = .ok wk' ∧ wk.kf.x.RepsV x ∧ wk'.kf.x.RepsV x' ∧ ∀ i, |x' i - x i| ≤ K * θ ^ k := by
  obtain ⟨hC0, D, hD, hCD⟩ := hC
  rw [cycle_reaches h hs hc hops hl] at hD
  subst hD
  have hCp : C.PosDef := Spec.pd_of_below hCD ((Spec.covRun_strict hs hQ hp).pd hC0)
  obtain ⟨c0, _, hc0⟩ := Spec.pd_bounds hCp hs.P
  have ha : (1 : ℝ) ≤ max c0 1 := le_max_right _ _
  have hB : (max c0 1 • C).PosSemidef := hC0.smul (zero_le_one.trans ha)
  have hs' : Spec.State.Psd { s with x := x0' } := ⟨hs.P, hs.Q, hs.ctl, hs.obs⟩
  obtain ⟨θ, c, t0, t1, hcc, hdec⟩ := Spec.guess_decays hs hQ hc hl hk hp hB
    (Spec.iter_bounded (Spec.covRun_map hs _) hC0 hCD ha hs.P (psd_sub_trans hc0 (Spec.smul_below hC0 (le_max_left _ _))))
    (fun k => by
      obtain ⟨_, sk, _, r2, _, r4, _⟩ := run_cycles bld h hs hc hops hl k
      exact ⟨sk, r2, r4⟩) x0'
  obtain ⟨B, hBe⟩ : ∃ B, B = max c0 1 • C := ⟨_, rfl⟩
  rw [← hBe] at hB hdec
  have hBi : ∀ i, 0 ≤ B i i := fun i => by
    have := Spec.quad_nonneg hB (Pi.single i 1)
    rwa [single_one_dotProduct, Matrix.mulVec_single_one] at this
  have q0 : 0 < √θ := Real.sqrt_pos.2 t0
  have q1 : √θ < 1 := by rw [Real.sqrt_lt' one_pos]; simpa using t1
  have hK1 : 0 ≤ √(c * ∑ i, B i i) / √θ := div_nonneg (Real.sqrt_nonneg _) q0.le
  have hK0 : 0 ≤ ∑ i, |x0' i - s.x i| := Finset.sum_nonneg fun i _ => abs_nonneg _
  refine ⟨√θ, (∑ i, |x0' i - s.x i|) + √(c * ∑ i, B i i) / √θ, q0, q1, fun k => ?_⟩
  obtain ⟨wk, sk, r1, r2, r3, _⟩ := run_cycles bld h hs hc hops hl k
  obtain ⟨wk', sk', r1', r2', r3', _⟩ := run_cycles bld' h' hs' hc hops' hl k
  refine ⟨wk, wk', sk.x, sk'.x, r1, r1', r3.kf.x, r3'.kf.x, fun i => ?_⟩
  cases k with
  | zero =>
    cases r2
    cases r2'
    rw [pow_zero, mul_one]
    have := Finset.single_le_sum (f := fun i => |x0' i - s.x i|) (fun i _ => abs_nonneg _) (Finset.mem_univ i)
    show |x0' i - s.x i| ≤ _
    linarith
  | succ k =>
    obtain ⟨sk1, xk', e1, e2, e3, e4⟩ := hdec k
    rw [r2] at e1
    rw [r2'] at e2
    cases e1
    cases e2
    have h1 : |xk' i - sk.x i| ≤ √(θ ^ k * c * sk.P i i) := e3.entry i
    have h2 : sk.P i i ≤ ∑ i, B i i := by
      have := Spec.quad_le e4 (Pi.single i 1)
      rw [single_one_dotProduct, Matrix.mulVec_single_one, single_one_dotProduct, Matrix.mulVec_single_one] at this
      exact le_trans this (Finset.single_le_sum (f := fun i => B i i) (fun i _ => hBi i) (Finset.mem_univ i))
    have h3 : √(θ ^ k * c * sk.P i i) ≤ √(θ ^ k * (c * ∑ i, B i i)) := by
      refine Real.sqrt_le_sqrt ?_
      rw [mul_assoc]
      exact mul_le_mul_of_nonneg_left (mul_le_mul_of_nonneg_left h2 hcc) (pow_nonneg t0.le _)
    have h4 : √(θ ^ k * (c * ∑ i, B i i)) = √(c * ∑ i, B i i) / √θ * √θ ^ (k + 1) := by
      have h6 : √(θ ^ k) = √θ ^ k := by
        rw [show θ ^ k = (√θ ^ k) ^ 2 by rw [← pow_mul, mul_comm, pow_mul, Real.sq_sqrt t0.le], Real.sqrt_sq (pow_nonneg q0.le _)]
      rw [Real.sqrt_mul (pow_nonneg t0.le _), h6, pow_succ]
      field_simp
    have h5 : 0 ≤ (∑ i, |x0' i - s.x i|) * √θ ^ (k + 1) := mul_nonneg hK0 (pow_nonneg q0.le _)
    show |xk' i - sk.x i| ≤ _
    rw [add_mul]
    linarith

end

/-! ## Non-vacuity: a random walk, measured once per cycle -/

namespace Ex

/-- A 1×1 matrix. -/
def one1 (a : ℝ) : Matrix (Fin 1) (Fin 1) ℝ := Matrix.diagonal fun _ => a

noncomputable def walkWorld (x p : ℝ) : World 1 ℝ :=
  ⟨⟨⟨[x]⟩, ⟨[1]⟩, ⟨[p]⟩, ⟨[1]⟩, ⟨[7]⟩, ⟨[8]⟩⟩, [], [⟨1, ⟨⟨[1]⟩, ⟨[5]⟩, ⟨[2]⟩, ⟨[9]⟩, ⟨[9]⟩, ⟨[9]⟩, ⟨[9]⟩, ⟨[9]⟩, ⟨[9]⟩, ⟨[9]⟩⟩⟩]⟩

noncomputable def walkState (x p : ℝ) : Spec.State 1 ℝ :=
  ⟨fun _ => x, one1 1, one1 p, one1 1, [], [⟨1, one1 1, fun _ => 5, one1 2⟩]⟩

/-- Each cycle supplies a new measurement, predicts and corrects. -/
noncomputable def walkCycle (k : Nat) : List (Op ℝ) := [.setZ 0 [k ^ 2], .predict, .correct 0]

theorem walk_reps (x p : ℝ) : (walkWorld x p).Reps (walkState x p) := by
  have h1 : ∀ a : ℝ, (⟨[a]⟩ : Mat 1 1 ℝ).Reps (one1 a) := by
    intro a i j
    fin_cases i; fin_cases j
    simp [one1]
  have h2 : ∀ a : ℝ, (⟨[a]⟩ : Mat 1 1 ℝ).RepsV (fun _ => a) := by
    intro a i
    fin_cases i
    rfl
  exact ⟨Nat.zero_lt_one, ⟨h2 _, h1 _, h1 _, h1 _, Nat.le_refl _, Nat.le_refl _⟩, .nil, .cons (.mk Nat.zero_lt_one
    ⟨h1 _, h2 _, h1 _, Nat.le_refl _, Nat.le_refl _, Nat.le_refl _, Nat.le_refl _, Nat.le_refl _, Nat.le_refl _,
      Nat.le_refl _⟩) .nil⟩

theorem one1_psd {a : ℝ} (h : 0 ≤ a) : (one1 a).PosSemidef := Matrix.PosSemidef.diagonal fun _ => h

theorem one1_pd {a : ℝ} (h : 0 < a) : (one1 a).PosDef := Matrix.PosDef.diagonal fun _ => h

theorem walk_psd (x : ℝ) {p : ℝ} (h : 0 ≤ p) : (walkState x p).Psd := by
  refine ⟨one1_psd h, one1_psd zero_le_one, by simp [walkState], ?_⟩
  intro o ho
  simp only [walkState, List.mem_singleton] at ho
  subst ho
  exact one1_pd two_pos

theorem walk_periodic : Spec.Periodic walkCycle := by
  refine ⟨fun k => .cons (.setZ _ _ _) (.cons (.same _) (.cons (.same _) .nil)), ?_⟩
  simp only [walkCycle, List.mem_cons, List.not_mem_nil, or_false, forall_eq_or_imp, forall_eq]
  exact ⟨trivial, trivial, trivial⟩

theorem walk_ok (x p : ℝ) : ∀ k, ∀ op ∈ walkCycle k, op.WellFormed (walkWorld x p) := by
  intro k
  simp only [walkCycle, List.mem_cons, List.not_mem_nil, or_false, forall_eq_or_imp, forall_eq]
  exact ⟨rfl, trivial, Nat.zero_lt_one⟩

theorem walk_lambda : ∀ op ∈ walkCycle 0, op.NonzeroLambda ∧ Spec.KeepsUncertainty op := by
  simp only [walkCycle, List.mem_cons, List.not_mem_nil, or_false, forall_eq_or_imp, forall_eq]
  exact ⟨⟨trivial, trivial⟩, ⟨trivial, trivial⟩, trivial, trivial⟩

theorem one1_mul (a b : ℝ) : one1 a * one1 b = one1 (a * b) := by simp [one1, Matrix.diagonal_mul_diagonal]

theorem one1_transpose (a : ℝ) : (one1 a)ᵀ = one1 a := by simp [one1]

theorem one1_add (a b : ℝ) : one1 a + one1 b = one1 (a + b) := by simp [one1, Matrix.diagonal_add]

theorem one1_sub (a b : ℝ) : one1 a - one1 b = one1 (a - b) := by simp [one1, Matrix.diagonal_sub]

/-- One cycle takes the variance `c` to `2 (c + 1) / (c + 3)`. -/
theorem walk_reaches (x p : ℝ) {c : ℝ} (hc : 0 ≤ c) :
    Spec.Reaches (walkState x p) (walkCycle 0) (one1 c) (one1 (2 * (c + 1) / (c + 3))) := by
  refine ⟨_, rfl, ?_⟩
  show Spec.corrP (one1 1) (Spec.predP (one1 1) (one1 c) (one1 1)) (one1 2) = _
  have e1 : Spec.predP (one1 1) (one1 c) (one1 1) = one1 (c + 1) := by
    rw [Spec.predP, one1_transpose, one1_mul, one1_mul, one1_add, one_mul, mul_one]
  have hS : Spec.innovCov (one1 1) (one1 (c + 1)) (one1 2) = one1 (c + 3) := by
    rw [Spec.innovCov, one1_transpose, one1_mul, one1_mul, one1_add, one_mul, mul_one]
    congr 1
    ring
  have hK : one1 ((c + 1) / (c + 3)) = Spec.gain (one1 1) (one1 (c + 1)) (one1 2) := by
    refine gain_unique ?_ ?_
    · rw [hS]; exact pd_det (one1_pd (by linarith))
    · rw [hS, one1_transpose, one1_mul, one1_mul, mul_one]
      congr 1
      field_simp
  rw [e1, Spec.corrP, ← hK, one1_mul, one1_mul, one1_sub]
  congr 1
  field_simp
  ring

theorem walk_notEnlarged (x p : ℝ) {c : ℝ} (hc : 1 ≤ c) : Spec.NotEnlarged (walkState x p) (walkCycle 0) (one1 c) := by
  refine ⟨one1_psd (by linarith), _, walk_reaches x p (by linarith), ?_⟩
  rw [one1_sub]
  refine one1_psd ?_
  rw [sub_nonneg, div_le_iff₀ (by linarith)]
  nlinarith

/-- The hypotheses of C84 and C85 are met: with the initial variance 3 the variances decrease, with 0 they increase; the limit is
1 in both cases. -/
example : (∀ x p, (walkWorld x p).Reps (walkState x p)) ∧ (∀ x p, 0 ≤ p → (walkState x p).Psd) ∧ Spec.Periodic walkCycle ∧
    (∀ x p k, ∀ op ∈ walkCycle k, op.WellFormed (walkWorld x p)) ∧
    (∀ op ∈ walkCycle 0, op.NonzeroLambda ∧ Spec.KeepsUncertainty op) ∧ (∀ x p, (walkState x p).Q.PosDef) ∧
    (∃ op ∈ walkCycle 0, Spec.IsPredict op) ∧
    (∀ x, Spec.NotEnlarged (walkState x 3) (walkCycle 0) (walkState x 3).P) ∧ (walkState 2 0).P = 0 ∧
    (∀ x p, Spec.Stationary (walkState x p) (walkCycle 0) (one1 1)) := by
  refine ⟨walk_reps, fun x p h => walk_psd x h, walk_periodic, walk_ok, walk_lambda, fun _ _ => one1_pd one_pos,
    ⟨.predict, by simp [walkCycle], trivial⟩, fun x => walk_notEnlarged x 3 (by norm_num), ?_, fun x p => ?_⟩
  · ext i j
    simp [walkState, one1]
  · refine ⟨one1_psd zero_le_one, ?_⟩
    have := walk_reaches x p zero_le_one
    rwa [show (2 : ℝ) * (1 + 1) / (1 + 3) = 1 by norm_num] at this

/-- C84 for the random walk: from every initial variance the reported variance converges to 1. -/
theorem walk_converges [MDT ℝ] [ExactReal] (bld : Build) (x p : ℝ) (hp : 0 ≤ p) : ∃ P : Nat → Matrix (Fin 1) (Fin 1) ℝ,
    (∀ k, ∃ wk, (walkWorld x p).run bld (Spec.cycles walkCycle k) = .ok wk ∧ wk.kf.P.Reps (P k)) ∧
    Tendsto P atTop (𝓝 (one1 1)) := by
  obtain ⟨L, _, _, h3, h4⟩ := C84_unique_limit (walk_reps 0 1) (walk_psd 0 zero_le_one) walk_periodic (walk_ok 0 1)
    (fun op h => (walk_lambda op h).1) (one1_pd one_pos) ⟨.predict, by simp [walkCycle], trivial⟩
    (walk_notEnlarged 0 1 le_rfl)
  have h1 := h3 (one1 1) ⟨one1_psd zero_le_one, by
    have := walk_reaches 0 1 zero_le_one
    rwa [show (2 : ℝ) * (1 + 1) / (1 + 3) = 1 by norm_num] at this⟩
  rw [h1]
  exact h4 bld (walkWorld x p) (fun _ => x) (one1 p) (walk_reps x p) (one1_psd hp) (walk_ok x p)

end Ex
end Minikalman
