import Verif.Proofs.Monotone
import Verif.Props.History

/-!
# Property C70: less noise and more measurements never make the reported covariance larger

Two programs run two histories that differ only in how much noise they are told and in how many measurements they see
(`Spec/Monotone`).
-/

namespace Minikalman

open Matrix

variable {n : Nat}

/-- C70: in exact arithmetic, if the second filter starts with at least the noise of the first (same system matrices)
and its history is the history of the first one with at least as much noise in every covariance that is set, at least as
much inflation in every tuned prediction, some measurements dropped and some control inputs added, then neither panics
and the covariance the second one ends with is at least that of the first one. The states, the inputs and the
measured values may differ in any way. -/
theorem C70_history_monotone [MDT ℝ] [ExactReal] (bld bld' : Build) {w w' : World n ℝ} {s s' : Spec.State n ℝ}
    (h : w.Reps s) (h' : w'.Reps s') (hb : s.Below s') (hs : s.Psd) {ops ops' : List (Op ℝ)}
    (hops : ∀ op ∈ ops, op.WellFormed w) (hops' : ∀ op ∈ ops', op.WellFormed w')
    (hl : ∀ op ∈ ops, op.NonzeroLambda) (hl' : ∀ op ∈ ops', op.NonzeroLambda) (hd : ∀ op ∈ ops, s.PsdData op)
    (ho : Spec.OpsBelow n (s.ctl.map Sigma.fst) (s.obs.map Sigma.fst) ops ops') :
    ∃ w1 w1' P P', w.run bld ops = .ok w1 ∧ w'.run bld' ops' = .ok w1' ∧ w1.kf.P.Reps P ∧ w1'.kf.P.Reps P' ∧
      (P' - P).PosSemidef := by
  obtain ⟨w1, s1, h1, h2, h3, _⟩ := run_refines bld h hops (psd_regularRun hs hl hd)
  obtain ⟨w1', s1', h1', h2', h3', _⟩ :=
    run_refines bld' h' hops' (psd_regularRun (hb.psd hs) hl' (Spec.opsBelow_data hb ho hd))
  exact ⟨w1, w1', s1.P, s1'.P, h1, h1', h3.kf.P, h3'.kf.P, (Spec.run_below hb hs ho hl hl' hd h2 h2').P⟩

/-- C70, in terms of single numbers: every reported variance of the second filter is at least that of the first, and so
is the variance `vᵀ P v` of every linear combination `v` of the state variables. -/
theorem C70_variances [MDT ℝ] [ExactReal] (bld bld' : Build) {w w' : World n ℝ} {s s' : Spec.State n ℝ}
    (h : w.Reps s) (h' : w'.Reps s') (hb : s.Below s') (hs : s.Psd) {ops ops' : List (Op ℝ)}
    (hops : ∀ op ∈ ops, op.WellFormed w) (hops' : ∀ op ∈ ops', op.WellFormed w')
    (hl : ∀ op ∈ ops, op.NonzeroLambda) (hl' : ∀ op ∈ ops', op.NonzeroLambda) (hd : ∀ op ∈ ops, s.PsdData op)
    (ho : Spec.OpsBelow n (s.ctl.map Sigma.fst) (s.obs.map Sigma.fst) ops ops') :
    ∃ w1 w1' P P', w.run bld ops = .ok w1 ∧ w'.run bld' ops' = .ok w1' ∧ w1.kf.P.Reps P ∧ w1'.kf.P.Reps P' ∧
      (∀ i, P i i ≤ P' i i) ∧ ∀ v : Fin n → ℝ, v ⬝ᵥ P *ᵥ v ≤ v ⬝ᵥ P' *ᵥ v := by
  obtain ⟨w1, w1', P, P', a, b, c, d, e⟩ := C70_history_monotone bld bld' h h' hb hs hops hops' hl hl' hd ho
  refine ⟨w1, w1', P, P', a, b, c, d, fun i => ?_, fun v => ?_⟩
  · have := e.diag_nonneg (i := i)
    rw [Matrix.sub_apply] at this
    linarith
  · have : 0 ≤ v ⬝ᵥ (P' - P) *ᵥ v := by simpa using e.dotProduct_mulVec_nonneg v
    rw [Matrix.sub_mulVec, dotProduct_sub] at this
    linarith

namespace Ex

/-- `world` with more initial covariance. -/
noncomputable def worldNoisy : World 2 ℝ := { world ℝ with kf := { filter ℝ with P := ⟨[4, 1, 1, 3]⟩ } }

noncomputable def stateNoisy : Spec.State 2 ℝ := { state ℝ with P := !![4, 1; 1, 3] }

theorem worldNoisy_reps : worldNoisy.Reps stateNoisy := by
  obtain ⟨a, ⟨hx, hA, hP, hQ, h1, h2⟩, c, d⟩ := world_reps ℝ
  refine ⟨a, ⟨hx, hA, ?_, hQ, h1, h2⟩, c, d⟩
  intro i j; fin_cases i <;> fin_cases j <;> rfl

theorem state_below : (state ℝ).Below stateNoisy := by
  have z : ∀ (k : Nat) (M : Matrix (Fin k) (Fin k) ℝ), (M - M).PosSemidef := by
    intro k M; rw [sub_self]; exact Matrix.PosSemidef.zero
  refine ⟨rfl, ?_, z _ _, .cons (.mk rfl (z _ _)) .nil, .cons (.mk rfl (z _ _)) (.cons (.mk rfl (z _ _)) .nil)⟩
  have : stateNoisy.P - (state ℝ).P = (!![1, 1; 1, 1] : Matrix (Fin 2) (Fin 2) ℝ) + Matrix.diagonal ![2, 1] := by
    ext i j; fin_cases i <;> fin_cases j <;> simp [stateNoisy, state] <;> norm_num
  rw [this]
  refine Matrix.PosSemidef.add ?_ (Matrix.PosSemidef.diagonal fun i => by fin_cases i <;> simp)
  rw [show (!![1, 1; 1, 1] : Matrix (Fin 2) (Fin 2) ℝ) = (!![1, 1] : Matrix (Fin 1) (Fin 2) ℝ)ᴴ *
      (!![1, 1] : Matrix (Fin 1) (Fin 2) ℝ) by
    ext i j; fin_cases i <;> fin_cases j <;> simp [Matrix.mul_apply]]
  exact Matrix.posSemidef_conjTranspose_mul_self _

/-- A history and a noisier one: a tuned prediction for a plain one, one measurement dropped, one control added, another
measured value, more measurement noise. -/
noncomputable def opsLess : List (Op ℝ) := [.predict, .control 0, .correct 0, .setZ 1 [7], .setR 0 [4], .correct 1]

noncomputable def opsMore : List (Op ℝ) :=
  [.predictTuned (1 / 2), .control 0, .control 0, .setZ 1 [-2], .setR 0 [6], .correct 1]

theorem opsBelow : Spec.OpsBelow 2 ((state ℝ).ctl.map Sigma.fst) ((state ℝ).obs.map Sigma.fst) opsLess opsMore := by
  refine .cons (.inflated _ ?_) (.cons (.control 0) (.measured 0 (.controlled 0 (.cons (.setZ _ _ _)
    (.cons (.setR _ _ _ ?_) (.cons (.correct 1) .nil))))))
  · rw [abs_of_pos (by norm_num)]; norm_num
  · intro m hm
    simp [state] at hm
    subst hm
    rw [show (Spec.matOf [6] : Matrix (Fin 1) (Fin 1) ℝ) - Spec.matOf [4] = Matrix.diagonal fun _ => 2 by
      ext i j; fin_cases i; fin_cases j
      show (6 : ℝ) - 4 = 2
      norm_num]
    exact Matrix.PosSemidef.diagonal fun _ => by simp

theorem opsLess_ok : ∀ op ∈ opsLess, op.WellFormed (world ℝ) ∧ op.NonzeroLambda ∧ (state ℝ).PsdData op := by
  have hR : (Spec.matOf [4] : Matrix (Fin 1) (Fin 1) ℝ).PosDef := by
    rw [show (Spec.matOf [4] : Matrix (Fin 1) (Fin 1) ℝ) = Matrix.diagonal fun _ => 4 by
      ext i j; fin_cases i; fin_cases j; rfl]
    exact Matrix.PosDef.diagonal fun _ => by norm_num
  simp only [opsLess, List.mem_cons, List.not_mem_nil, or_false, forall_eq_or_imp, forall_eq]
  refine ⟨⟨trivial, trivial, trivial⟩, ⟨Nat.zero_lt_one, trivial, trivial⟩, ⟨Nat.zero_lt_two, trivial, trivial⟩,
    ⟨rfl, trivial, trivial⟩, ⟨rfl, trivial, ?_⟩, ⟨Nat.one_lt_two, trivial, trivial⟩⟩
  intro m hm
  simp [state] at hm
  subst hm
  exact hR

theorem opsMore_ok : ∀ op ∈ opsMore, op.WellFormed worldNoisy ∧ op.NonzeroLambda := by
  simp only [opsMore, List.mem_cons, List.not_mem_nil, or_false, forall_eq_or_imp, forall_eq]
  refine ⟨⟨trivial, ?_⟩, ⟨Nat.zero_lt_one, trivial⟩, ⟨Nat.zero_lt_one, trivial⟩,
    ⟨rfl, trivial⟩, ⟨rfl, trivial⟩, ⟨Nat.one_lt_two, trivial⟩⟩
  show (1 / 2 : ℝ) ≠ 0
  norm_num

end Ex

/-- The hypotheses of C70 are met by `Ex.world` and a noisier program. -/
example : (Ex.world ℝ).Reps (Ex.state ℝ) ∧ Ex.worldNoisy.Reps Ex.stateNoisy ∧ (Ex.state ℝ).Below Ex.stateNoisy ∧
    (Ex.state ℝ).Psd ∧ (∀ op ∈ Ex.opsLess, op.WellFormed (Ex.world ℝ) ∧ op.NonzeroLambda ∧ (Ex.state ℝ).PsdData op) ∧
    (∀ op ∈ Ex.opsMore, op.WellFormed Ex.worldNoisy ∧ op.NonzeroLambda) ∧
    Spec.OpsBelow 2 ((Ex.state ℝ).ctl.map Sigma.fst) ((Ex.state ℝ).obs.map Sigma.fst) Ex.opsLess Ex.opsMore :=
  ⟨Ex.world_reps ℝ, Ex.worldNoisy_reps, Ex.state_below, Ex.state_psd, Ex.opsLess_ok, Ex.opsMore_ok, Ex.opsBelow⟩

end Minikalman
