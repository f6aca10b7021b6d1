import Verif.Proofs.Observer
import Verif.Proofs.FailedCorrection
import Verif.Props.Steady

/-!
# Property C105: what the measurements determine is known, whatever the filter started with

A history determines a quantity if courses of the undisturbed system with the same measurements agree in the quantity at the end
(`Spec/Observer`). Exactly these quantities get a variance that is bounded independently of the initial covariance. For a
periodically operated filter this replaces the condition of C84 and C85 by one on the measurements alone.
-/

namespace Minikalman

open Matrix Filter Topology

variable {n : Nat}

/-- Programs with this model that end with a variance of `v` of at most `b`. -/
def VarianceAtMost [MDT ℝ] (s : Spec.State n ℝ) (ops : List (Op ℝ)) (v : Fin n → ℝ) (b : ℝ) : Prop :=
  ∀ (bld : Build) (w : World n ℝ) (x0 : Fin n → ℝ) (P0 : Matrix (Fin n) (Fin n) ℝ), w.Reps { s with x := x0, P := P0 } →
    P0.PosSemidef → (∀ op ∈ ops, op.WellFormed w) → ∃ w1 P, w.run bld ops = .ok w1 ∧ w1.kf.P.Reps P ∧ v ⬝ᵥ P *ᵥ v ≤ b

theorem reps_other_P {w : World n ℝ} {s : Spec.State n ℝ} (h : w.Reps s) (P0 : Matrix (Fin n) (Fin n) ℝ) :
    World.Reps { w with kf := { w.kf with P := ⟨Spec.rowMajor P0⟩ } } { s with x := s.x, P := P0 } :=
  ⟨h.states, ⟨h.kf.x, h.kf.A, rowMajor_reps P0, h.kf.Q, h.kf.predictedX, h.kf.tempP⟩, h.ctl, h.obs⟩

theorem wellFormed_other_P {w : World n ℝ} (p : Mat n n ℝ) {op : Op ℝ} (hk : Spec.KeepsCovariance op) (h : op.WellFormed w) :
    op.WellFormed { w with kf := { w.kf with P := p } } := by
  cases op <;> first | exact hk.elim | exact h

section
variable [MDT ℝ] [ExactReal] {w : World n ℝ} {s : Spec.State n ℝ} (h : w.Reps s) (hs : s.Psd) {ops : List (Op ℝ)}
    (hops : ∀ op ∈ ops, op.WellFormed w) (hl : ∀ op ∈ ops, op.NonzeroLambda) (hd : ∀ op ∈ ops, s.PsdData op)
    (hk : ∀ op ∈ ops, Spec.KeepsCovariance op)
include h hs hops hl hd hk

/-- C105: for any history that does not assign the covariance (the model may change), a combination `v` of the state variables
ends with a variance that is bounded for all initial estimates and covariances if and only if the measurements of the history
determine `v`. -/
theorem C105_bounded_iff_determined (v : Fin n → ℝ) : (∃ b, VarianceAtMost s ops v b) ↔ s.Determines ops v := by
  obtain ⟨_, s1, _, hr, _⟩ := run_refines ⟨true, false⟩ h hops (psd_regularRun hs hl hd)
  constructor
  · rintro ⟨b, hb⟩
    by_contra hn
    obtain ⟨P0, hP0, hu⟩ := Spec.undetermined_unbounded hr hl hd hk hn b
    have hs' : Spec.State.Psd { s with x := s.x, P := P0 } := ⟨hP0, hs.Q, hs.ctl, hs.obs⟩
    have hw' := fun op hop => wellFormed_other_P ⟨Spec.rowMajor P0⟩ (hk op hop) (hops op hop)
    obtain ⟨t1, r1, r2⟩ := hu { s with x := s.x, P := P0 } rfl hs' (by rw [sub_self]; exact .zero)
    obtain ⟨w1, P, q1, q2, q3⟩ := hb ⟨true, false⟩ _ s.x P0 (reps_other_P h P0) hP0 hw'
    obtain ⟨w1', t1', p1, p2, p3, _⟩ := run_refines ⟨true, false⟩ (reps_other_P h P0) hw' (psd_regularRun hs' hl hd)
    rw [q1] at p1
    cases p1
    have hr1 : t1' = t1 := by
      have := p2.symm.trans r1
      exact Option.some.inj this
    subst hr1
    rw [q2.unique p3.kf.P] at q3
    linarith
  · intro hv
    obtain ⟨b, hb⟩ := Spec.determined_bounded hr hl hd hk hv
    refine ⟨b, fun bld w' x0 P0 hw hP0 hops' => ?_⟩
    have hs' : Spec.State.Psd { s with x := x0, P := P0 } := ⟨hP0, hs.Q, hs.ctl, hs.obs⟩
    obtain ⟨t1, r1, r2⟩ := hb { s with x := x0, P := P0 } rfl hs'
    obtain ⟨w1, t1', p1, p2, p3, _⟩ := run_refines bld hw hops' (psd_regularRun hs' hl hd)
    have hr1 : t1' = t1 := by
      have := p2.symm.trans r1
      exact Option.some.inj this
    subst hr1
    exact ⟨w1, _, p1, p3.kf.P, r2⟩

/-- C105: if the measurements of a history determine the state, one covariance bounds the final covariance of every program with
this model, whatever its initial estimate and covariance are. -/
theorem C105_observable (ho : s.Observable ops) : ∃ B : Matrix (Fin n) (Fin n) ℝ, B.PosSemidef ∧
    ∀ (bld : Build) (w : World n ℝ) (x0 : Fin n → ℝ) (P0 : Matrix (Fin n) (Fin n) ℝ), w.Reps { s with x := x0, P := P0 } →
      P0.PosSemidef → (∀ op ∈ ops, op.WellFormed w) → ∃ w1 P, w.run bld ops = .ok w1 ∧ w1.kf.P.Reps P ∧ (B - P).PosSemidef := by
  obtain ⟨_, s1, _, hr, _⟩ := run_refines ⟨true, false⟩ h hops (psd_regularRun hs hl hd)
  obtain ⟨β, hβ, hb⟩ := Spec.observable_bounded hr hl hd hk ho
  refine ⟨_, Matrix.PosSemidef.diagonal fun _ => hβ, fun bld w' x0 P0 hw hP0 hops' => ?_⟩
  have hs' : Spec.State.Psd { s with x := x0, P := P0 } := ⟨hP0, hs.Q, hs.ctl, hs.obs⟩
  obtain ⟨t1, r1, r2⟩ := hb { s with x := x0, P := P0 } rfl hs'
  obtain ⟨w1, t1', p1, p2, p3, _⟩ := run_refines bld hw hops' (psd_regularRun hs' hl hd)
  have hr1 : t1' = t1 := by
    have := p2.symm.trans r1
    exact Option.some.inj this
  subst hr1
  exact ⟨w1, _, p1, p3.kf.P, r2⟩

end

section
variable [MDT ℝ] [ExactReal] {w : World n ℝ} {s : Spec.State n ℝ} (h : w.Reps s) (hs : s.Psd)
    {cyc : Nat → List (Op ℝ)} (hc : Spec.Periodic cyc) (hops : ∀ k, ∀ op ∈ cyc k, op.WellFormed w)
    (hl : ∀ op ∈ cyc 0, op.NonzeroLambda) {N : Nat} (ho : s.Observable (Spec.cycles cyc N))
include h hs hc hops hl ho

theorem observable_cycles : ∃ β : ℝ, 0 ≤ β ∧
    ∀ P, P.PosSemidef → (Matrix.diagonal (fun _ : Fin n => β) - (Spec.covRun s (cyc 0))^[N] P).PosSemidef := by
  obtain ⟨_, _, _, hr, _⟩ := run_cycles ⟨true, false⟩ h hs hc hops hl N
  exact Spec.cycles_bounded hs hc hl hr ho

/-- C105: a periodically operated filter whose measurements in `N` cycles determine the state has a stationary covariance, and
from the end of the `N`th cycle on its covariance is below one bound, at all times and for all initial estimates and covariances. -/
theorem C105_bounded_forever : ∃ B : Matrix (Fin n) (Fin n) ℝ, (∃ C, Spec.Stationary s (cyc 0) C ∧ (B - C).PosSemidef) ∧
    ∀ (bld : Build) (w' : World n ℝ) (x0 : Fin n → ℝ) (P0 : Matrix (Fin n) (Fin n) ℝ), w'.Reps { s with x := x0, P := P0 } →
      P0.PosSemidef → (∀ k, ∀ op ∈ cyc k, op.WellFormed w') → ∀ k, N ≤ k →
      ∃ wk P, w'.run bld (Spec.cycles cyc k) = .ok wk ∧ wk.kf.P.Reps P ∧ (B - P).PosSemidef := by
  obtain ⟨β, hβ, hb⟩ := observable_cycles h hs hc hops hl ho
  have hf := Spec.covRun_map hs (cyc 0)
  obtain ⟨C, c1, c2, c3⟩ := Spec.bounded_fixed hf hb
  refine ⟨_, ⟨C, ⟨c1, (cycle_reaches h hs hc hops hl C C).2 c2⟩, c3⟩, fun bld w' x0 P0 hw hP0 hops' k hk => ?_⟩
  obtain ⟨wk, sk, r1, _, r3, _, r5⟩ := run_cycles bld hw ⟨hP0, hs.Q, hs.ctl, hs.obs⟩ hc hops' hl k
  rw [(Spec.SameModel.refl s x0 P0).covRun] at r5
  refine ⟨wk, sk.P, r1, r3.kf.P, ?_⟩
  rw [r5, ← Nat.add_sub_cancel' hk, Function.iterate_add_apply]
  exact hb _ ((hf.iter _).psd hP0)

/-- C105: if moreover every direction of the state is disturbed and a cycle contains a prediction, the covariances converge to the
same limit from everywhere. -/
theorem C105_unique_limit (hQ : s.Q.PosDef) (hp : ∃ op ∈ cyc 0, Spec.IsPredict op) :
    ∃ L, L.PosDef ∧ Spec.Stationary s (cyc 0) L ∧ (∀ D, Spec.Stationary s (cyc 0) D → D = L) ∧
      ∀ (bld' : Build) (w' : World n ℝ) (x0 : Fin n → ℝ) (P0 : Matrix (Fin n) (Fin n) ℝ), w'.Reps { s with x := x0, P := P0 } →
        P0.PosSemidef → (∀ k, ∀ op ∈ cyc k, op.WellFormed w') → ∃ P : Nat → Matrix (Fin n) (Fin n) ℝ,
        (∀ k, ∃ wk, w'.run bld' (Spec.cycles cyc k) = .ok wk ∧ wk.kf.P.Reps (P k)) ∧ Tendsto P atTop (𝓝 L) := by
  obtain ⟨_, ⟨C, ⟨c1, c2⟩, _⟩, _⟩ := C105_bounded_forever h hs hc hops hl ho
  exact C84_unique_limit h hs hc hops hl hQ hp ⟨c1, C, c2, by rw [sub_self]; exact .zero⟩

/-- C105: and, with tuning factors of absolute value at most one, the estimates of two filters with different initial guesses
approach each other exponentially. -/
theorem C105_initial_guess_forgotten (bld : Build) (hQ : s.Q.PosDef) (hp : ∃ op ∈ cyc 0, Spec.IsPredict op)
    (hk : ∀ op ∈ cyc 0, Spec.KeepsUncertainty op) (bld' : Build) {w' : World n ℝ} {x0' : Fin n → ℝ}
    (h' : w'.Reps { s with x := x0' }) (hops' : ∀ k, ∀ op ∈ cyc k, op.WellFormed w') :
    ∃ θ K : ℝ, 0 < θ ∧ θ < 1 ∧ ∀ k, ∃ wk wk' x x', w.run bld (Spec.cycles cyc k) = .ok wk ∧
      w'.run bld' (Spec.cycles cyc k) = .ok wk' ∧ wk.kf.x.RepsV x ∧ wk'.kf.x.RepsV x' ∧ ∀ i, |x' i - x i| ≤ K * θ ^ k := by
  obtain ⟨_, ⟨C, ⟨c1, c2⟩, _⟩, _⟩ := C105_bounded_forever h hs hc hops hl ho
  exact C85_initial_guess_forgotten bld h hs hc hops hl hQ hp hk ⟨c1, C, c2, by rw [sub_self]; exact .zero⟩ bld' h' hops'

end

/-! ## Non-vacuity: a moving object whose position is measured -/

namespace Ex

/-- Position and velocity, disturbed; only the position is measured. -/
noncomputable def trackWorld : World 2 ℝ :=
  ⟨⟨⟨[0, 0]⟩, ⟨[1, 1, 0, 1]⟩, ⟨[5, 0, 0, 5]⟩, ⟨[1, 0, 0, 1]⟩, ⟨[7, 7]⟩, ⟨[8, 8, 8, 8]⟩⟩, [],
    [⟨1, ⟨⟨[1, 0]⟩, ⟨[3]⟩, ⟨[2]⟩, ⟨[9]⟩, ⟨[9]⟩, ⟨[9, 9]⟩, ⟨[9]⟩, ⟨[9, 9]⟩, ⟨[9, 9]⟩, ⟨[9, 9, 9, 9]⟩⟩⟩]⟩

noncomputable def trackState : Spec.State 2 ℝ :=
  ⟨![0, 0], !![1, 1; 0, 1], Matrix.diagonal fun _ => 5, Matrix.diagonal fun _ => 1, [], [⟨1, !![1, 0], fun _ => 3, one1 2⟩]⟩

theorem track_reps : trackWorld.Reps trackState := by
  refine ⟨Nat.zero_lt_two, ⟨?_, ?_, ?_, ?_, Nat.le_refl _, Nat.le_refl _⟩, .nil, .cons (.mk Nat.zero_lt_one
    ⟨?_, ?_, ?_, Nat.le_refl _, Nat.le_refl _, Nat.le_refl _, Nat.le_refl _, Nat.le_refl _, Nat.le_refl _,
      Nat.le_refl _⟩) .nil⟩
  · intro i; fin_cases i <;> rfl
  · intro i j; fin_cases i <;> fin_cases j <;> rfl
  · intro i j; fin_cases i <;> fin_cases j <;> simp [trackState, trackWorld]
  · intro i j; fin_cases i <;> fin_cases j <;> simp [trackState, trackWorld]
  · intro i j; fin_cases i; fin_cases j <;> rfl
  · intro i; fin_cases i; rfl
  · intro i j; fin_cases i; fin_cases j; simp [one1]

theorem track_psd : trackState.Psd := by
  refine ⟨Matrix.PosSemidef.diagonal fun _ => by norm_num, Matrix.PosSemidef.diagonal fun _ => by norm_num, by simp [trackState], ?_⟩
  intro o ho
  simp only [trackState, List.mem_singleton] at ho
  subst ho
  exact one1_pd two_pos

theorem track_ok : ∀ k, ∀ op ∈ walkCycle k, op.WellFormed trackWorld := by
  intro k
  simp only [walkCycle, List.mem_cons, List.not_mem_nil, or_false, forall_eq_or_imp, forall_eq]
  exact ⟨rfl, trivial, Nat.zero_lt_one⟩

/-- The course of a prediction and a correction. -/
theorem track_course (a b : ℝ) (z : List ℝ) :
    trackState.course [.setZ 0 z, .predict, .correct 0] ![a, b] = ([[], [], [a + b]], ![a + b, b]) := by
  simp [Spec.State.course, Spec.State.step, Spec.State.measures, Spec.State.moves, trackState, dotProduct,
    Fin.sum_univ_two]
  ext i
  fin_cases i <;> simp [Matrix.vecHead, Matrix.vecTail]

theorem track_course2 (a b : ℝ) :
    trackState.course (Spec.cycles walkCycle 2) ![a, b] = ([[], [], [a + b], [], [], [a + b + b]], ![a + b + b, b]) := by
  simp [Spec.State.course, Spec.cycles, walkCycle, Spec.State.step, Spec.State.measures, Spec.State.moves, trackState,
    dotProduct, Fin.sum_univ_two]

/-- Two measured positions determine position and velocity. -/
theorem track_observable : trackState.Observable (Spec.cycles walkCycle 2) := by
  intro x y hxy
  have e : ∀ x : Fin 2 → ℝ, x = ![x 0, x 1] := fun x => by ext i; fin_cases i <;> rfl
  rw [e x, e y, track_course2, track_course2] at hxy ⊢
  simp only [List.cons.injEq, and_true, true_and] at hxy
  obtain ⟨h1, h2⟩ := hxy
  have h3 : x 1 = y 1 := by linarith
  have h4 : x 0 = y 0 := by linarith
  rw [h3, h4]

/-- One measured position determines the position but not the velocity. -/
theorem track_one (z : List ℝ) : trackState.Determines [.setZ 0 z, .predict, .correct 0] ![1, 0] ∧
    ¬trackState.Determines [.setZ 0 z, .predict, .correct 0] ![0, 1] := by
  have e : ∀ x : Fin 2 → ℝ, x = ![x 0, x 1] := fun x => by ext i; fin_cases i <;> rfl
  constructor
  · intro x y hxy
    rw [e x, e y, track_course, track_course] at hxy ⊢
    simp only [List.cons.injEq, and_true, true_and] at hxy
    simp [dotProduct, Fin.sum_univ_two, hxy]
  · intro hn
    have := hn ![0, 0] ![1, -1] (by rw [track_course, track_course]; simp)
    rw [track_course, track_course] at this
    simp [dotProduct, Fin.sum_univ_two] at this

/-- The hypotheses of C105 are met by the moving object. -/
example : trackWorld.Reps trackState ∧ trackState.Psd ∧ Spec.Periodic walkCycle ∧
    (∀ k, ∀ op ∈ walkCycle k, op.WellFormed trackWorld) ∧ (∀ op ∈ walkCycle 0, op.NonzeroLambda ∧ Spec.KeepsUncertainty op) ∧
    trackState.Observable (Spec.cycles walkCycle 2) ∧ trackState.Q.PosDef ∧ (∃ op ∈ walkCycle 0, Spec.IsPredict op) ∧
    ∀ op ∈ walkCycle 0, Spec.KeepsCovariance op ∧ trackState.PsdData op := by
  refine ⟨track_reps, track_psd, walk_periodic, track_ok, walk_lambda, track_observable,
    Matrix.PosDef.diagonal fun _ => by norm_num, ⟨.predict, by simp [walkCycle], trivial⟩, fun op hop => ?_⟩
  have := walk_periodic.steps op hop
  exact ⟨Spec.keeps_steps this, Spec.psdData_steps _ this⟩

/-- C105 for the moving object: after one measured position the reported variance of the position is bounded for all initial
covariances, that of the velocity is not. -/
theorem track_velocity [MDT ℝ] [ExactReal] :
    (∃ b, VarianceAtMost trackState (walkCycle 0) ![1, 0] b) ∧ ¬∃ b, VarianceAtMost trackState (walkCycle 0) ![0, 1] b := by
  have hst := walk_periodic.steps
  have key := C105_bounded_iff_determined track_reps track_psd (track_ok 0) (fun op h => (walk_lambda op h).1)
    (fun op h => Spec.psdData_steps _ (hst op h)) (fun op h => Spec.keeps_steps (hst op h))
  rw [key, key]
  exact track_one _

end Ex
end Minikalman
