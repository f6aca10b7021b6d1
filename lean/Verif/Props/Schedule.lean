import Verif.Proofs.Schedule
import Verif.Props.History

/-!
# C89: gains recorded in one run serve any other data

The covariances, and with them the gains, do not depend on the data (C35). So the matrices `A`, `B`, `H` and the gains of one
run can be recorded, and every other run of the same sequence of calls, from another initial state, with other control inputs
and other measurements, has the states of a plain recursion `x = A x`, `x = x + B u`, `x = x + K (z - H x)` with the recorded
matrices. Exactly, in any arithmetic.
-/

set_option linter.unusedSectionVars false

namespace Minikalman

open Matrix

variable {T : Type} {n : Nat}

/-- C89: if a sequence of calls is recorded in one world, then the same sequence with other data, in a world with the same
matrices and other data, succeeds, and its state is the replay of the record on the data. -/
theorem C89_recorded_gains [Zero T] [One T] [Add T] [Sub T] [Mul T] [Neg T] [MDT T] (bld : Build)
    {w w' : World n T} (hw : w.Valid) (hw' : w'.Valid) (h : w.CovEq w') {ops ops' : List (Op T)}
    (hs : List.Forall₂ Op.SameUpToData ops ops') (hops : ∀ op ∈ ops, op.WellFormed w)
    (hops' : ∀ op ∈ ops', op.WellFormed w') {gains : List (Recorded T)} (hg : w.record bld ops = .ok gains) :
    ∃ v', w'.run bld ops' = .ok v' ∧ v'.kf.x.RepsV (w'.estimator.replay gains ops').x := by
  obtain ⟨v', h1, h2⟩ := run_replay bld hw hw' h hs hops hops' hg hw'.estimated
  exact ⟨v', h1, h2.x⟩

/-- C89: recording needs no other conditions than running: it succeeds if and only if the recorded run does, and that is if
and only if the run on other data does. -/
theorem C89_record_succeeds [Zero T] [One T] [Add T] [Sub T] [Mul T] [Neg T] [MDT T] (bld : Build)
    {w w' : World n T} (hw : w.Valid) (hw' : w'.Valid) (h : w.CovEq w') {ops ops' : List (Op T)}
    (hs : List.Forall₂ Op.SameUpToData ops ops') (hops : ∀ op ∈ ops, op.WellFormed w)
    (hops' : ∀ op ∈ ops', op.WellFormed w') :
    ((∃ gains, w.record bld ops = .ok gains) ↔ ∃ v, w.run bld ops = .ok v) ∧
    ((∃ gains, w.record bld ops = .ok gains) ↔ ∃ v', w'.run bld ops' = .ok v') := by
  refine ⟨record_run bld w ops, (record_run bld w ops).trans ?_⟩
  rcases run_cov bld hw hw' h hs hops hops' with ⟨e, h1, h2⟩ | ⟨v, v', h1, h2, _⟩
  · rw [h1, h2]
  · exact ⟨fun _ => ⟨v', h2⟩, fun _ => ⟨v, h1⟩⟩

/-- A program with all kinds of calls that act on the state, and data. -/
def Ex.recordedOps (u z : ℚ) : List (Op ℚ) :=
  [.correct 0, .predict, .setU 0 [u], .control 0, .setZ 0 [z], .predictTuned 2, .setX [u, z, 0]]

/-- The hypotheses hold for the example program, with other data in the world and in the assignments. -/
example : (Ex.world ℚ).CovEq (Ex.worldData 3 4 (-1) 7 8) ∧
    List.Forall₂ Op.SameUpToData (Ex.recordedOps 1 2) (Ex.recordedOps 5 6) :=
  ⟨⟨.refl _, .refl _, .refl _, .cons (.mk (.refl _) (.refl _)) .nil,
    .cons (.mk (.refl _) (.refl _)) (.cons (.mk (.refl _) (.refl _)) .nil)⟩,
    .cons (.same _) (.cons (.same _) (.cons (.setU 0 _ _) (.cons (.same _) (.cons (.setZ 0 _ _) (.cons (.same _)
      (.cons (.setX _ _) .nil))))))⟩

/-- Its record: transition and control matrices, and the gain `(1/4, 0)` of the correction. -/
theorem C89_example (bld : Build) : (Ex.world ℚ).record bld (Ex.recordedOps 1 2) =
    .ok [.correct 1 [1, 0] [1/4, 0], .predict [1, 1, 0, 1], .none, .control 1 [1, 2], .none, .predict [1, 1, 0, 1],
      .none] := by
  rcases bld with ⟨_ | _, _ | _⟩ <;> decide +kernel

end Minikalman
