import Verif.Proofs.CheckedGravity
import Verif.Props.Checked
import Verif.Props.GravityFixed

/-!
# C93: `examples/gravity_fixed.rs` in builds with overflow checks
-/

set_option linter.unusedSectionVars false

namespace Minikalman

open Examples FixedPoint

/-- C93: for all errors, a build of `examples/gravity_fixed.rs` with overflow checks does what the build without them does, or panics
with an arithmetic overflow. -/
theorem C93_gravity_fixed_agrees (bld : Build) (data : List (I16F16 × I16F16)) :
    Chk.gravityFixedExample (debugOps 16) bld (fromNum (1 / 2)) (fromNum (1 / 10)) (fromNum 6) data =
        gravityFixedExample bld (fromNum (1 / 2)) (fromNum (1 / 10)) (fromNum 6) data ∨
      Chk.gravityFixedExample (debugOps 16) bld (fromNum (1 / 2)) (fromNum (1 / 10)) (fromNum 6) data = .error .arithmetic := by
  have e1 : Chk.gravityFixedExample (debugOps 16) bld (fromNum (1 / 2)) (fromNum (1 / 10)) (fromNum 6) data =
      Chk.gravityRest (debugOps 16) bld Chk.start16.1 Chk.start16.2 data := by
    unfold Chk.gravityFixedExample
    rw [Chk.start_checked]
    rfl
  have e2 : gravityFixedExample bld (fromNum (1 / 2)) (fromNum (1 / 10)) (fromNum 6) data =
      Chk.gravityRest (.total I16F16 0) bld Chk.start16.1 Chk.start16.2 data := by
    have h : gravityFixedExample bld (fromNum (1 / 2)) (fromNum (1 / 10)) (fromNum 6) data =
        ((do
          let f ← buildRegularKalman bld
          let o ← buildRegularObservation bld
          let f ← gravityFilter (fromNum (1 / 2) : I16F16) (fromNum (1 / 10)) (fromNum 6) f
          let o ← gravityObservation (fromNum (1 / 2) : I16F16) o
          pure (f, o)) >>= fun r => gravityLoop bld r.1 r.2 data >>= fun r => r.1.x.index 2) := by
      unfold gravityFixedExample gravityFixedRun
      simp only [bind_assoc, pure_bind]
    rw [h, Chk.start_release]
    unfold Chk.gravityRest
    rw [Chk.gravityLoop_total]
    rfl
  rw [e1, e2]
  rcases Chk.sim_upTo (fun _ _ h => h) (Chk.gravityRest_sim (debugOps_sim 16) bld (Chk.kalman_same Chk.start16.1) (Chk.obs_same Chk.start16.2)
    (Chk.list_same (fun d => ⟨rfl, rfl⟩) data)) with ⟨e, rfl, h⟩ | h
  · exact .inr h
  · exact .inl h

/-- C93: whatever the 15 measurement errors are, as long as none is larger than 8000 in magnitude, no operation of
`examples/gravity_fixed.rs` overflows: the program does not panic in a build with overflow checks (the default of
`cargo run --example gravity_fixed`). -/
theorem C93_gravity_fixed_runs (bld : Build) {errs : List I16F16} (hlen : errs.length = 15) (he : ∀ e ∈ errs, |e.val| ≤ 8000) :
    ∃ g, Chk.gravityFixedExample (debugOps 16) bld (fromNum (1 / 2)) (fromNum (1 / 10)) (fromNum 6)
      ((realDistance.map fromNum).zip errs) = .ok g := by
  refine Chk.gravity_checked bld hlen fun e h => ?_
  have h1 := he e h
  unfold val at h1
  rw [abs_div, abs_of_pos (show (0 : ℝ) < 2 ^ 16 by norm_num), div_le_iff₀ (by norm_num)] at h1
  have h2 : |(e.bits.toInt : ℝ)| ≤ 8000 * 65536 := by norm_num at h1 ⊢; exact h1
  exact_mod_cast h2

/-- C93: with errors up to 4 in magnitude the assertion of the program on the estimated acceleration holds in a build with overflow
checks, too. -/
theorem C93_gravity_fixed (bld : Build) {errs : List I16F16} (hlen : errs.length = 15) (he : ∀ e ∈ errs, |e.val| ≤ 4) :
    ∃ g, Chk.gravityFixedExample (debugOps 16) bld (fromNum (1 / 2)) (fromNum (1 / 10)) (fromNum 6)
      ((realDistance.map fromNum).zip errs) = .ok g ∧ 9 < g.val ∧ g.val < 10 := by
  obtain ⟨g, h⟩ := C93_gravity_fixed_runs bld hlen fun e h => (he e h).trans (by norm_num)
  obtain ⟨g', h', h9⟩ := C88_gravity_fixed bld hlen he
  rcases C93_gravity_fixed_agrees bld ((realDistance.map fromNum).zip errs) with e | e
  · obtain rfl : g = g' := Except.ok.inj (h.symm.trans (e.trans h'))
    exact ⟨g, h, h9⟩
  · rw [h] at e; cases e

/-- The errors of the program itself are below 1. -/
example : ∀ e ∈ observationError.map (fromNum (f := 16)), |e.bits.toInt| ≤ 65536 := by decide +kernel

/-- The bound cannot be dropped: with an error of 32000 the program panics in a build with overflow checks, and estimates something else
without. -/
example : ((Chk.gravityFixedExample (debugOps 16) ⟨true, false⟩ (fromNum (1 / 2)) (fromNum (1 / 10)) (fromNum 6)
    ((realDistance.map fromNum).zip (List.replicate 14 0 ++ [fromNum 32000]))).map fun _ => ()) = .error .arithmetic := by decide +kernel

end Minikalman
