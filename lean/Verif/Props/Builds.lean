import Verif.Proofs.Builds
import Verif.Props.History

/-!
# C91: debug assertions and the `no_assert` feature do not change what a filter computes

A program made of filter calls and assignments has the same outcome in all build configurations (with and without debug
assertions, with and without the feature `no_assert`): if it completes in one of them, it completes in all of them, with the
same values in all buffers. This holds for every program, also for one with buffers that are too small, with observations
without measurements, or in an arithmetic that panics.
-/

set_option linter.unusedSectionVars false

namespace Minikalman

variable {T σ : Type} {n : Nat}

section
variable [Zero T] [One T] [Add T] [Sub T] [Mul T] [Neg T] [MDT T]

/-- C91 for the regular filter: any objects, any calls. -/
theorem C91_regular (bld bld' : Build) (w : World n T) (ops : List (Op T)) (v : World n T) :
    w.run bld ops = .ok v ↔ w.run bld' ops = .ok v := run_build bld bld' w ops v

/-- C91 for the extended filter: any objects, any calls, any closures. -/
theorem C91_extended (bld bld' : Build) (w : XWorld n T σ) (ops : List (XOp n T σ)) (v : XWorld n T σ) :
    w.run bld ops = .ok v ↔ w.run bld' ops = .ok v := xrun_build bld bld' w ops v

/-- C91: if every observation has a measurement, then panics are the same, too. -/
theorem C91_regular_panics (bld bld' : Build) {w : World n T} (hw : ∀ o ∈ w.obs, 0 < o.1) (ops : List (Op T)) :
    w.run bld ops = w.run bld' ops := run_build_eq bld bld' hw ops

/-- C91: the same for the extended filter. -/
theorem C91_extended_panics (bld bld' : Build) {w : XWorld n T σ} (hw : ∀ o ∈ w.obs, 0 < o.1) (ops : List (XOp n T σ)) :
    w.run bld ops = w.run bld' ops := xrun_build_eq bld bld' hw ops

end

/-- C91, from the builders on: a program that builds a filter, controls and observations of any dimensions and then
executes any calls. -/
theorem C91_built [Zero T] [One T] [Add T] [Sub T] [Mul T] [Neg T] [MDT T] [Inhabited T] (bld bld' : Build) (ctls obs : List Nat)
    (ops : List (Op T)) (v : World n T) :
    (buildWorld bld ctls obs >>= fun w => w.run bld ops) = .ok v ↔
      (buildWorld bld' ctls obs >>= fun w => w.run bld' ops) = .ok v := by
  rw [buildWorld_build bld bld']
  exact SameOk.bind (.refl _) (fun w => run_build bld bld' w ops) v

/-- C91, the same for the extended filter. -/
theorem C91_extended_built [Zero T] [One T] [Add T] [Sub T] [Mul T] [Neg T] [MDT T] [Inhabited T] (bld bld' : Build)
    (obs : List Nat) (env : σ) (ops : List (XOp n T σ)) (v : XWorld n T σ) :
    (buildXWorld bld obs env >>= fun w => w.run bld ops) = .ok v ↔
      (buildXWorld bld' obs env >>= fun w => w.run bld' ops) = .ok v := by
  rw [buildXWorld_build bld bld']
  exact SameOk.bind (.refl _) (fun w => xrun_build bld bld' w ops) v

/-- Without a measurement the panics differ: an assertion with debug assertions, the inversion of an empty matrix without. -/
theorem C91_no_measurement :
    (Ex.world ℚ).kf.correct ⟨true, false⟩ (staticObservation 0 : RegularObservation 2 0 ℚ) = .error .assertion ∧
    (Ex.world ℚ).kf.correct ⟨false, false⟩ (staticObservation 0 : RegularObservation 2 0 ℚ) = .error .underflow := by
  decide +kernel

/-- The example world has measurements. -/
example : ∀ o ∈ (Ex.world ℚ).obs, 0 < o.1 := by decide

end Minikalman
