import Verif.Spec.History

/-!
# What the measurements of a history determine

Courses of the undisturbed system: the true state moves exactly as the model says, and exact measurements are taken whenever the
history corrects. A quantity is determined by the measurements of a history if courses with the same measurements end with the same
value of the quantity, whatever the initial states are. No reference to the program.
-/

namespace Minikalman
namespace Spec

open Matrix

variable {n : Nat}

/-- The true state after a call, without disturbances. -/
noncomputable def State.moves (s : State n ℝ) (x : Fin n → ℝ) : Op ℝ → Fin n → ℝ
  | .predict | .predictTuned _ => s.A *ᵥ x
  | .control i => match s.ctl[i]? with
    | some c => x + c.2.B *ᵥ c.2.u
    | none => x
  | _ => x

/-- What is measured in a call, without measurement errors: `H x` in a correction, nothing in other calls. -/
noncomputable def State.measures (s : State n ℝ) (x : Fin n → ℝ) : Op ℝ → List ℝ
  | .correct i => match s.obs[i]? with
    | some o => List.ofFn (o.2.H *ᵥ x)
    | none => []
  | _ => []

/-- The undisturbed course of a history from the true state `x`: all measurements, and the true state at the end. The model is the
one the filter holds at that time. -/
noncomputable def State.course (s : State n ℝ) : List (Op ℝ) → (Fin n → ℝ) → List (List ℝ) × (Fin n → ℝ)
  | [], x => ([], x)
  | op :: ops, x => match s.step op with
    | some s' => (s.measures x op :: (s'.course ops (s.moves x op)).1, (s'.course ops (s.moves x op)).2)
    | none => ([], x)

/-- The measurements of the history determine the combination `v` of the state variables at its end. -/
def State.Determines (s : State n ℝ) (ops : List (Op ℝ)) (v : Fin n → ℝ) : Prop :=
  ∀ x y, (s.course ops x).1 = (s.course ops y).1 → v ⬝ᵥ (s.course ops x).2 = v ⬝ᵥ (s.course ops y).2

/-- The measurements of the history determine the state at its end. -/
def State.Observable (s : State n ℝ) (ops : List (Op ℝ)) : Prop :=
  ∀ x y, (s.course ops x).1 = (s.course ops y).1 → (s.course ops x).2 = (s.course ops y).2

/-- The call does not assign the covariance. -/
def KeepsCovariance : Op ℝ → Prop
  | .setP _ => False
  | _ => True

end Spec
end Minikalman
