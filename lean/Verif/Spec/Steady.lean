import Verif.Spec.History
import Mathlib.Topology.Instances.Matrix
import Mathlib.Topology.Instances.Real.Lemmas

/-!
# Periodic operation

What it means that a filter is operated periodically (the same calls again and again, with new data), and that a covariance is
stationary. No reference to the model.
-/

namespace Minikalman
namespace Spec

open Matrix

variable {n : Nat}

/-- The call is a step of the filter or supplies new data (state, inputs, measurements); it changes neither the model nor, by
assignment, the covariance. -/
def StepOrData : Op ℝ → Prop
  | .predict | .predictTuned _ | .control _ | .correct _ | .setX _ | .setU _ _ | .setZ _ _ => True
  | _ => False

/-- The call is a prediction. -/
def IsPredict : Op ℝ → Prop
  | .predict | .predictTuned _ => True
  | _ => False

/-- The calls of the first `k` cycles. -/
def cycles (cyc : Nat → List (Op ℝ)) : Nat → List (Op ℝ)
  | 0 => []
  | k + 1 => cycles cyc k ++ cyc k

/-- Every cycle consists of the same steps, with its own data. -/
structure Periodic (cyc : Nat → List (Op ℝ)) : Prop where
  same : ∀ k, List.Forall₂ Op.SameUpToData (cyc 0) (cyc k)
  steps : ∀ op ∈ cyc 0, StepOrData op

/-- A filter that starts the calls `ops` with the covariance `C` ends with the covariance `D`. -/
def Reaches (s : State n ℝ) (ops : List (Op ℝ)) (C D : Matrix (Fin n) (Fin n) ℝ) : Prop :=
  ∃ s1, State.run { s with P := C } ops = some s1 ∧ s1.P = D

/-- The calls `ops` do not enlarge the covariance `C`. -/
def NotEnlarged (s : State n ℝ) (ops : List (Op ℝ)) (C : Matrix (Fin n) (Fin n) ℝ) : Prop :=
  C.PosSemidef ∧ ∃ D, Reaches s ops C D ∧ (C - D).PosSemidef

/-- The calls `ops` reproduce the covariance `C`. -/
def Stationary (s : State n ℝ) (ops : List (Op ℝ)) (C : Matrix (Fin n) (Fin n) ℝ) : Prop :=
  C.PosSemidef ∧ Reaches s ops C C

end Spec
end Minikalman
