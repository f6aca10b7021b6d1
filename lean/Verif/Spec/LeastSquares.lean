import Verif.Spec.History

/-!
# The least squares problem behind the Kalman filter

A *scenario* of a history of calls is a possible course of the true state: a true initial state, disturbances of the
predictions and of the control inputs, and measurement errors. Every disturbance costs its weighted square, the cost of a
scenario is the sum. Nothing here refers to the Kalman equations.
-/

namespace Minikalman
namespace Spec

open Matrix

variable {n k : Nat}

/-- The deviation `w` costs `c = wᵀ Q⁻¹ w`. Written as `w = Q η`, `c = ηᵀ Q η`, which also makes sense for singular `Q`:
deviations outside the range of `Q` are impossible. -/
def Price (Q : Matrix (Fin k) (Fin k) ℝ) (w : Fin k → ℝ) (c : ℝ) : Prop :=
  ∃ η, w = Q *ᵥ η ∧ c = η ⬝ᵥ Q *ᵥ η

/-- One call in a scenario: the true state goes from `v` to `v'` and the cost from `J` to `J'`.
* `predict`: `v' = A v + w`, where `w` is priced by `Q`;
* `predict_tuned(λ)`: the same, but all earlier costs are discounted by `λ²` (fading memory);
* `control`: `v' = v + B (u + w)`, where `w` is priced by the noise of the control;
* `correct`: the true state stays, the measurement error `z - H v` is priced by `R`;
* everything else changes neither the true state nor the cost. -/
def State.Scenario (s : State n ℝ) : Op ℝ → (Fin n → ℝ) → ℝ → (Fin n → ℝ) → ℝ → Prop
  | .predict, v, J, v', J' => ∃ w c, Price s.Q w c ∧ v' = s.A *ᵥ v + w ∧ J' = J + c
  | .predictTuned lambda, v, J, v', J' => ∃ w c, Price s.Q w c ∧ v' = s.A *ᵥ v + w ∧ J' = lambda ^ 2 * J + c
  | .control i, v, J, v', J' => ∃ d, s.ctl[i]? = some d ∧ ∃ w c, Price d.2.Q w c ∧ v' = v + d.2.B *ᵥ (d.2.u + w) ∧
      J' = J + c
  | .correct i, v, J, v', J' => ∃ o, s.obs[i]? = some o ∧ ∃ c, Price o.2.R (o.2.z - o.2.H *ᵥ v) c ∧ v' = v ∧ J' = J + c
  | _, v, J, v', J' => v' = v ∧ J' = J

/-- A scenario of a history from true state `v` and cost `J` to true state `v'` and cost `J'`. The matrices and vectors
used by a call are those the filter holds at that time; only `A`, `Q`, `B`, `u`, `H`, `z`, `R` are looked at, which are
set by the user. -/
def State.ScenarioRun (s : State n ℝ) : List (Op ℝ) → (Fin n → ℝ) → ℝ → (Fin n → ℝ) → ℝ → Prop
  | [], v, J, v', J' => v' = v ∧ J' = J
  | op :: ops, v, J, v', J' => ∃ v1 J1 s1, s.Scenario op v J v1 J1 ∧ s.step op = some s1 ∧ s1.ScenarioRun ops v1 J1 v' J'

/-- The history has a scenario of cost `J` that ends with the true state `v`: the initial true state deviates from the
initial estimate by an amount priced by the initial covariance. -/
def State.Explains (s : State n ℝ) (ops : List (Op ℝ)) (v : Fin n → ℝ) (J : ℝ) : Prop :=
  ∃ v0 J0, Price s.P (v0 - s.x) J0 ∧ s.ScenarioRun ops v0 J0 v J

end Spec

/-- The call does not overwrite the estimate or the covariance. -/
def Op.KeepsEstimate {T : Type} : Op T → Prop
  | .setX _ => False
  | .setP _ => False
  | _ => True

end Minikalman
