import Verif.Spec.Order

/-!
# Information gathered by measurements

What a run of corrections, possibly with assignments in between, adds to the information matrix `P⁻¹` and to the
information vector `P⁻¹ x`. No reference to the Kalman equations.
-/

namespace Minikalman

open Matrix

/-- A correction, or an assignment of anything but the estimate and the covariance. -/
def Op.Measures {T : Type} : Op T → Prop
  | .predict => False
  | .predictTuned _ => False
  | .control _ => False
  | .setX _ => False
  | .setP _ => False
  | _ => True

namespace Spec

variable {n : Nat}

/-- `Hᵀ R⁻¹ H` for a correction, nothing for an assignment. -/
noncomputable def State.infoMatrix (s : State n ℝ) : Op ℝ → Matrix (Fin n) (Fin n) ℝ
  | .correct i => match s.obs[i]? with
    | some o => o.2.Hᵀ * o.2.R⁻¹ * o.2.H
    | none => 0
  | _ => 0

/-- `Hᵀ R⁻¹ z` for a correction, nothing for an assignment. -/
noncomputable def State.infoVector (s : State n ℝ) : Op ℝ → Fin n → ℝ
  | .correct i => match s.obs[i]? with
    | some o => o.2.Hᵀ *ᵥ (o.2.R⁻¹ *ᵥ o.2.z)
    | none => 0
  | _ => 0

/-- The sum of the `Hᵀ R⁻¹ H` of all corrections, with the `H` and `R` they find. -/
noncomputable def State.gatheredMatrix (s : State n ℝ) : List (Op ℝ) → Matrix (Fin n) (Fin n) ℝ
  | [] => 0
  | op :: ops => s.infoMatrix op + match s.step op with
    | some s' => s'.gatheredMatrix ops
    | none => 0

/-- The sum of the `Hᵀ R⁻¹ z` of all corrections, with the `H`, `R` and `z` they find. -/
noncomputable def State.gatheredVector (s : State n ℝ) : List (Op ℝ) → Fin n → ℝ
  | [] => 0
  | op :: ops => s.infoVector op + match s.step op with
    | some s' => s'.gatheredVector ops
    | none => 0

end Spec
end Minikalman
