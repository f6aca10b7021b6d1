import Verif.Spec.History

/-!
# Measurements that are processed later than they were taken

Where a state is at the end of a number of calls if nothing disturbs it, which disturbances the process noises allow, and which
calls may happen between the moment a measurement is taken and the moment it is processed. No reference to the Kalman
equations.
-/

namespace Minikalman

open Matrix

/-- A prediction, a control input, a correction with another observation object than the `i`-th one, or an assignment of a
transition matrix, of a process noise, of anything of a control input, or of anything of another observation object. -/
def Op.LeavesOut {T : Type} (i : Nat) : Op T → Prop
  | .predict => True
  | .control _ => True
  | .setA _ => True
  | .setU _ _ => True
  | .setB _ _ => True
  | .setQ _ => True
  | .setQc _ _ => True
  | .correct j => j ≠ i
  | .setZ j _ => j ≠ i
  | .setH j _ => j ≠ i
  | .setR j _ => j ≠ i
  | _ => False

/-- The call sets neither the estimate nor the covariance. -/
def Op.SetsNoEstimate {T : Type} : Op T → Prop
  | .setX _ => False
  | .setP _ => False
  | _ => True

namespace Spec

variable {n : Nat}

/-- There is no process noise: the transition and the control inputs are exact. -/
structure State.Noiseless (s : State n ℝ) : Prop where
  Q : s.Q = 0
  ctl : ∀ c ∈ s.ctl, c.2.Q = 0

/-- Where the true state `ξ` is after the call: a prediction moves it by the transition matrix, a control input shifts it by
`B u`, other calls happen at the same moment. -/
def State.evolve (s : State n ℝ) (op : Op ℝ) (ξ : Fin n → ℝ) : Fin n → ℝ :=
  match op with
  | .predict => s.A *ᵥ ξ
  | .predictTuned _ => s.A *ᵥ ξ
  | .control j => match s.ctl[j]? with
    | some c => ξ + c.2.B *ᵥ c.2.u
    | none => ξ
  | _ => ξ

/-- Where the true state `ξ` is after the calls. -/
noncomputable def State.evolved (s : State n ℝ) : List (Op ℝ) → (Fin n → ℝ) → Fin n → ℝ
  | [], ξ => ξ
  | op :: ops, ξ => match s.step op with
    | some s' => s'.evolved ops (s.evolve op ξ)
    | none => ξ

/-- The displacements the process noise of the call may cause: of a prediction those in the range of `Q`, of a control input those
that a disturbance of `u` in the range of its noise causes, of other calls none. -/
def State.Displaces (s : State n ℝ) (op : Op ℝ) (d : Fin n → ℝ) : Prop :=
  match op with
  | .predict => ∃ v, d = s.Q *ᵥ v
  | .predictTuned _ => ∃ v, d = s.Q *ᵥ v
  | .control j => ∃ c, s.ctl[j]? = some c ∧ ∃ v, d = c.2.B *ᵥ (c.2.Q *ᵥ v)
  | _ => False

/-- No process noise of the calls changes what `H'` says about the state at their end. -/
def State.Unaffected {m : Nat} (H' : Matrix (Fin m) (Fin n) ℝ) (s : State n ℝ) : List (Op ℝ) → Prop
  | [] => True
  | op :: ops => ∀ s', s.step op = some s' → s'.Unaffected H' ops ∧
      ∀ d, s.Displaces op d → ∀ ξ, H' *ᵥ s'.evolved ops (ξ + d) = H' *ᵥ s'.evolved ops ξ

end Spec
end Minikalman
