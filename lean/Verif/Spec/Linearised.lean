import Verif.Spec.Extended
import Verif.Spec.WorstCase

/-!
# The system linearised at the current estimate

What the extended filter is supposed to do, in terms of the regular filter; and what may have happened in reality while an extended
filter was running. No reference to kernels or filter steps of the model.
-/

namespace Minikalman
namespace Spec

open Matrix

variable {n : Nat}

/-- The textbook filter with one control that acts on the state directly and without noise. -/
def State.steered (s : State n ℝ) (u : Fin n → ℝ) : State n ℝ := { s with ctl := [⟨n, ⟨1, u, 0⟩⟩] }

/-- The calls of a regular filter for the system linearised at the current estimate `x`: a prediction with the function `g` is a
prediction with the Jacobian `A` followed by the known shift `g(x) - A x`; a correction with the function `h` is a correction with the
Jacobian `H` and the measurement `z - (h(x) - H x)`, after which the measurement is put back. -/
noncomputable def State.linearised (s : State n ℝ) : XOp n ℝ → List (Op ℝ)
  | .predict g => [.predict, .setU 0 (List.ofFn (g s.x - s.A *ᵥ s.x)), .control 0]
  | .predictTuned lambda g => [.predictTuned lambda, .setU 0 (List.ofFn (g s.x - s.A *ᵥ s.x)), .control 0]
  | .correct i h =>
    match s.obs[i]? with
    | none => []
    | some o => [.setZ i (List.ofFn (o.2.z - (h o.1 s.x - o.2.H *ᵥ s.x))), .correct i, .setZ i (List.ofFn o.2.z)]
  | .assign a => [a.toOp]

/-- The calls for a whole history; every function is linearised where the extended filter is at that time. -/
noncomputable def State.linearisedRun (s : State n ℝ) : List (XOp n ℝ) → List (Op ℝ)
  | [] => []
  | op :: ops => s.linearised op ++ match s.xstep op with
    | none => []
    | some s' => s'.linearisedRun ops

/-- `XReality s ξ ops c ξ'`: starting in the true state `ξ`, the true state can be `ξ'` at the end of the calls `ops` of an extended
filter that starts as `s`, with disturbances of total energy `c`. A disturbance is whatever makes the true transition or the true
measurement differ from its linearisation at the estimate `x` of the filter: noise, errors of the model and of the Jacobian, and the
part of the function that is not linear. -/
inductive XReality : State n ℝ → (Fin n → ℝ) → List (XOp n ℝ) → ℝ → (Fin n → ℝ) → Prop
  | nil {s ξ} : XReality s ξ [] 0 ξ
  | predict {s s1 ξ ξ1 ξ' ops c} (g : (Fin n → ℝ) → Fin n → ℝ) (cw : ℝ) (h0 : 0 ≤ cw)
      (hw : Within cw s.Q (ξ1 - (g s.x + s.A *ᵥ (ξ - s.x)))) (h : s.xstep (.predict g) = some s1)
      (ht : XReality s1 ξ1 ops c ξ') : XReality s ξ (.predict g :: ops) (cw + c) ξ'
  | predictTuned {s s1 ξ ξ1 ξ' ops c} (lambda : ℝ) (hl : |lambda| ≤ 1) (g : (Fin n → ℝ) → Fin n → ℝ) (cw : ℝ) (h0 : 0 ≤ cw)
      (hw : Within cw s.Q (ξ1 - (g s.x + s.A *ᵥ (ξ - s.x)))) (h : s.xstep (.predictTuned lambda g) = some s1)
      (ht : XReality s1 ξ1 ops c ξ') : XReality s ξ (.predictTuned lambda g :: ops) (cw + c) ξ'
  | correct {s s1 ξ ξ' ops c} (i : Nat) (h : (m : Nat) → (Fin n → ℝ) → Fin m → ℝ) {m : Nat} {o : Obs n m ℝ}
      (ho : s.obs[i]? = some ⟨m, o⟩) (cv : ℝ) (h0 : 0 ≤ cv) (hv : Within cv o.R (o.z - (h m s.x + o.H *ᵥ (ξ - s.x))))
      (hs : s.xstep (.correct i h) = some s1) (ht : XReality s1 ξ ops c ξ') : XReality s ξ (.correct i h :: ops) (cv + c) ξ'
  | assign {s s1 ξ ξ' ops c} (a : Assign ℝ) (ha : ModelOp a.toOp) (h : s.xstep (.assign a) = some s1) (ht : XReality s1 ξ ops c ξ') :
      XReality s ξ (.assign a :: ops) c ξ'

end Spec
end Minikalman
