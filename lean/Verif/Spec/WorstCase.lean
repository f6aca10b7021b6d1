import Verif.Spec.History

/-!
# Specification of worst-case errors

What it means that a vector is within `c` (squared) standard deviations of a covariance, and what may have happened in reality
during a history of calls while the disturbances stayed within the noise model of the filter. No reference to the filter's
equations.
-/

namespace Minikalman
namespace Spec

open Matrix

variable {n : Nat}

/-- In every direction `y` the component of `v` is at most `√c` standard deviations of the covariance `M`. (If `M` is positive
definite this is `vᵀ M⁻¹ v ≤ c`, see `within_iff`.) -/
def Within (c : ℝ) (M : Matrix (Fin n) (Fin n) ℝ) (v : Fin n → ℝ) : Prop :=
  ∀ y : Fin n → ℝ, (y ⬝ᵥ v) ^ 2 ≤ c * (y ⬝ᵥ M *ᵥ y)

/-- Calls that only write the model of the system, the control or the measurement. -/
def ModelOp : Op ℝ → Prop
  | .setA _ | .setQ _ | .setU _ _ | .setB _ _ | .setQc _ _ | .setZ _ _ | .setH _ _ | .setR _ _ => True
  | _ => False

/-- `Reality s ξ ops c ξ'`: starting in the true state `ξ`, the system the filter `s` models can have reached the true state `ξ'`
at the end of the calls `ops`, with disturbances of total energy `c`: every prediction is a transition `A ξ + w` with `w` within
`cw` of the process noise, every control acts as `B (u + q)` with `q` within `cq` of the noise of the control, every measurement
was `H ξ + v` with `v` within `cv` of the measurement noise, and `c` is the sum of all these `cw`, `cq` and `cv`. -/
inductive Reality : State n ℝ → (Fin n → ℝ) → List (Op ℝ) → ℝ → (Fin n → ℝ) → Prop
  | nil {s ξ} : Reality s ξ [] 0 ξ
  | predict {s s1 ξ ξ' ops c} (w : Fin n → ℝ) (cw : ℝ) (h0 : 0 ≤ cw) (hw : Within cw s.Q w) (h : s.step .predict = some s1)
      (ht : Reality s1 (s.A *ᵥ ξ + w) ops c ξ') : Reality s ξ (.predict :: ops) (cw + c) ξ'
  | predictTuned {s s1 ξ ξ' ops c} (lambda : ℝ) (hl : |lambda| ≤ 1) (w : Fin n → ℝ) (cw : ℝ) (h0 : 0 ≤ cw) (hw : Within cw s.Q w)
      (h : s.step (.predictTuned lambda) = some s1) (ht : Reality s1 (s.A *ᵥ ξ + w) ops c ξ') :
      Reality s ξ (.predictTuned lambda :: ops) (cw + c) ξ'
  | control {s s1 ξ ξ' ops c} (i : Nat) {l : Nat} {k : Ctl n l ℝ} (hk : s.ctl[i]? = some ⟨l, k⟩) (q : Fin l → ℝ) (cq : ℝ)
      (h0 : 0 ≤ cq) (hq : Within cq k.Q q) (h : s.step (.control i) = some s1)
      (ht : Reality s1 (ξ + k.B *ᵥ (k.u + q)) ops c ξ') : Reality s ξ (.control i :: ops) (cq + c) ξ'
  | correct {s s1 ξ ξ' ops c} (i : Nat) {m : Nat} {o : Obs n m ℝ} (ho : s.obs[i]? = some ⟨m, o⟩) (v : Fin m → ℝ) (cv : ℝ)
      (h0 : 0 ≤ cv) (hv : Within cv o.R v) (hz : o.z = o.H *ᵥ ξ + v) (h : s.step (.correct i) = some s1)
      (ht : Reality s1 ξ ops c ξ') : Reality s ξ (.correct i :: ops) (cv + c) ξ'
  | assign {s s1 ξ ξ' ops c} (op : Op ℝ) (hop : ModelOp op) (h : s.step op = some s1) (ht : Reality s1 ξ ops c ξ') :
      Reality s ξ (op :: ops) c ξ'

/-- The history neither overwrites the covariance nor deflates it by a tuning factor above one. -/
def KeepsUncertainty : Op ℝ → Prop
  | .setP _ => False
  | .predictTuned lambda => |lambda| ≤ 1
  | _ => True

end Spec
end Minikalman
