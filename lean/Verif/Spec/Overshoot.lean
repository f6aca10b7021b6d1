import Verif.Spec.Extended

/-!
# Nonlinear functions of a single state that the extended filter follows without overshooting

No reference to the model.
-/

namespace Minikalman
namespace Spec

open Matrix

/-- Between `L` and `U` the function `f` is not steeper than the slope `h`: if `h` is positive, `f` increases at most as fast as `h x`, if `h` is negative, it
decreases at most as fast. -/
def NotSteeper (L U h : ℝ) (f : ℝ → ℝ) : Prop :=
  ∀ a b, L ≤ a → a ≤ b → b ≤ U → 0 ≤ h * (f b - f a) ∧ h * (f b - f a) ≤ h * h * (b - a)

/-- The call, in this state of the filter, says nothing that is out of the range from `L` to `U`: transitions map the range to itself; a measurement is one
number, the value of its function at some point of the range (where the state may really be); the slope supplied as its Jacobian is at least the steepest
one of the function in the range; new states are in the range. Anything else may be assigned. -/
def State.XInRange (L U : ℝ) (s : State 1 ℝ) : XOp 1 ℝ → Prop
  | .predict F => ∀ x, L ≤ x 0 → x 0 ≤ U → L ≤ F x 0 ∧ F x 0 ≤ U
  | .predictTuned _ F => ∀ x, L ≤ x 0 → x 0 ≤ U → L ≤ F x 0 ∧ F x 0 ≤ U
  | .correct i F => ∀ o, s.obs[i]? = some o → ∃ p : Obs 1 1 ℝ, o = ⟨1, p⟩ ∧ NotSteeper L U (p.H 0 0) (fun a => F 1 (fun _ => a) 0) ∧
      ∃ y, L ≤ y ∧ y ≤ U ∧ F 1 (fun _ => y) 0 = p.z 0
  | .assign (.x v) => L ≤ (vecOf v : Fin 1 → ℝ) 0 ∧ (vecOf v : Fin 1 → ℝ) 0 ≤ U
  | .assign _ => True

/-- All calls of the history do so. -/
def State.XInRangeRun (L U : ℝ) (s : State 1 ℝ) : List (XOp 1 ℝ) → Prop
  | [] => True
  | op :: ops => s.XInRange L U op ∧ ∀ s', s.xstep op = some s' → s'.XInRangeRun L U ops

end Spec
end Minikalman
