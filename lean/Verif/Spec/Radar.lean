import Mathlib.Analysis.SpecialFunctions.Complex.LogDeriv
import Mathlib.Analysis.SpecialFunctions.Sqrt

/-!
# Specification of the radar example

What a radar at `(rx, ry)` measures of an object with state `(x, y, vx, vy)`, and what a Jacobian matrix is.
-/

namespace Minikalman
namespace Spec

/-- `d` is the partial derivative of `f` with respect to the `j`-th variable at `s`. -/
def Partial {n : Nat} (f : (Fin n → ℝ) → ℝ) (s : Fin n → ℝ) (j : Fin n) (d : ℝ) : Prop :=
  HasDerivAt (fun t => f (Function.update s j t)) d (s j)

/-- `J` is the matrix of all partial derivatives of `f` at `s`. -/
def IsJacobian {n m : Nat} (f : (Fin n → ℝ) → Fin m → ℝ) (s : Fin n → ℝ) (J : Matrix (Fin m) (Fin n) ℝ) : Prop :=
  ∀ i j, Partial (fun s => f s i) s j (J i j)

/-- Motion with constant velocity for the time `dt`. -/
def straight (dt : ℝ) (s : Fin 4 → ℝ) : Fin 4 → ℝ := ![s 0 + s 2 * dt, s 1 + s 3 * dt, s 2, s 3]

/-- Distance of the object from the radar. -/
noncomputable def distance (rx ry : ℝ) (s : Fin 4 → ℝ) : ℝ := √((s 0 - rx) ^ 2 + (s 1 - ry) ^ 2)

/-- Direction of the object as seen from the radar. -/
noncomputable def bearing (rx ry : ℝ) (s : Fin 4 → ℝ) : ℝ := Complex.arg ⟨s 0 - rx, s 1 - ry⟩

/-- Component of the velocity away from the radar. -/
noncomputable def radialSpeed (rx ry : ℝ) (s : Fin 4 → ℝ) : ℝ :=
  ((s 0 - rx) * s 2 + (s 1 - ry) * s 3) / distance rx ry s

/-- What the radar measures. -/
noncomputable def radar (rx ry : ℝ) (s : Fin 4 → ℝ) : Fin 3 → ℝ := ![distance rx ry s, bearing rx ry s, radialSpeed rx ry s]

end Spec
end Minikalman
