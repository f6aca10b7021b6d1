import Verif.Spec.Extended
import Mathlib.Analysis.Calculus.FDeriv.Add
import Mathlib.Analysis.Calculus.Deriv.Basic
import Mathlib.Topology.Algebra.Module.FiniteDimension

/-!
# Specification of the nonlinear least squares problem behind a nonlinear correction

No reference to kernels or filter steps of the model.
-/

namespace Minikalman
namespace Spec

open Matrix

variable {n m : Nat}

/-- What it costs to move the estimate by `d` away from a prior of covariance `P` and to leave `r` of a measurement with noise
covariance `R` unexplained. -/
noncomputable def misfit (P : Matrix (Fin n) (Fin n) ℝ) (R : Matrix (Fin m) (Fin m) ℝ) (d : Fin n → ℝ) (r : Fin m → ℝ) : ℝ :=
  d ⬝ᵥ P⁻¹ *ᵥ d + r ⬝ᵥ R⁻¹ *ᵥ r

/-- `H` is the Jacobian of `g` at `x`: all partial derivatives, with `g` (totally) differentiable there. -/
def IsDerivative (g : (Fin n → ℝ) → Fin m → ℝ) (H : Matrix (Fin m) (Fin n) ℝ) (x : Fin n → ℝ) : Prop :=
  HasFDerivAt g H.mulVecLin.toContinuousLinearMap x

end Spec
end Minikalman
