import Verif.Spec.FixedPoint
import Mathlib.Analysis.Real.Sqrt

/-!
# Conditions under which a correction with one measured component stays in the range of a fixed point type

`f` fractional bits; `res f` is the resolution `2^-f`, `lim f` the end of the range.
-/

namespace Minikalman
namespace FixedPoint

variable {f n : Nat}

/-- How much the innovation variance `H P Hᵀ + R` can be off: `n` roundings in `H P`, weighted with `|H|`, and `n` more. -/
noncomputable def varianceErr (H : Matrix (Fin 1) (Fin n) (FixedPoint f)) : ℝ := n * res f * (1 + ∑ k, absM H 0 k)

/-- How much the reciprocal of the root of a number that is at least `s` can be off. -/
noncomputable def rootErr (f : Nat) (s : ℝ) : ℝ := res f + res f / ((√s - res f) * √s)

/-- How much the inverse of an innovation variance can be off which is at least `s` and known up to `E`. -/
noncomputable def inverseErr (f : Nat) (s E : ℝ) : ℝ := E / s ^ 2 + rootErr f s * (2 / √s + rootErr f s) + res f

/-- How much an entry of the gain can be off, if the corresponding entry of `P Hᵀ` is `c`. -/
noncomputable def gainErr (f n : Nat) (c s E : ℝ) : ℝ := (|c| + n * res f) * inverseErr f s E + n * res f / s + res f

/-- How large an entry of the computed gain can be, if the entries of `P Hᵀ` are at most `c`. -/
noncomputable def gainMax (f n : Nat) (c s E : ℝ) : ℝ := (c + n * res f) * (1 / s + inverseErr f s E) + res f

/-- Conditions on the data of a correction with a single measured component, to be checked with real numbers: the innovation variance is
at least `s` (beyond its possible rounding error), `s` is large enough for the inverse of its root to be in range, and so are all sums,
products and differences, where `C` bounds `|P| |H|ᵀ` and `|H| |P|`, and `Y` bounds `|z| + |H| |x|`. -/
structure CorrectInRange (x : Fin n → FixedPoint f) (P : Matrix (Fin n) (Fin n) (FixedPoint f))
    (H : Matrix (Fin 1) (Fin n) (FixedPoint f)) (z : Fin 1 → FixedPoint f) (R : Matrix (Fin 1) (Fin 1) (FixedPoint f))
    (C Y s : ℝ) : Prop where
  /-- bounds for the products with `P` -/
  right : ∀ i, (absM P * absM H.transpose) i 0 ≤ C
  left : ∀ j, (absM H * absM P) 0 j ≤ C
  /-- bound for the innovation -/
  innovation : |(z 0).val| + (absM H).mulVec (absV x) 0 ≤ Y
  /-- the innovation variance is at least `s` -/
  variance : s + varianceErr H ≤ (valM H * valM P * (valM H).transpose + valM R) 0 0
  /-- the inverse of the root of `s` is well in range -/
  root : res f < √s
  recip : 1 < (√s - res f) * lim f
  inverse : (1 / √s + rootErr f s) ^ 2 < lim f
  /-- everything else is in range -/
  variance_fits : sandwichBound H P H 0 0 + |(R 0 0).val| < lim f
  products_fit : C + n * res f < lim f
  innovation_fits : Y + n * res f < lim f
  gain_fits : gainMax f n C s (varianceErr H) < lim f
  state_fits : ∀ i, |(x i).val| + (gainMax f n C s (varianceErr H) * (Y + n * res f) + res f) < lim f
  covariance_fits : ∀ i j, |(P i j).val| + (gainMax f n C s (varianceErr H) * (C + n * res f) + res f) < lim f

end FixedPoint
end Minikalman
