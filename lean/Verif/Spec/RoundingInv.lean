import Verif.Spec.Rounding
import Mathlib.LinearAlgebra.Matrix.NonsingularInverse

/-!
# Rounded arithmetic: what the inversion needs, and error bounds of the inversion and of the correction
-/

namespace Minikalman

variable {T : Type} {n m : Nat}

/-- Rounded arithmetic with an exact one, exact negation, and a sum that adds the terms from left to right, starting with a
zero (`f32::sum` starts with `0.0` or, in newer versions of Rust, with `-0.0`). -/
structure RoundedInverse (T : Type) [Zero T] [One T] [Add T] [Sub T] [Mul T] [Neg T] [MDT T] extends RoundedRoots T where
  fin_one : fin 1
  val_one : val 1 = 1
  neg_err : ∀ a, fin (-a) → fin a ∧ val (-a) = -val a
  isum_eq : ∃ z, fin z ∧ val z = 0 ∧ ∀ l : List T, MDT.isum l = l.foldl (· + ·) z

namespace Spec

/-- The sum (in the arithmetic of `T`) of the terms `f k` for the indices `k` with property `p`, in ascending order. -/
def sumOver [MDT T] (p : Fin n → Prop) [DecidablePred p] (f : Fin n → T) : T :=
  MDT.isum (((List.finRange n).filter (fun k => decide (p k))).map f)

/-- `M` is the inverse of the lower triangular matrix `L`, computed row by row (forward substitution): `M i j` is
`([i = j] + Σ (-L i k) * M k j) * (1 / L i i)`, the sum over `j ≤ k < i`. -/
structure FactorInverse [Zero T] [One T] [Add T] [Mul T] [Neg T] [MDT T] (L M : Matrix (Fin n) (Fin n) T) : Prop where
  above : ∀ i j, i < j → M i j = 0
  entry : ∀ i j, j ≤ i → ∃ d, MDT.recip (L i i) = .ok d ∧
    M i j = ((if i = j then 1 else 0) + sumOver (fun k => j ≤ k ∧ k < i) fun k => (-L i k) * M k j) * d

/-- `X` is the solution of `Lᵀ X = M`, computed from the last row up (backward substitution) on and below the diagonal and
mirrored: `X i j` is `(M i j + Σ (-L k i) * X k j) * (1 / L i i)`, the sum over `k > i`. -/
structure TransposedSolve [Zero T] [One T] [Add T] [Mul T] [Neg T] [MDT T] (L M X : Matrix (Fin n) (Fin n) T) : Prop where
  symm : ∀ i j, X i j = X j i
  entry : ∀ i j, j ≤ i → ∃ d, MDT.recip (L i i) = .ok d ∧
    X i j = (M i j + sumOver (fun k => i < k) fun k => (-L k i) * X k j) * d

end Spec

namespace RoundedInverse
variable [Zero T] [One T] [Add T] [Sub T] [Mul T] [Neg T] [MDT T]

/-- Bound of the residual `L M - 1`, if `M` was computed as inverse of `L`. -/
noncomputable def factorErr (ra : RoundedInverse T) (L M : Matrix (Fin n) (Fin n) T) : Matrix (Fin n) (Fin n) ℝ :=
  Matrix.of fun i j => if j ≤ i then
    ra.cholBound n ((if i = j then 1 else 0) + (ra.absM L * ra.absM M) i j) (ra.val (L i i)) else 0

/-- Bound of the residual `Lᵀ X - M` on and below the diagonal, if `X` was computed as solution of `Lᵀ X = M`. -/
noncomputable def solveErr (ra : RoundedInverse T) (L M X : Matrix (Fin n) (Fin n) T) : Matrix (Fin n) (Fin n) ℝ :=
  Matrix.of fun i j => if j ≤ i then
    ra.cholBound n (|ra.val (M i j)| + ((ra.absM L).transpose * ra.absM X) i j) (ra.val (L i i)) else 0

end RoundedInverse

/-- The absolute values of the entries. -/
def absR {R C : Nat} (A : Matrix (Fin R) (Fin C) ℝ) : Matrix (Fin R) (Fin C) ℝ := Matrix.of fun i j => |A i j|

namespace RoundedInverse
variable [Zero T] [One T] [Add T] [Sub T] [Mul T] [Neg T] [MDT T]

/-- Bound of the error of the inverse of `L Lᵀ`: the residuals, carried over by the inverse of the factor. (Entry `(i, j)` above
the diagonal is that of `(j, i)`.) -/
noncomputable def inverseErr (ra : RoundedInverse T) (L M X : Matrix (Fin n) (Fin n) T) : Matrix (Fin n) (Fin n) ℝ :=
  Matrix.of fun i j =>
    ((absR (ra.valM L)⁻¹).transpose * (ra.solveErr L M X + absR (ra.valM L)⁻¹ * ra.factorErr L M)) (max i j) (min i j)

/-- Bound of the error of the computed residual covariance `H P Hᵀ + R`. -/
def innovCovErr (ra : RoundedInverse T) (H : Matrix (Fin m) (Fin n) T) (P : Matrix (Fin n) (Fin n) T)
    (R : Matrix (Fin m) (Fin m) T) : Matrix (Fin m) (Fin m) ℝ :=
  Matrix.of fun i j => ra.γ (2 * n + 3) * (ra.absM H * ra.absM P * (ra.absM H).transpose) i j + ra.u * ra.absM R i j +
    (1 + ra.u) * ((1 + ra.u) ^ (n + 1) * ra.δ n * ∑ k, ra.absM H j k + ra.δ n)

/-- Bound of the difference of `L Lᵀ` and the exact residual covariance, if `L` is the factor of the computed one, `S`. (Entry
`(i, j)` above the diagonal is that of `(j, i)`; the decomposition reads the upper triangle of `S`.) -/
def factoredErr (ra : RoundedInverse T) (H : Matrix (Fin m) (Fin n) T) (P : Matrix (Fin n) (Fin n) T)
    (R S L : Matrix (Fin m) (Fin m) T) : Matrix (Fin m) (Fin m) ℝ :=
  Matrix.of fun i j => ra.innovCovErr H P R (min i j) (max i j) +
    ra.cholBound m (ra.absM S (min i j) (max i j) + (ra.absM L * (ra.absM L).transpose) i j)
      (ra.val (L (min i j) (min i j)))

/-- Bound of the difference of the computed inverse and the inverse of the exact residual covariance `Se`. -/
noncomputable def innovInvErr (ra : RoundedInverse T) (H : Matrix (Fin m) (Fin n) T) (P : Matrix (Fin n) (Fin n) T)
    (R S L M X : Matrix (Fin m) (Fin m) T) (Se : Matrix (Fin m) (Fin m) ℝ) : Matrix (Fin m) (Fin m) ℝ :=
  ra.inverseErr L M X + absR (ra.valM L * (ra.valM L).transpose)⁻¹ * ra.factoredErr H P R S L * absR Se⁻¹

/-- Bound of the error of the computed gain, if the inverse `X` has the error `E`. -/
def gainErr (ra : RoundedInverse T) (H : Matrix (Fin m) (Fin n) T) (P : Matrix (Fin n) (Fin n) T)
    (X : Matrix (Fin m) (Fin m) T) (E : Matrix (Fin m) (Fin m) ℝ) : Matrix (Fin n) (Fin m) ℝ :=
  Matrix.of fun i j =>
    ra.γ (n + m + 2) * (ra.absM P * (ra.absM H).transpose * ra.absM X) i j +
      ((1 + ra.u) ^ (m + 1) * ra.δ n * ∑ k, ra.absM X k j + ra.δ m) +
      (ra.absM P * (ra.absM H).transpose * E) i j

/-- Bound of the error of the corrected covariance, if the gain `K` has the error `E`. -/
def covErr (ra : RoundedInverse T) (H : Matrix (Fin m) (Fin n) T) (P : Matrix (Fin n) (Fin n) T)
    (K : Matrix (Fin n) (Fin m) T) (E : Matrix (Fin n) (Fin m) ℝ) : Matrix (Fin n) (Fin n) ℝ :=
  Matrix.of fun i j =>
    ra.γ (n + m + 3) * (ra.absM K * (ra.absM H * ra.absM P)) i j + ra.u * ra.absM P i j +
      (1 + ra.u) * ((1 + ra.u) ^ (m + 1) * ra.δ n * ∑ k, ra.absM K i k + ra.δ m) +
      (E * (ra.absM H * ra.absM P)) i j

/-- Bound of the error of the computed innovation. -/
def innovErr (ra : RoundedInverse T) (H : Matrix (Fin m) (Fin n) T) (x : Fin n → T) (z : Fin m → T) : Fin m → ℝ :=
  fun i => ra.γ (n + 2) * ((ra.absM H).mulVec (ra.absV x)) i + ra.u * |ra.val (z i)| + (1 + ra.u) * ra.δ n

/-- Bound of the error of the corrected state, if the gain `K` has the error `E` and the innovation `y` the error `Ey`. -/
def stateErr (ra : RoundedInverse T) (K : Matrix (Fin n) (Fin m) T) (x : Fin n → T) (y : Fin m → T)
    (E : Matrix (Fin n) (Fin m) ℝ) (Ey : Fin m → ℝ) : Fin n → ℝ :=
  fun i => ra.γ (m + 2) * ((ra.absM K).mulVec (ra.absV y)) i + ra.u * |ra.val (x i)| + (1 + ra.u) * ra.δ m +
    (E.mulVec (ra.absV y)) i + ((ra.absM K + E).mulVec Ey) i

end RoundedInverse
end Minikalman
