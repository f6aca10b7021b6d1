import Verif.Model.Filter
import Verif.Spec.Buffers
import Mathlib.Analysis.SpecialFunctions.Pow.Real
import Mathlib.Algebra.BigOperators.Fin
import Mathlib.Data.Matrix.Mul

/-!
# Rounded arithmetic

The standard model of floating point and fixed point arithmetic. A number has a real value if it is finite. If the result of
an operation is finite then so are the operands, and the value of the result is that of the exact operation up to a relative
error `u` and, for products, an absolute error `η` (underflow of floating point numbers, resolution of fixed point numbers).
For IEEE `f32` with round to nearest: `u = 2^-24`, `η = 2^-150`; infinities and NaN are not finite and propagate, so
overflow needs no separate assumption. For fixed point numbers: `u = 0`, `η = 2^-16` or `2^-32`, `fin` = no overflow so far.
-/

namespace Minikalman

/-- An element type with rounding. -/
structure Rounded (T : Type) [Zero T] [Add T] [Sub T] [Mul T] where
  /-- the number is neither infinite nor NaN -/
  fin : T → Prop
  /-- the real value of a finite number -/
  val : T → ℝ
  /-- relative error -/
  u : ℝ
  /-- absolute error of products -/
  η : ℝ
  u_nonneg : 0 ≤ u
  η_nonneg : 0 ≤ η
  fin_zero : fin 0
  val_zero : val 0 = 0
  add_err : ∀ a b, fin (a + b) → fin a ∧ fin b ∧ |val (a + b) - (val a + val b)| ≤ u * |val a + val b|
  sub_err : ∀ a b, fin (a - b) → fin a ∧ fin b ∧ |val (a - b) - (val a - val b)| ≤ u * |val a - val b|
  mul_err : ∀ a b, fin (a * b) → fin a ∧ fin b ∧ |val (a * b) - val a * val b| ≤ u * |val a * val b| + η

/-- Rounded square roots and reciprocals, and an exact comparison with zero. The square root has a finite argument if the
result is finite (that of an infinity is an infinity, that of a negative number is NaN); reciprocals are only looked at for
finite arguments and results, so that the argument is not zero. -/
structure RoundedRoots (T : Type) [Zero T] [Add T] [Sub T] [Mul T] [MDT T] extends Rounded T where
  sqrt_err : ∀ a q, MDT.squareRoot a = .ok q → fin q → fin a ∧ |val q - √(val a)| ≤ u * √(val a) + η
  recip_err : ∀ a d, MDT.recip a = .ok d → fin a → fin d → val a ≠ 0 ∧ |val d - (val a)⁻¹| ≤ u * |(val a)⁻¹| + η
  le_zero : ∀ a, fin a → MDT.le a 0 = false → 0 < val a

namespace Rounded
variable {T : Type} [Zero T] [Add T] [Sub T] [Mul T] {n : Nat}

/-- `(1 + u)^k - 1`: the relative error of `k` rounded operations in a row. About `k u`. -/
def γ (ra : Rounded T) (k : Nat) : ℝ := (1 + ra.u) ^ k - 1

/-- Absolute error of a sum of `k` products. About `k η`. -/
def δ (ra : Rounded T) (k : Nat) : ℝ := k * (1 + ra.u) ^ k * ra.η

/-- The real matrix a matrix of finite numbers stands for. -/
def valM (ra : Rounded T) {R C : Nat} (A : Matrix (Fin R) (Fin C) T) : Matrix (Fin R) (Fin C) ℝ :=
  Matrix.of fun i j => ra.val (A i j)

/-- The matrix of absolute values. -/
def absM (ra : Rounded T) {R C : Nat} (A : Matrix (Fin R) (Fin C) T) : Matrix (Fin R) (Fin C) ℝ :=
  Matrix.of fun i j => |ra.val (A i j)|

/-- The real vector a vector of finite numbers stands for. -/
def valV (ra : Rounded T) (x : Fin n → T) : Fin n → ℝ := fun i => ra.val (x i)

/-- The vector of absolute values. -/
def absV (ra : Rounded T) (x : Fin n → T) : Fin n → ℝ := fun i => |ra.val (x i)|

end Rounded

variable {T : Type} {n : Nat}

namespace Spec

/-- `A c r - L c 0 * L r 0 - L c 1 * L r 1 - ...` for the columns before `c`, subtracted from left to right, in any
arithmetic. -/
def cholRest [Sub T] [Mul T] (A L : Matrix (Fin n) (Fin n) T) (c r : Fin n) : T :=
  Fin.foldl c.1 (fun acc k => acc - L c ⟨k.1, k.2.trans c.2⟩ * L r ⟨k.1, k.2.trans c.2⟩) (A c r)

end Spec

/-- The bound of the backward error of a decomposition that worked with numbers of magnitude `B`: a relative error of `n + 3`
roundings, and, if products have an absolute error `η`, the accumulated absolute errors. `q` is the pivot. -/
def RoundedRoots.cholBound [Zero T] [Add T] [Sub T] [Mul T] [MDT T] (ra : RoundedRoots T) (n : Nat) (B q : ℝ) : ℝ :=
  ra.γ (n + 3) * B + ((1 + ra.u) ^ 2 * ra.δ n +
    (1 + ra.u) * ra.η * ((1 + |q|) * (1 + ((1 + ra.u) ^ (n + 1) * B + ra.δ n))) + ra.η ^ 2)

end Minikalman
