import Verif.Model.Matrix
import Mathlib.Data.Matrix.Mul

/-!
# Specification vocabulary: what a buffer holds

No reference to the kernels of the model; only to the backing slice `Mat.data`.
-/

namespace Minikalman

variable {T : Type} {R C n : Nat}

/-- The buffer is large enough for its matrix (`is_valid()`). -/
def Mat.Valid (m : Mat R C T) : Prop := R * C ≤ m.data.length

/-- The buffer holds the matrix `A` in row-major order: the cell `(i, j)` is stored at `i * C + j`. -/
def Mat.Reps (m : Mat R C T) (A : Matrix (Fin R) (Fin C) T) : Prop :=
  ∀ (i : Fin R) (j : Fin C), m.data[(i : Nat) * C + (j : Nat)]? = some (A i j)

/-- The diagonal and the upper triangle of the buffer hold those of `A`; the rest of the buffer is arbitrary. -/
def Mat.RepsUpper (m : Mat n n T) (A : Matrix (Fin n) (Fin n) T) : Prop :=
  ∀ i j : Fin n, i ≤ j → m.data[(i : Nat) * n + (j : Nat)]? = some (A i j)

/-- The diagonal and the lower triangle of the buffer hold those of `A`; the rest of the buffer is arbitrary. -/
def Mat.RepsLower (m : Mat n n T) (A : Matrix (Fin n) (Fin n) T) : Prop :=
  ∀ i j : Fin n, j ≤ i → m.data[(i : Nat) * n + (j : Nat)]? = some (A i j)

/-- The buffer holds the vector `v`. -/
def Mat.RepsV (m : Mat n 1 T) (v : Fin n → T) : Prop :=
  ∀ i : Fin n, m.data[(i : Nat)]? = some (v i)

/-- Buffer length and all cells behind the matrix are the same (surplus of oversized buffers). -/
def Mat.SameTail (m m' : Mat R C T) : Prop :=
  m'.data.length = m.data.length ∧ ∀ k, R * C ≤ k → m'.data[k]? = m.data[k]?

instance [DecidableEq T] (m : Mat R C T) (A : Matrix (Fin R) (Fin C) T) : Decidable (m.Reps A) :=
  inferInstanceAs (Decidable (∀ (i : Fin R) (j : Fin C), m.data[(i : Nat) * C + (j : Nat)]? = some (A i j)))

instance [DecidableEq T] (m : Mat n 1 T) (v : Fin n → T) : Decidable (m.RepsV v) :=
  inferInstanceAs (Decidable (∀ i : Fin n, m.data[(i : Nat)]? = some (v i)))

instance [DecidableEq T] (m : Mat n n T) (A : Matrix (Fin n) (Fin n) T) : Decidable (m.RepsUpper A) :=
  inferInstanceAs (Decidable (∀ i j : Fin n, i ≤ j → m.data[(i : Nat) * n + (j : Nat)]? = some (A i j)))

instance [DecidableEq T] (m : Mat n n T) (A : Matrix (Fin n) (Fin n) T) : Decidable (m.RepsLower A) :=
  inferInstanceAs (Decidable (∀ i j : Fin n, j ≤ i → m.data[(i : Nat) * n + (j : Nat)]? = some (A i j)))

instance (m : Mat R C T) : Decidable m.Valid := inferInstanceAs (Decidable (R * C ≤ m.data.length))

namespace Spec

/-- `init + v 0 * w 0 + v 1 * w 1 + ...`, added from left to right, in any arithmetic. -/
def dotFrom [Add T] [Mul T] (init : T) (v w : Fin n → T) : T :=
  Fin.foldl n (fun acc k => acc + v k * w k) init

/-- `v 0 * w 0 + v 1 * w 1 + ...`, added from left to right starting with the first product, in any arithmetic
(zero for the empty vectors). -/
def dotFirst [Zero T] [Add T] [Mul T] : {n : Nat} → (Fin n → T) → (Fin n → T) → T
  | 0, _, _ => 0
  | n + 1, v, w => Fin.foldl n (fun acc k => acc + v k.succ * w k.succ) (v 0 * w 0)

/-- Matrix product computed by left-to-right sums starting at zero, in any arithmetic. -/
def mulSeq [Zero T] [Add T] [Mul T] {R C U : Nat} (A : Matrix (Fin R) (Fin C) T)
    (B : Matrix (Fin C) (Fin U) T) : Matrix (Fin R) (Fin U) T :=
  fun i j => dotFrom 0 (fun k => A i k) (fun k => B k j)

/-- Matrix-vector product computed by left-to-right sums starting with the first product. -/
def mulVecSeq [Zero T] [Add T] [Mul T] {R C : Nat} (A : Matrix (Fin R) (Fin C) T) (x : Fin C → T) :
    Fin R → T :=
  fun i => dotFirst (fun k => A i k) x

end Spec
end Minikalman
