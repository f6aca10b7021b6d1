import Verif.Model.FixedPoint
import Verif.Model.Filter
import Verif.Spec.Buffers
import Mathlib.LinearAlgebra.Matrix.Notation
import Mathlib.Data.Real.Basic
import Mathlib.Data.Matrix.Mul

/-!
# Scalar operations that are safe where the decomposition uses them; watching fixed point numbers for overflow
-/

namespace Minikalman

/-- The square root of every number that is not `<= 0` exists, and so does its reciprocal. True of floating point numbers
(nothing panics), and of the fixed point types (the root of a positive number is at least the root of the resolution). -/
class SafeRoots (T : Type) [Zero T] [MDT T] : Prop where
  root_recip : ∀ x : T, MDT.le x 0 = false → ∃ y z, MDT.squareRoot x = .ok y ∧ MDT.recip y = .ok z

namespace Spec

variable {T : Type} {n m : Nat}

/-- The innovation covariance as computed, in any arithmetic: `(H P) Hᵀ + R` with left-to-right sums. -/
def innovCovSeq [Zero T] [Add T] [Mul T] (H : Matrix (Fin m) (Fin n) T) (P : Matrix (Fin n) (Fin n) T)
    (R : Matrix (Fin m) (Fin m) T) : Matrix (Fin m) (Fin m) T :=
  fun i j => mulSeq (mulSeq H P) H.transpose i j + R i j

end Spec

/-- The real number a fixed point number stands for. -/
noncomputable def FixedPoint.val {f : Nat} (a : FixedPoint f) : ℝ := (a.bits.toInt : ℝ) / 2 ^ f

namespace FixedPoint
variable {f R C n : Nat}

/-- The resolution of the type: the distance of neighbouring numbers. -/
noncomputable def res (f : Nat) : ℝ := 1 / 2 ^ f

/-- The numbers of the type are those multiples of the resolution that are at least `-lim` and less than `lim`. -/
noncomputable def lim (f : Nat) : ℝ := 2 ^ f / 2

/-- Real values of the entries. -/
noncomputable def valM (A : Matrix (Fin R) (Fin C) (FixedPoint f)) : Matrix (Fin R) (Fin C) ℝ := Matrix.of fun i j => (A i j).val

/-- Magnitudes of the entries. -/
noncomputable def absM (A : Matrix (Fin R) (Fin C) (FixedPoint f)) : Matrix (Fin R) (Fin C) ℝ :=
  Matrix.of fun i j => |(A i j).val|

/-- Real values of the entries. -/
noncomputable def valV (x : Fin n → FixedPoint f) : Fin n → ℝ := fun i => (x i).val

/-- Magnitudes of the entries. -/
noncomputable def absV (x : Fin n → FixedPoint f) : Fin n → ℝ := fun i => |(x i).val|

/-- Bound for the entries of `A P Bᵀ` as computed. -/
noncomputable def sandwichBound {U V : Nat} (A : Matrix (Fin R) (Fin C) (FixedPoint f))
    (P : Matrix (Fin C) (Fin U) (FixedPoint f)) (B : Matrix (Fin V) (Fin U) (FixedPoint f)) (i : Fin R) (j : Fin V) : ℝ :=
  (∑ k, ((absM A * absM P) i k + C * res f) * absM B j k) + U * res f

end FixedPoint

/-- `z` is representable in `2 f` bits (two's complement). -/
def InRange (f : Nat) (z : Int) : Prop := -2 ^ (2 * f) ≤ 2 * z ∧ 2 * z < 2 ^ (2 * f)

instance (f : Nat) (z : Int) : Decidable (InRange f z) := inferInstanceAs (Decidable (_ ∧ _))

/-- A fixed point number that remembers whether any operation in its computation left the range of the type. -/
structure Watched (f : Nat) where
  num : FixedPoint f
  clean : Bool
  deriving DecidableEq, Repr

namespace Watched
variable {f : Nat}

/-- A number nothing has been computed with yet. -/
def fresh (a : FixedPoint f) : Watched f := ⟨a, true⟩

instance : Inhabited (Watched f) := ⟨fresh default⟩
instance : Zero (Watched f) := ⟨fresh 0⟩
instance : One (Watched f) := ⟨fresh 1⟩

instance : Add (Watched f) := ⟨fun a b => ⟨a.num + b.num,
  a.clean && b.clean && decide (InRange f (a.num.bits.toInt + b.num.bits.toInt))⟩⟩

instance : Sub (Watched f) := ⟨fun a b => ⟨a.num - b.num,
  a.clean && b.clean && decide (InRange f (a.num.bits.toInt - b.num.bits.toInt))⟩⟩

instance : Mul (Watched f) := ⟨fun a b => ⟨a.num * b.num,
  a.clean && b.clean && decide (InRange f (a.num.bits.toInt * b.num.bits.toInt / 2 ^ f))⟩⟩

instance : Neg (Watched f) := ⟨fun a => ⟨-a.num, a.clean && decide (InRange f (-a.num.bits.toInt))⟩⟩

/-- The operations of the fixed point type, with the mark carried along. -/
instance : MDT (Watched f) where
  recip a := (MDT.recip a.num).map fun d => ⟨d, a.clean && decide (InRange f (Int.tdiv (2 ^ (2 * f)) a.num.bits.toInt))⟩
  squareRoot a := (MDT.squareRoot a.num).map fun q =>
    ⟨q, a.clean && decide (InRange f (Nat.sqrt (a.num.bits.toInt.toNat * 2 ^ f)))⟩
  le a b := MDT.le a.num b.num
  isum l := l.foldl (· + ·) 0

end Watched

/-- No cell of the buffer has been affected by an overflow. -/
def Mat.AllClean {f R C : Nat} (a : Mat R C (Watched f)) : Prop := ∀ v ∈ a.data, v.clean = true

end Minikalman
