import Verif.Model.Builder
import Verif.Spec.Extended

/-!
# Specification of freshly constructed objects
-/

namespace Minikalman

variable {T : Type} {R C n l m : Nat}

/-- The buffer has exactly the size of the matrix and all cells are `v`. -/
def Mat.Filled (v : T) (a : Mat R C T) : Prop :=
  a.data.length = R * C ∧ ∀ (i : Fin R) (j : Fin C), a.data[(i : Nat) * C + (j : Nat)]? = some v

/-- All buffers of the filter are exactly sized and filled with `v`. -/
structure RegularKalman.Filled (v : T) (f : RegularKalman n T) : Prop where
  x : f.x.Filled v
  A : f.A.Filled v
  P : f.P.Filled v
  Q : f.Q.Filled v
  predictedX : f.predictedX.Filled v
  tempP : f.tempP.Filled v

/-- All buffers of the control are exactly sized and filled with `v`. -/
structure Control.Filled (v : T) (c : Control n l T) : Prop where
  B : c.B.Filled v
  u : c.u.Filled v
  Q : c.Q.Filled v
  tempBQ : c.tempBQ.Filled v

/-- All buffers of the observation are exactly sized and filled with `v`. -/
structure RegularObservation.Filled (v : T) (o : RegularObservation n m T) : Prop where
  H : o.H.Filled v
  z : o.z.Filled v
  R : o.R.Filled v
  y : o.y.Filled v
  S : o.S.Filled v
  K : o.K.Filled v
  tempSInv : o.tempSInv.Filled v
  tempHP : o.tempHP.Filled v
  tempPHt : o.tempPHt.Filled v
  tempKHP : o.tempKHP.Filled v

/-- Number of rows of the matrix of each role, for `n` states, `l` controls and `m` measurements. -/
def Role.rows (n l m : Nat) : Role → Nat
  | .x | .A | .P | .Q | .predictedX | .tempP => n
  | .u | .Qc => l
  | .B | .tempBQ => n
  | .z | .H | .R | .y | .S | .tempSInv | .tempHP => m
  | .K | .tempPHt | .tempKHP => n

/-- Number of columns of the matrix of each role. -/
def Role.cols (n l m : Nat) : Role → Nat
  | .x | .predictedX | .u | .z | .y => 1
  | .A | .P | .Q | .tempP | .tempKHP | .H | .tempHP => n
  | .B | .tempBQ | .Qc => l
  | .R | .S | .tempSInv | .K | .tempPHt => m

/-- Assertions are compiled in: a debug build without the feature `no_assert`. -/
def Build.Asserting (bld : Build) : Prop := bld.debugAssertions = true ∧ bld.noAssert = false

namespace Spec

/-- The entries of a matrix column by column (nalgebra's order for slices). -/
def columnMajor (A : Matrix (Fin R) (Fin C) T) : List T :=
  (List.ofFn fun j : Fin C => List.ofFn fun i : Fin R => A i j).flatten

/-- The entries of a matrix row by row. -/
def rowMajor (A : Matrix (Fin R) (Fin C) T) : List T :=
  (List.ofFn fun i : Fin R => List.ofFn fun j : Fin C => A i j).flatten

end Spec
end Minikalman
