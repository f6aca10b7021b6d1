import Verif.Model.Filter
import Verif.Spec.Buffers

/-!
# Specification vocabulary for filters

Large enough buffers, equal matrix contents, and what a step may not touch. No reference to any filter step.
-/

namespace Minikalman

variable {T : Type} {R C n l m : Nat}

/-- Two buffers hold the same matrix (their surplus cells may differ). -/
def Mat.Agree (a b : Mat R C T) : Prop :=
  ∀ (i : Fin R) (j : Fin C), a.data[(i : Nat) * C + (j : Nat)]? = b.data[(i : Nat) * C + (j : Nat)]?

/-- All buffers of the filter are large enough. -/
structure RegularKalman.Valid (f : RegularKalman n T) : Prop where
  x : f.x.Valid
  A : f.A.Valid
  P : f.P.Valid
  Q : f.Q.Valid
  predictedX : f.predictedX.Valid
  tempP : f.tempP.Valid

/-- All buffers of the control are large enough. -/
structure Control.Valid (c : Control n l T) : Prop where
  B : c.B.Valid
  u : c.u.Valid
  Q : c.Q.Valid
  tempBQ : c.tempBQ.Valid

/-- All buffers of the observation are large enough. -/
structure RegularObservation.Valid (o : RegularObservation n m T) : Prop where
  H : o.H.Valid
  z : o.z.Valid
  R : o.R.Valid
  y : o.y.Valid
  S : o.S.Valid
  K : o.K.Valid
  tempSInv : o.tempSInv.Valid
  tempHP : o.tempHP.Valid
  tempPHt : o.tempPHt.Valid
  tempKHP : o.tempKHP.Valid

/-- `f'` has the model matrices of `f`, and all its buffers have the length and the surplus cells of those of `f`. -/
structure RegularKalman.Frame (f f' : RegularKalman n T) : Prop where
  A : f'.A = f.A
  Q : f'.Q = f.Q
  x : f.x.SameTail f'.x
  P : f.P.SameTail f'.P
  predictedX : f.predictedX.SameTail f'.predictedX
  tempP : f.tempP.SameTail f'.tempP

/-- `c'` has the inputs of `c`; only matrix cells of the temporary differ. -/
structure Control.Frame (c c' : Control n l T) : Prop where
  B : c'.B = c.B
  u : c'.u = c.u
  Q : c'.Q = c.Q
  tempBQ : c.tempBQ.SameTail c'.tempBQ

/-- `o'` has the inputs of `o`; only matrix cells of the outputs and temporaries differ. -/
structure RegularObservation.Frame (o o' : RegularObservation n m T) : Prop where
  H : o'.H = o.H
  z : o'.z = o.z
  R : o'.R = o.R
  y : o.y.SameTail o'.y
  S : o.S.SameTail o'.S
  K : o.K.SameTail o'.K
  tempSInv : o.tempSInv.SameTail o'.tempSInv
  tempHP : o.tempHP.SameTail o'.tempHP
  tempPHt : o.tempPHt.SameTail o'.tempPHt
  tempKHP : o.tempKHP.SameTail o'.tempKHP

end Minikalman
