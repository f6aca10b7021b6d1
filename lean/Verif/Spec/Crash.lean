import Verif.Model.Crash
import Verif.Spec.Aliasing

/-!
# Specification of interrupted steps

What an interrupted step may not touch.
-/

namespace Minikalman

variable {T : Type} {n l m : Nat}

/-- Same model matrices `A`, `Q`; all other buffers have the same lengths. -/
structure RegularKalman.Kept (f f' : RegularKalman n T) : Prop where
  A : f'.A = f.A
  Q : f'.Q = f.Q
  x : f'.x.data.length = f.x.data.length
  P : f'.P.data.length = f.P.data.length
  predictedX : f'.predictedX.data.length = f.predictedX.data.length
  tempP : f'.tempP.data.length = f.tempP.data.length

/-- Same inputs `B`, `u`, `Q`; the temporary has the same length. -/
structure Control.Kept (c c' : Control n l T) : Prop where
  B : c'.B = c.B
  u : c'.u = c.u
  Q : c'.Q = c.Q
  tempBQ : c'.tempBQ.data.length = c.tempBQ.data.length

/-- Same inputs `H`, `z`, `R`; all other buffers have the same lengths. -/
structure RegularObservation.Kept (o o' : RegularObservation n m T) : Prop where
  H : o'.H = o.H
  z : o'.z = o.z
  R : o'.R = o.R
  y : o'.y.data.length = o.y.data.length
  S : o'.S.data.length = o.S.data.length
  K : o'.K.data.length = o.K.data.length
  tempSInv : o'.tempSInv.data.length = o.tempSInv.data.length
  tempHP : o'.tempHP.data.length = o.tempHP.data.length
  tempPHt : o'.tempPHt.data.length = o.tempPHt.data.length
  tempKHP : o'.tempKHP.data.length = o.tempKHP.data.length

/-- Restore a saved estimate: write the state and covariance of `w` into `w'`. -/
def World.restore (w w' : World n T) : World n T := { w' with kf := { w'.kf with x := w.kf.x, P := w.kf.P } }

end Minikalman
