import Verif.Model.Firmware
import Verif.Spec.Limit

/-! # Specification of repeated calls of the firmware's `predict_gravity` -/

namespace Minikalman
namespace Firmware

variable {T : Type}

/-- The buffers have the sizes the macros give them: those which are read and written by the program exactly, the others are
large enough. Nothing is said of their contents. -/
structure Statics.Sized (s : Statics T) : Prop where
  filter : s.filter.Valid
  observation : s.observation.Valid
  x : s.filter.x.data.length = 3
  A : s.filter.A.data.length = 9
  P : s.filter.P.data.length = 9
  Q : s.filter.Q.data.length = 9
  H : s.observation.H.data.length = 3
  z : s.observation.z.data.length = 1
  R : s.observation.R.data.length = 1

/-- The two memories agree in the process noise and in the three cells of the covariance below the diagonal. -/
structure Statics.SameLeftovers (s t : Statics T) : Prop where
  Q : s.filter.Q = t.filter.Q
  P10 : s.filter.P.getAt 1 0 = t.filter.P.getAt 1 0
  P20 : s.filter.P.getAt 2 0 = t.filter.P.getAt 2 0
  P21 : s.filter.P.getAt 2 1 = t.filter.P.getAt 2 1

/-- An initialisation that also writes the cells below the diagonal, with `set_symmetric` in place of `set_at`. The code does
not do this. -/
def symmetricP [Zero T] [One T] (tenth : T) (p : Mat 3 3 T) : Res (Mat 3 3 T) := do
  let p ← p.setAt 0 0 tenth
  let p ← p.setSymmetric 0 1 0
  let p ← p.setSymmetric 0 2 0
  let p ← p.setAt 1 1 1
  let p ← p.setSymmetric 1 2 0
  p.setAt 2 2 1

end Firmware
end Minikalman
