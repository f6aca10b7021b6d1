import Verif.Spec.Rounding
import Verif.Spec.History

/-!
# Finite vectors and matrices

`ra.fin` is the notion of a finite number of a rounded arithmetic (`Spec/Rounding`): for floating point numbers, neither NaN
nor an infinity.
-/

namespace Minikalman

variable {T : Type} [Zero T] [Add T] [Sub T] [Mul T] {R C n : Nat}

/-- The matrix held by the buffer has finite entries only. -/
def Mat.Finite (ra : Rounded T) (m : Mat R C T) : Prop := ∃ A, m.Reps A ∧ ∀ i j, ra.fin (A i j)

/-- The vector held by the buffer has finite entries only. -/
def Mat.FiniteV (ra : Rounded T) (m : Mat n 1 T) : Prop := ∃ v, m.RepsV v ∧ ∀ i, ra.fin (v i)

/-- What a finite new state requires of the objects before the call: the old state, the matrices and vectors it is computed
from. A correction computes it from the covariance, too. -/
def World.FiniteForState (ra : Rounded T) (w : World n T) : Op T → Prop
  | .predict => w.kf.x.FiniteV ra ∧ w.kf.A.Finite ra
  | .predictTuned _ => w.kf.x.FiniteV ra ∧ w.kf.A.Finite ra
  | .control i => w.kf.x.FiniteV ra ∧ ∀ c, w.ctl[i]? = some c → c.2.B.Finite ra ∧ c.2.u.FiniteV ra
  | .correct i => w.kf.x.FiniteV ra ∧ w.kf.P.Finite ra ∧ ∀ o, w.obs[i]? = some o → o.2.H.Finite ra ∧ o.2.z.FiniteV ra
  | .setX _ => True
  | _ => w.kf.x.FiniteV ra

/-- What a finite new covariance requires of the objects before the call. The noise `R` of a measurement and `λ` are not
mentioned: an infinite `R` or `λ` is turned into zero by a reciprocal. -/
def World.FiniteForCovariance (ra : Rounded T) (w : World n T) : Op T → Prop
  | .predict => w.kf.P.Finite ra ∧ w.kf.A.Finite ra ∧ w.kf.Q.Finite ra
  | .predictTuned _ => w.kf.P.Finite ra ∧ w.kf.A.Finite ra ∧ w.kf.Q.Finite ra
  | .control i => w.kf.P.Finite ra ∧ ∀ c, w.ctl[i]? = some c → c.2.B.Finite ra ∧ c.2.Q.Finite ra
  | .correct i => w.kf.P.Finite ra ∧ ∀ o, w.obs[i]? = some o → o.2.H.Finite ra
  | .setP _ => True
  | _ => w.kf.P.Finite ra

/-- The call does not assign the state vector. -/
def Op.KeepsX : Op T → Prop
  | .setX _ => False
  | _ => True

/-- The call does not assign the covariance. -/
def Op.KeepsP : Op T → Prop
  | .setP _ => False
  | _ => True

end Minikalman
