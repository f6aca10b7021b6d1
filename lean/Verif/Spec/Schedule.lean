import Verif.Spec.History

/-!
# Recorded gains

What has to be recorded from one run of a filter in order to repeat only the state estimate on other data: the matrices that
act on the state. No covariance is propagated, nothing is decomposed or inverted.
-/

namespace Minikalman

variable {T : Type} {n : Nat}

/-- What is recorded from one call. -/
inductive Recorded (T : Type)
  | none
  /-- the transition matrix -/
  | predict (A : List T)
  /-- number of controls, control matrix -/
  | control (l : Nat) (B : List T)
  /-- number of measurements, observation matrix, gain -/
  | correct (m : Nat) (H K : List T)
  deriving DecidableEq

/-- The record of a call: transition and control matrix before the call, observation matrix and gain after it. -/
def World.recorded (w after : World n T) : Op T → Recorded T
  | .predict => .predict w.kf.A.data
  | .predictTuned _ => .predict w.kf.A.data
  | .control i => match w.ctl[i]? with
    | some c => .control c.1 c.2.B.data
    | .none => .none
  | .correct i => match after.obs[i]? with
    | some o => .correct o.1 o.2.H.data o.2.K.data
    | .none => .none
  | _ => .none

/-- Execute a sequence of calls and record it. -/
def World.record [Zero T] [One T] [Add T] [Sub T] [Mul T] [Neg T] [MDT T] (bld : Build) (w : World n T) :
    List (Op T) → Res (List (Recorded T))
  | [] => .ok []
  | op :: ops => do
    let w' ← w.step bld op
    let rest ← w'.record bld ops
    pure (w.recorded w' op :: rest)

/-- A program that only estimates the state: the state, the slices of control inputs and of measurements. -/
structure Estimator (n : Nat) (T : Type) where
  x : Fin n → T
  u : List (List T)
  z : List (List T)

/-- The data of a world. -/
def World.estimator [Zero T] (w : World n T) : Estimator n T where
  x := Spec.vecOf w.kf.x.data
  u := w.ctl.map fun c => c.2.u.data
  z := w.obs.map fun o => o.2.z.data

/-- Repeat a call on the data: `x = A x`, `x = x + B u`, `x = x + K (z - H x)`, or an assignment of data. -/
def Estimator.step [Zero T] [Add T] [Sub T] [Mul T] (e : Estimator n T) : Recorded T × Op T → Estimator n T
  | (.predict A, .predict) => { e with x := Spec.mulVecSeq (Spec.matOf A) e.x }
  | (.predict A, .predictTuned _) => { e with x := Spec.mulVecSeq (Spec.matOf A) e.x }
  | (.control l B, .control i) => if l = 0 then e else
      { e with x := e.x + Spec.mulVecSeq (Spec.matOf B) (Spec.vecOf (e.u[i]?.getD []) : Fin l → T) }
  | (.correct m H K, .correct i) =>
      let z : Fin m → T := Spec.vecOf (e.z[i]?.getD [])
      { e with x := e.x + Spec.mulVecSeq (Spec.matOf K) (z - Spec.mulVecSeq (Spec.matOf H) e.x) }
  | (_, .setX v) => { e with x := Spec.vecOf v }
  | (_, .setU i v) => { e with u := e.u.set i v }
  | (_, .setZ i v) => { e with z := e.z.set i v }
  | _ => e

/-- Repeat a recorded sequence of calls on the data. -/
def Estimator.replay [Zero T] [Add T] [Sub T] [Mul T] (e : Estimator n T) (gains : List (Recorded T)) (ops : List (Op T)) :
    Estimator n T := (gains.zip ops).foldl Estimator.step e

end Minikalman
