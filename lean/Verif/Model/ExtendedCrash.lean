import Verif.Model.Crash
import Verif.Model.ExtendedWorld

/-!
# Programs with an extended filter that catch panics

As in `Verif/Model/Crash.lean`: every call is the sequence of kernel calls and calls of user closures it makes, and each of them can be
interrupted anywhere. Paths are relative to `/repo/crates/minikalman/src`.
-/

namespace Minikalman

variable {T σ : Type} {n m : Nat} [Zero T] [One T] [Add T] [Sub T] [Mul T] [Neg T] [MDT T]

/-- The calls of `ExtendedKalman::predict_tuned_nonlinear`, `kalman/extended.rs:405-423`: `predict_x_nonlinear` (`:434-438`),
`predict_P_tuned` (`:489-494`). -/
def xpredictTunedCalls (lambda : T) (g : σ → Mat n 1 T → Mat n 1 T → Res (σ × Mat n 1 T)) :
    List (Phase (σ × ExtendedKalman n T)) := [
  closure g (·.x) (·.predictedX) fun f d => { f with predictedX := d },
  call (fun s => s.2.x) (fun s d => (s.1, { s.2 with x := d })) fun s => s.2.predictedX.copyTo s.2.x,
  scalar fun _ => MDT.recip (lambda * lambda),
  call (fun s => s.2.tempP) (fun s d => (s.1, { s.2 with tempP := d })) fun s => s.2.A.mult s.2.P s.2.tempP,
  call (fun s => s.2.P) (fun s d => (s.1, { s.2 with P := d })) fun s => do
    let factor ← MDT.recip (lambda * lambda)
    s.2.tempP.multscaleTransb s.2.A factor s.2.P,
  call (fun s => s.2.P) (fun s d => (s.1, { s.2 with P := d })) fun s => s.2.Q.addInplaceB s.2.P]

/-- The state of the program after a call was interrupted, `kalman/extended.rs:360-520`. The captured state of the closure can be
anything. Assignments either complete or do nothing. -/
inductive XWorld.Interrupted (bld : Build) : XWorld n T σ → XOp n T σ → XWorld n T σ → Prop
  | predict {w : XWorld n T σ} {g} {env'} {kf'} (h : Minikalman.Interrupted (xpredictCalls g) (w.env, w.kf) (env', kf')) :
      XWorld.Interrupted bld w (.predict g) { w with kf := kf', env := env' }
  | predictTuned {w : XWorld n T σ} {lambda : T} {g} {env'} {kf'}
      (h : Minikalman.Interrupted (xpredictTunedCalls lambda g) (w.env, w.kf) (env', kf')) :
      XWorld.Interrupted bld w (.predictTuned lambda g) { w with kf := kf', env := env' }
  | correct {w : XWorld n T σ} {i m : Nat} {o o' : ExtendedObservation n m T} {k} {env'} {kf'} (hi : w.obs[i]? = some ⟨m, o⟩)
      (h : Minikalman.Interrupted (xcorrectCalls bld (k m)) (w.env, w.kf, o) (env', kf', o')) :
      XWorld.Interrupted bld w (.correct i k) { kf := kf', obs := w.obs.set i ⟨m, o'⟩, env := env' }
  | none {w : XWorld n T σ} (op : XOp n T σ) : XWorld.Interrupted bld w op w

/-- A history in which each call either completes or is interrupted anywhere, and the program goes on. -/
inductive XWorld.RunCatching (bld : Build) : XWorld n T σ → List (XOp n T σ) → XWorld n T σ → Prop
  | nil (w : XWorld n T σ) : XWorld.RunCatching bld w [] w
  | done {w w₁ w' : XWorld n T σ} {op : XOp n T σ} {ops : List (XOp n T σ)} (h : w.step bld op = .ok w₁)
      (h' : XWorld.RunCatching bld w₁ ops w') : XWorld.RunCatching bld w (op :: ops) w'
  | interrupted {w w₁ w' : XWorld n T σ} {op : XOp n T σ} {ops : List (XOp n T σ)} (h : XWorld.Interrupted bld w op w₁)
      (h' : XWorld.RunCatching bld w₁ ops w') : XWorld.RunCatching bld w (op :: ops) w'

end Minikalman
