import Verif.Model.Filter

/-!
# Steps interrupted by a panic

In `Verif/Model/Filter.lean` a panic ends the run. A caller may also catch the unwinding panic and go on using the objects. Here
every step is the sequence of kernel calls it makes. A kernel call writes to one buffer only, its `&mut` parameter; if it
panics after some of its writes, that buffer may have any contents (its length stays). This also covers panics of `+`, `-`, `*`
(overflow of fixed point numbers in debug builds), which are not panics in `Verif/Model/Filter.lean`: they can interrupt any
kernel anywhere. Paths are relative to `/repo/crates/minikalman/src`.
-/

namespace Minikalman

variable {T σ τ : Type} {R C n l m : Nat}

/-- One kernel call of a step on objects `σ`: what it does if it returns, and what the objects may look like if it panics. -/
structure Phase (σ : Type) where
  run : σ → Res σ
  dirty : σ → σ → Prop

/-- Run a sequence of kernel calls. -/
def exec : List (Phase σ) → σ → Res σ
  | [], s => .ok s
  | p :: ps, s => do
    let s ← p.run s
    exec ps s

/-- `s'` is a possible state of the objects after the sequence, started in `s`, was interrupted in one of the calls. -/
inductive Interrupted : List (Phase σ) → σ → σ → Prop
  | here {p : Phase σ} {ps : List (Phase σ)} {s s' : σ} (h : p.dirty s s') : Interrupted (p :: ps) s s'
  | later {p : Phase σ} {ps : List (Phase σ)} {s s₁ s' : σ} (h : p.run s = .ok s₁) (h' : Interrupted ps s₁ s') :
      Interrupted (p :: ps) s s'

/-- As `Interrupted`, but only by a panic `e` of `Verif/Model/Filter.lean`: `+`, `-` and `*` do not panic. -/
inductive PanicsWith (e : Panic) : List (Phase σ) → σ → σ → Prop
  | here {p : Phase σ} {ps : List (Phase σ)} {s s' : σ} (h : p.run s = .error e) (h' : p.dirty s s') :
      PanicsWith e (p :: ps) s s'
  | later {p : Phase σ} {ps : List (Phase σ)} {s s₁ s' : σ} (h : p.run s = .ok s₁) (h' : PanicsWith e ps s₁ s') :
      PanicsWith e (p :: ps) s s'

/-- A kernel call with the destination buffer `get`, replaced by `put`. -/
def call (get : σ → Mat R C T) (put : σ → Mat R C T → σ) (f : σ → Res (Mat R C T)) : Phase σ where
  run s := do
    let d ← f s
    pure (put s d)
  dirty s s' := ∃ d : Mat R C T, d.data.length = (get s).data.length ∧ s' = put s d

/-- A scalar computation; it writes to no buffer. Its result is recomputed where it is used (it is a function). -/
def scalar (f : σ → Res T) : Phase σ where
  run s := do
    let _ ← f s
    pure s
  dirty s s' := s' = s

section Arith
variable [Zero T] [One T] [Add T] [Sub T] [Mul T] [Neg T] [MDT T]

/-- Destinations in a regular filter. -/
abbrev onPx (f : RegularKalman n T → Res (Mat n 1 T)) := call (fun s => s.predictedX) (fun s d => { s with predictedX := d }) f
@[inherit_doc onPx]
abbrev onX (f : RegularKalman n T → Res (Mat n 1 T)) := call (fun s => s.x) (fun s d => { s with x := d }) f
@[inherit_doc onPx]
abbrev onTempP (f : RegularKalman n T → Res (Mat n n T)) := call (fun s => s.tempP) (fun s d => { s with tempP := d }) f
@[inherit_doc onPx]
abbrev onP (f : RegularKalman n T → Res (Mat n n T)) := call (fun s => s.P) (fun s d => { s with P := d }) f

/-- The calls of `RegularKalman::predict`, `kalman/regular.rs:299-317`: `predict_x` (`:443-444`), `predict_P` (`:468-470`). -/
def predictCalls : List (Phase (RegularKalman n T)) := [
  onPx fun f => f.A.multRowvector f.x f.predictedX,
  onX fun f => f.predictedX.copyTo f.x,
  onTempP fun f => f.A.mult f.P f.tempP,
  onP fun f => f.tempP.multTransb f.A f.P,
  onP fun f => f.Q.addInplaceB f.P]

/-- The calls of `RegularKalman::predict_tuned`, `kalman/regular.rs:404-421`: `predict_x` (`:443-444`), `predict_P_tuned`
(`:495-500`). -/
def predictTunedCalls (lambda : T) : List (Phase (RegularKalman n T)) := [
  onPx fun f => f.A.multRowvector f.x f.predictedX,
  onX fun f => f.predictedX.copyTo f.x,
  scalar fun _ => MDT.recip (lambda * lambda),
  onTempP fun f => f.A.mult f.P f.tempP,
  onP fun f => do
    let factor ← MDT.recip (lambda * lambda)
    f.tempP.multscaleTransb f.A factor f.P,
  onP fun f => f.Q.addInplaceB f.P]

/-- The calls of `RegularKalman::control`, `kalman/regular.rs:505-513`, i.e. of `Control::apply_control`, `controls.rs:199-227`,
unless it returns at once. -/
def controlCalls : List (Phase (RegularKalman n T × Control n l T)) := [
  call (fun s => s.1.x) (fun s d => ({ s.1 with x := d }, s.2)) fun s => s.2.B.multaddRowvector s.2.u s.1.x,
  call (fun s => s.2.tempBQ) (fun s d => (s.1, { s.2 with tempBQ := d })) fun s => s.2.B.mult s.2.Q s.2.tempBQ,
  call (fun s => s.1.P) (fun s d => ({ s.1 with P := d }, s.2)) fun s => s.2.tempBQ.multaddTransb s.2.B s.1.P]

/-- The calls of `RegularObservation::correct`, `observations/regular.rs:339-357`, and `update_with_innovation`, `:365-419`,
before the first change of the filter: innovation, innovation covariance and its inverse, gain. -/
def gainCalls (bld : Build) : List (Phase (RegularKalman n T × RegularObservation n m T)) := [
  call (fun s => s.2.y) (fun s d => (s.1, { s.2 with y := d })) fun s => s.2.H.multRowvector s.1.x s.2.y,
  call (fun s => s.2.y) (fun s d => (s.1, { s.2 with y := d })) fun s => s.2.z.subInplaceB s.2.y,
  call (fun s => s.2.tempHP) (fun s d => (s.1, { s.2 with tempHP := d })) fun s => s.2.H.mult s.1.P s.2.tempHP,
  call (fun s => s.2.S) (fun s d => (s.1, { s.2 with S := d })) fun s => s.2.tempHP.multTransb s.2.H s.2.S,
  call (fun s => s.2.S) (fun s d => (s.1, { s.2 with S := d })) fun s => s.2.S.addInplaceA s.2.R,
  call (fun s => s.2.S) (fun s d => (s.1, { s.2 with S := d })) fun s => do
    let (S, _) ← s.2.S.choleskyDecomposeLower bld
    pure S,
  call (fun s => s.2.tempSInv) (fun s d => (s.1, { s.2 with tempSInv := d })) fun s => s.2.S.invertLCholesky s.2.tempSInv,
  call (fun s => s.2.tempPHt) (fun s d => (s.1, { s.2 with tempPHt := d })) fun s => s.1.P.multTransb s.2.H s.2.tempPHt,
  call (fun s => s.2.K) (fun s d => (s.1, { s.2 with K := d })) fun s => s.2.tempPHt.mult s.2.tempSInv s.2.K]

/-- The remaining calls of `correct`, `observations/regular.rs:409-418`. -/
def updateCalls : List (Phase (RegularKalman n T × RegularObservation n m T)) := [
  call (fun s => s.1.x) (fun s d => ({ s.1 with x := d }, s.2)) fun s => s.2.K.multaddRowvector s.2.y s.1.x,
  call (fun s => s.2.tempHP) (fun s d => (s.1, { s.2 with tempHP := d })) fun s => s.2.H.mult s.1.P s.2.tempHP,
  call (fun s => s.2.tempKHP) (fun s d => (s.1, { s.2 with tempKHP := d })) fun s => s.2.K.mult s.2.tempHP s.2.tempKHP,
  call (fun s => s.1.P) (fun s d => ({ s.1 with P := d }, s.2)) fun s => s.1.P.subInplaceA s.2.tempKHP]

/-- The calls of `RegularKalman::correct`, `kalman/regular.rs:589-597`. -/
def correctCalls (bld : Build) : List (Phase (RegularKalman n T × RegularObservation n m T)) := gainCalls bld ++ updateCalls

/-! ## Extended filter

The objects are the captured state of the closure, the filter and the observation. -/

/-- The call of a user closure `FnMut(&X, &mut Y)`: if it panics, the output buffer has any contents and the captured state is
anything. -/
def closure {k : Nat} (g : τ → Mat n 1 T → Mat k 1 T → Res (τ × Mat k 1 T)) (arg : σ → Mat n 1 T) (get : σ → Mat k 1 T)
    (put : σ → Mat k 1 T → σ) : Phase (τ × σ) where
  run s := do
    let (st, d) ← g s.1 (arg s.2) (get s.2)
    pure (st, put s.2 d)
  dirty s s' := ∃ d : Mat k 1 T, d.data.length = (get s.2).data.length ∧ s'.2 = put s.2 d

/-- The calls of `ExtendedKalman::predict_nonlinear`, `kalman/extended.rs:360-378`: `predict_x_nonlinear` (`:437-438`),
`predict_P` (`:462-464`). -/
def xpredictCalls (g : τ → Mat n 1 T → Mat n 1 T → Res (τ × Mat n 1 T)) : List (Phase (τ × ExtendedKalman n T)) := [
  closure g (·.x) (·.predictedX) fun f d => { f with predictedX := d },
  call (fun s => s.2.x) (fun s d => (s.1, { s.2 with x := d })) fun s => s.2.predictedX.copyTo s.2.x,
  call (fun s => s.2.tempP) (fun s d => (s.1, { s.2 with tempP := d })) fun s => s.2.A.mult s.2.P s.2.tempP,
  call (fun s => s.2.P) (fun s d => (s.1, { s.2 with P := d })) fun s => s.2.tempP.multTransb s.2.A s.2.P,
  call (fun s => s.2.P) (fun s d => (s.1, { s.2 with P := d })) fun s => s.2.Q.addInplaceB s.2.P]

/-- The calls of `ExtendedKalman::correct_nonlinear`, `kalman/extended.rs:507-520`, that is of
`ExtendedObservation::correct_nonlinear`, `observations/extended.rs:350-369`, and `update_with_innovation`, `:377-431`, before the
first change of the filter. -/
def xgainCalls (bld : Build) (g : τ → Mat n 1 T → Mat m 1 T → Res (τ × Mat m 1 T)) :
    List (Phase (τ × ExtendedKalman n T × ExtendedObservation n m T)) := [
  closure g (·.1.x) (·.2.y) fun s d => (s.1, { s.2 with y := d }),
  call (fun s => s.2.2.y) (fun s d => (s.1, s.2.1, { s.2.2 with y := d })) fun s => s.2.2.z.subInplaceB s.2.2.y,
  call (fun s => s.2.2.tempHP) (fun s d => (s.1, s.2.1, { s.2.2 with tempHP := d })) fun s =>
    s.2.2.H.mult s.2.1.P s.2.2.tempHP,
  call (fun s => s.2.2.S) (fun s d => (s.1, s.2.1, { s.2.2 with S := d })) fun s =>
    s.2.2.tempHP.multTransb s.2.2.H s.2.2.S,
  call (fun s => s.2.2.S) (fun s d => (s.1, s.2.1, { s.2.2 with S := d })) fun s => s.2.2.S.addInplaceA s.2.2.R,
  call (fun s => s.2.2.S) (fun s d => (s.1, s.2.1, { s.2.2 with S := d })) fun s => do
    let (S, _) ← s.2.2.S.choleskyDecomposeLower bld
    pure S,
  call (fun s => s.2.2.tempSInv) (fun s d => (s.1, s.2.1, { s.2.2 with tempSInv := d })) fun s =>
    s.2.2.S.invertLCholesky s.2.2.tempSInv,
  call (fun s => s.2.2.tempPHt) (fun s d => (s.1, s.2.1, { s.2.2 with tempPHt := d })) fun s =>
    s.2.1.P.multTransb s.2.2.H s.2.2.tempPHt,
  call (fun s => s.2.2.K) (fun s d => (s.1, s.2.1, { s.2.2 with K := d })) fun s =>
    s.2.2.tempPHt.mult s.2.2.tempSInv s.2.2.K]

/-- The remaining calls of `correct_nonlinear`, `observations/extended.rs:421-430`. -/
def xupdateCalls : List (Phase (τ × ExtendedKalman n T × ExtendedObservation n m T)) := [
  call (fun s => s.2.1.x) (fun s d => (s.1, { s.2.1 with x := d }, s.2.2)) fun s =>
    s.2.2.K.multaddRowvector s.2.2.y s.2.1.x,
  call (fun s => s.2.2.tempHP) (fun s d => (s.1, s.2.1, { s.2.2 with tempHP := d })) fun s =>
    s.2.2.H.mult s.2.1.P s.2.2.tempHP,
  call (fun s => s.2.2.tempKHP) (fun s d => (s.1, s.2.1, { s.2.2 with tempKHP := d })) fun s =>
    s.2.2.K.mult s.2.2.tempHP s.2.2.tempKHP,
  call (fun s => s.2.1.P) (fun s d => (s.1, { s.2.1 with P := d }, s.2.2)) fun s => s.2.1.P.subInplaceA s.2.2.tempKHP]

/-- The calls of `ExtendedKalman::correct_nonlinear`. -/
def xcorrectCalls (bld : Build) (g : τ → Mat n 1 T → Mat m 1 T → Res (τ × Mat m 1 T)) :
    List (Phase (τ × ExtendedKalman n T × ExtendedObservation n m T)) := xgainCalls bld g ++ xupdateCalls

/-! ## Programs that catch panics -/

/-- The state of the program after a call was interrupted. Assignments either complete or do nothing. A control that returns
at once cannot be interrupted. -/
inductive World.Interrupted (bld : Build) : World n T → Op T → World n T → Prop
  | predict {w : World n T} {kf'} (h : Minikalman.Interrupted predictCalls w.kf kf') :
      World.Interrupted bld w .predict { w with kf := kf' }
  | predictTuned {w : World n T} {kf'} (lambda : T) (h : Minikalman.Interrupted (predictTunedCalls lambda) w.kf kf') :
      World.Interrupted bld w (.predictTuned lambda) { w with kf := kf' }
  | control {w : World n T} {i l : Nat} {c c' : Control n l T} {kf'} (hi : w.ctl[i]? = some ⟨l, c⟩) (hl : 0 < l)
      (h : Minikalman.Interrupted controlCalls (w.kf, c) (kf', c')) :
      World.Interrupted bld w (.control i) { w with kf := kf', ctl := w.ctl.set i ⟨l, c'⟩ }
  | correct {w : World n T} {i m : Nat} {o o' : RegularObservation n m T} {kf'} (hi : w.obs[i]? = some ⟨m, o⟩)
      (h : Minikalman.Interrupted (correctCalls bld) (w.kf, o) (kf', o')) :
      World.Interrupted bld w (.correct i) { w with kf := kf', obs := w.obs.set i ⟨m, o'⟩ }
  | none {w : World n T} (op : Op T) : World.Interrupted bld w op w

/-- A history in which each call either completes or is interrupted anywhere, and the program goes on. -/
inductive World.RunCatching (bld : Build) : World n T → List (Op T) → World n T → Prop
  | nil (w : World n T) : World.RunCatching bld w [] w
  | done {w w₁ w' : World n T} {op : Op T} {ops : List (Op T)} (h : w.step bld op = .ok w₁)
      (h' : World.RunCatching bld w₁ ops w') : World.RunCatching bld w (op :: ops) w'
  | interrupted {w w₁ w' : World n T} {op : Op T} {ops : List (Op T)} (h : World.Interrupted bld w op w₁)
      (h' : World.RunCatching bld w₁ ops w') : World.RunCatching bld w (op :: ops) w'

end Arith
end Minikalman
