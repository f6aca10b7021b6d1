import Verif.Model.Matrix

/-!
# The filters: `kalman/*.rs`, `controls.rs`, `observations/*.rs`

Paths are relative to `/repo/crates/minikalman/src`.
The typed wrappers (`StateVectorBuffer`, ...) are represented by their matrix (`as_matrix`, `as_matrix_mut` return the
wrapped matrix, `buffers/macros.rs:78-105`).
-/

namespace Minikalman

variable {T : Type} {n l m : Nat}

/-- `RegularKalman`, `kalman/regular.rs:92-120`. -/
structure RegularKalman (n : Nat) (T : Type) where
  x : Mat n 1 T
  A : Mat n n T
  P : Mat n n T
  Q : Mat n n T
  predictedX : Mat n 1 T
  tempP : Mat n n T
  deriving DecidableEq

/-- `ExtendedKalman`, `kalman/extended.rs:92-120`. -/
structure ExtendedKalman (n : Nat) (T : Type) where
  x : Mat n 1 T
  A : Mat n n T
  P : Mat n n T
  Q : Mat n n T
  predictedX : Mat n 1 T
  tempP : Mat n n T
  deriving DecidableEq

/-- `Control`, `controls.rs:52-72`. -/
structure Control (n l : Nat) (T : Type) where
  B : Mat n l T
  u : Mat l 1 T
  Q : Mat l l T
  tempBQ : Mat n l T
  deriving DecidableEq

/-- `RegularObservation`, `observations/regular.rs:139-205`. -/
structure RegularObservation (n m : Nat) (T : Type) where
  H : Mat m n T
  z : Mat m 1 T
  R : Mat m m T
  y : Mat m 1 T
  S : Mat m m T
  K : Mat n m T
  tempSInv : Mat m m T
  tempHP : Mat m n T
  tempPHt : Mat n m T
  tempKHP : Mat n n T
  deriving DecidableEq

/-- `ExtendedObservation`, `observations/extended.rs:139-205`. -/
structure ExtendedObservation (n m : Nat) (T : Type) where
  H : Mat m n T
  z : Mat m 1 T
  R : Mat m m T
  y : Mat m 1 T
  S : Mat m m T
  K : Mat n m T
  tempSInv : Mat m m T
  tempHP : Mat m n T
  tempPHt : Mat n m T
  tempKHP : Mat n n T
  deriving DecidableEq

section Arith
variable [Zero T] [One T] [Add T] [Sub T] [Mul T] [Neg T] [MDT T]

/-! ## Controls -/

/-- `Control::apply_control`, `controls.rs:199-227`; also `KalmanFilterControlApplyToFilter::apply_to`,
`controls.rs:326-332`, which forwards. Returns the control object, `x` and `P`. -/
def Control.applyControl (c : Control n l T) (x : Mat n 1 T) (P : Mat n n T) :
    Res (Control n l T × Mat n 1 T × Mat n n T) := do
  if c.u.isEmpty || c.B.isEmpty then
    pure (c, x, P)
  else do
    let x ← c.B.multaddRowvector c.u x
    let tempBQ ← c.B.mult c.Q c.tempBQ
    let P ← tempBQ.multaddTransb c.B P
    pure ({ c with tempBQ := tempBQ }, x, P)

/-! ## Observations -/

/-- `RegularObservation::update_with_innovation`, `observations/regular.rs:365-419`. The Boolean returned by
`cholesky_decompose_lower` is dropped, as in the code. -/
def RegularObservation.updateWithInnovation (bld : Build) (o : RegularObservation n m T)
    (x : Mat n 1 T) (P : Mat n n T) : Res (RegularObservation n m T × Mat n 1 T × Mat n n T) := do
  let tempHP ← o.H.mult P o.tempHP
  let S ← tempHP.multTransb o.H o.S
  let S ← S.addInplaceA o.R
  let (S, _) ← S.choleskyDecomposeLower bld
  let tempSInv ← S.invertLCholesky o.tempSInv
  let tempPHt ← P.multTransb o.H o.tempPHt
  let K ← tempPHt.mult tempSInv o.K
  let x ← K.multaddRowvector o.y x
  let tempHP ← o.H.mult P tempHP
  let tempKHP ← K.mult tempHP o.tempKHP
  let P ← P.subInplaceA tempKHP
  pure ({ o with S := S, K := K, tempSInv := tempSInv, tempHP := tempHP,
                 tempPHt := tempPHt, tempKHP := tempKHP }, x, P)

/-- `RegularObservation::correct`, `observations/regular.rs:339-357`; the trait method
(`observations/regular.rs:826-832`) forwards. -/
def RegularObservation.correct (bld : Build) (o : RegularObservation n m T)
    (x : Mat n 1 T) (P : Mat n n T) : Res (RegularObservation n m T × Mat n 1 T × Mat n n T) := do
  let y ← o.H.multRowvector x o.y
  let y ← o.z.subInplaceB y
  RegularObservation.updateWithInnovation bld { o with y := y } x P

/-- `ExtendedObservation::update_with_innovation`, `observations/extended.rs:377-431` (a textual duplicate of the
regular one, modelled separately). -/
def ExtendedObservation.updateWithInnovation (bld : Build) (o : ExtendedObservation n m T)
    (x : Mat n 1 T) (P : Mat n n T) : Res (ExtendedObservation n m T × Mat n 1 T × Mat n n T) := do
  let tempHP ← o.H.mult P o.tempHP
  let S ← tempHP.multTransb o.H o.S
  let S ← S.addInplaceA o.R
  let (S, _) ← S.choleskyDecomposeLower bld
  let tempSInv ← S.invertLCholesky o.tempSInv
  let tempPHt ← P.multTransb o.H o.tempPHt
  let K ← tempPHt.mult tempSInv o.K
  let x ← K.multaddRowvector o.y x
  let tempHP ← o.H.mult P tempHP
  let tempKHP ← K.mult tempHP o.tempKHP
  let P ← P.subInplaceA tempKHP
  pure ({ o with S := S, K := K, tempSInv := tempSInv, tempHP := tempHP,
                 tempPHt := tempPHt, tempKHP := tempKHP }, x, P)

/-- `ExtendedObservation::correct_nonlinear`, `observations/extended.rs:350-369`. The closure
`FnMut(&X, &mut Y)` is a function from its captured state, the state vector and the current contents of the `y`
buffer to its new captured state and the new contents of `y`; it may panic. -/
def ExtendedObservation.correctNonlinear {σ : Type} (bld : Build) (o : ExtendedObservation n m T)
    (x : Mat n 1 T) (P : Mat n n T) (observation : σ → Mat n 1 T → Mat m 1 T → Res (σ × Mat m 1 T))
    (st : σ) : Res (σ × ExtendedObservation n m T × Mat n 1 T × Mat n n T) := do
  let (st, y) ← observation st x o.y
  let y ← o.z.subInplaceB y
  let r ← ExtendedObservation.updateWithInnovation bld { o with y := y } x P
  pure (st, r)

/-! ## Regular filter -/

/-- `RegularKalman::predict_x`, `kalman/regular.rs:426-445`. -/
def RegularKalman.predictX (f : RegularKalman n T) : Res (RegularKalman n T) := do
  let px ← f.A.multRowvector f.x f.predictedX
  let x ← px.copyTo f.x
  pure { f with x := x, predictedX := px }

/-- `RegularKalman::predict_P`, `kalman/regular.rs:449-471`. -/
def RegularKalman.predictP (f : RegularKalman n T) : Res (RegularKalman n T) := do
  let tempP ← f.A.mult f.P f.tempP
  let P ← tempP.multTransb f.A f.P
  let P ← f.Q.addInplaceB P
  pure { f with P := P, tempP := tempP }

/-- `RegularKalman::predict_P_tuned`, `kalman/regular.rs:475-501`. -/
def RegularKalman.predictPTuned (f : RegularKalman n T) (lambda : T) : Res (RegularKalman n T) := do
  let factor ← MDT.recip (lambda * lambda)
  let tempP ← f.A.mult f.P f.tempP
  let P ← tempP.multscaleTransb f.A factor f.P
  let P ← f.Q.addInplaceB P
  pure { f with P := P, tempP := tempP }

/-- `RegularKalman::predict`, `kalman/regular.rs:299-317`; the trait method (`kalman/regular.rs:727`) forwards. -/
def RegularKalman.predict (f : RegularKalman n T) : Res (RegularKalman n T) := do
  let f ← f.predictX
  f.predictP

/-- `RegularKalman::predict_tuned`, `kalman/regular.rs:404-421`. -/
def RegularKalman.predictTuned (f : RegularKalman n T) (lambda : T) : Res (RegularKalman n T) := do
  let f ← f.predictX
  f.predictPTuned lambda

/-- `RegularKalman::control`, `kalman/regular.rs:505-513`. -/
def RegularKalman.control (f : RegularKalman n T) (c : Control n l T) :
    Res (RegularKalman n T × Control n l T) := do
  let (c, x, P) ← c.applyControl f.x f.P
  pure ({ f with x := x, P := P }, c)

/-- `RegularKalman::correct`, `kalman/regular.rs:589-597`. -/
def RegularKalman.correct (bld : Build) (f : RegularKalman n T) (o : RegularObservation n m T) :
    Res (RegularKalman n T × RegularObservation n m T) := do
  let (o, x, P) ← o.correct bld f.x f.P
  pure ({ f with x := x, P := P }, o)

/-! ## Extended filter -/

/-- `ExtendedKalman::predict_x_nonlinear`, `kalman/extended.rs:427-439`; closures as in
`ExtendedObservation.correctNonlinear`. -/
def ExtendedKalman.predictXNonlinear {σ : Type} (f : ExtendedKalman n T)
    (stateTransition : σ → Mat n 1 T → Mat n 1 T → Res (σ × Mat n 1 T)) (st : σ) :
    Res (σ × ExtendedKalman n T) := do
  let (st, px) ← stateTransition st f.x f.predictedX
  let x ← px.copyTo f.x
  pure (st, { f with x := x, predictedX := px })

/-- `ExtendedKalman::predict_P`, `kalman/extended.rs:443-465`. -/
def ExtendedKalman.predictP (f : ExtendedKalman n T) : Res (ExtendedKalman n T) := do
  let tempP ← f.A.mult f.P f.tempP
  let P ← tempP.multTransb f.A f.P
  let P ← f.Q.addInplaceB P
  pure { f with P := P, tempP := tempP }

/-- `ExtendedKalman::predict_P_tuned`, `kalman/extended.rs:469-495`. -/
def ExtendedKalman.predictPTuned (f : ExtendedKalman n T) (lambda : T) : Res (ExtendedKalman n T) := do
  let factor ← MDT.recip (lambda * lambda)
  let tempP ← f.A.mult f.P f.tempP
  let P ← tempP.multscaleTransb f.A factor f.P
  let P ← f.Q.addInplaceB P
  pure { f with P := P, tempP := tempP }

/-- `ExtendedKalman::predict_nonlinear`, `kalman/extended.rs:360-378`. -/
def ExtendedKalman.predictNonlinear {σ : Type} (f : ExtendedKalman n T)
    (stateTransition : σ → Mat n 1 T → Mat n 1 T → Res (σ × Mat n 1 T)) (st : σ) :
    Res (σ × ExtendedKalman n T) := do
  let (st, f) ← f.predictXNonlinear stateTransition st
  let f ← f.predictP
  pure (st, f)

/-- `ExtendedKalman::predict_tuned_nonlinear`, `kalman/extended.rs:405-423`. -/
def ExtendedKalman.predictTunedNonlinear {σ : Type} (f : ExtendedKalman n T) (lambda : T)
    (stateTransition : σ → Mat n 1 T → Mat n 1 T → Res (σ × Mat n 1 T)) (st : σ) :
    Res (σ × ExtendedKalman n T) := do
  let (st, f) ← f.predictXNonlinear stateTransition st
  let f ← f.predictPTuned lambda
  pure (st, f)

/-- `ExtendedKalman::correct_nonlinear`, `kalman/extended.rs:507-520`. -/
def ExtendedKalman.correctNonlinear {σ : Type} (bld : Build) (f : ExtendedKalman n T)
    (o : ExtendedObservation n m T) (observation : σ → Mat n 1 T → Mat m 1 T → Res (σ × Mat m 1 T))
    (st : σ) : Res (σ × ExtendedKalman n T × ExtendedObservation n m T) := do
  let (st, o, x, P) ← o.correctNonlinear bld f.x f.P observation st
  pure (st, { f with x := x, P := P }, o)

end Arith

/-! ## Sequences of calls -/

/-- A user writing new contents into a buffer through `*_mut()` accessors (`as_mut_slice().copy_from_slice(v)`,
which panics if the lengths differ). Every safe in-place mutation of a buffer is one of these. -/
def Mat.copyFromSlice {R C : Nat} (_m : Mat R C T) (v : List T) : Res (Mat R C T) :=
  if v.length = _m.data.length then .ok ⟨v⟩ else .error .assertion

/-- A program holding one regular filter and any number of controls and observations of any dimensions. -/
structure World (n : Nat) (T : Type) where
  kf : RegularKalman n T
  ctl : List ((l : Nat) × Control n l T)
  obs : List ((m : Nat) × RegularObservation n m T)

/-- One API call of the program. The setters are the `*_mut` accessors: `kalman/regular.rs:155,191,217,710`,
`controls.rs:117,148,183`, `observations/regular.rs:259,288,462`. -/
inductive Op (T : Type)
  | predict
  | predictTuned (lambda : T)
  | control (i : Nat)
  | correct (i : Nat)
  | setX (v : List T)
  | setA (v : List T)
  | setP (v : List T)
  | setQ (v : List T)
  | setU (i : Nat) (v : List T)
  | setB (i : Nat) (v : List T)
  | setQc (i : Nat) (v : List T)
  | setZ (i : Nat) (v : List T)
  | setH (i : Nat) (v : List T)
  | setR (i : Nat) (v : List T)

section World
variable [Zero T] [One T] [Add T] [Sub T] [Mul T] [Neg T] [MDT T]

/-- Modify the `i`-th control; a missing control is a panic. -/
def World.withCtl (w : World n T) (i : Nat)
    (g : (l : Nat) → Control n l T → Res (Control n l T)) : Res (World n T) :=
  match w.ctl[i]? with
  | none => .error .bounds
  | some ⟨l, c⟩ => do
    let c ← g l c
    pure { w with ctl := w.ctl.set i ⟨l, c⟩ }

/-- Modify the `i`-th observation; a missing observation is a panic. -/
def World.withObs (w : World n T) (i : Nat)
    (g : (m : Nat) → RegularObservation n m T → Res (RegularObservation n m T)) : Res (World n T) :=
  match w.obs[i]? with
  | none => .error .bounds
  | some ⟨m, o⟩ => do
    let o ← g m o
    pure { w with obs := w.obs.set i ⟨m, o⟩ }

/-- Execute one call. -/
def World.step (bld : Build) (w : World n T) : Op T → Res (World n T)
  | .predict => do
    let kf ← w.kf.predict
    pure { w with kf := kf }
  | .predictTuned lambda => do
    let kf ← w.kf.predictTuned lambda
    pure { w with kf := kf }
  | .control i =>
    match w.ctl[i]? with
    | none => .error .bounds
    | some ⟨l, c⟩ => do
      let (kf, c) ← w.kf.control c
      pure { w with kf := kf, ctl := w.ctl.set i ⟨l, c⟩ }
  | .correct i =>
    match w.obs[i]? with
    | none => .error .bounds
    | some ⟨m, o⟩ => do
      let (kf, o) ← w.kf.correct bld o
      pure { w with kf := kf, obs := w.obs.set i ⟨m, o⟩ }
  | .setX v => do
    let x ← w.kf.x.copyFromSlice v
    pure { w with kf := { w.kf with x := x } }
  | .setA v => do
    let A ← w.kf.A.copyFromSlice v
    pure { w with kf := { w.kf with A := A } }
  | .setP v => do
    let P ← w.kf.P.copyFromSlice v
    pure { w with kf := { w.kf with P := P } }
  | .setQ v => do
    let Q ← w.kf.Q.copyFromSlice v
    pure { w with kf := { w.kf with Q := Q } }
  | .setU i v => w.withCtl i fun _ c => do
    let u ← c.u.copyFromSlice v
    pure { c with u := u }
  | .setB i v => w.withCtl i fun _ c => do
    let B ← c.B.copyFromSlice v
    pure { c with B := B }
  | .setQc i v => w.withCtl i fun _ c => do
    let Q ← c.Q.copyFromSlice v
    pure { c with Q := Q }
  | .setZ i v => w.withObs i fun _ o => do
    let z ← o.z.copyFromSlice v
    pure { o with z := z }
  | .setH i v => w.withObs i fun _ o => do
    let H ← o.H.copyFromSlice v
    pure { o with H := H }
  | .setR i v => w.withObs i fun _ o => do
    let R ← o.R.copyFromSlice v
    pure { o with R := R }

/-- Execute a sequence of calls. -/
def World.run (bld : Build) (w : World n T) : List (Op T) → Res (World n T)
  | [] => .ok w
  | op :: ops => do
    let w ← w.step bld op
    w.run bld ops

end World
end Minikalman
