import Verif.Model.ExtendedWorld

/-!
# Programs over arbitrary storages

The traits `RowMajorSequentialData` and `RowMajorSequentialDataMut` (`matrix/row_major.rs`) are public: the buffers of
a filter may be any types implementing them. Here the filters are written against the methods of the traits instead
of against slices. Paths are relative to `/repo/crates/minikalman/src`.
-/

namespace Minikalman

/-- The traits `RowMajorSequentialData` (`matrix/row_major.rs:2-49`) and `RowMajorSequentialDataMut`
(`matrix/row_major.rs:52-72`) implemented by a family of types `S R C`. `as_mut_slice` hands out a slice with contents
`asMutSlice s`; when the borrow ends and its contents are `d` the storage is `update s d`. The other methods have
defaults in the trait but may be overridden. Simplifications: `as_slice`, `as_mut_slice`, `len` and `is_empty` do not
panic and have no side effects; `asMutSlice`, `update` and `setAt` of a type which only implements the first trait are
arbitrary (calls using them do not compile). `T` is the element type. -/
class Storage (S : Nat → Nat → Type) (T : outParam Type) where
  asSlice : {R C : Nat} → S R C → List T
  asMutSlice : {R C : Nat} → S R C → List T
  update : {R C : Nat} → S R C → List T → S R C
  len : {R C : Nat} → S R C → Nat := fun {R C} _ => R * C
  isEmpty : {R C : Nat} → S R C → Bool := fun {R C} _ => R * C == 0
  getAt : {R C : Nat} → S R C → Nat → Nat → Res T := fun {_ C} s row column => rd (asSlice s) (row * C + column)
  setAt : {R C : Nat} → S R C → Nat → Nat → T → Res (S R C) := fun {_ C} s row column value => do
    let d ← wr (asMutSlice s) (row * C + column) value
    pure (update s d)

namespace Stored

open Storage

variable {S : Nat → Nat → Type} {T : Type} [Storage S T] {R C U N n l m : Nat}

/-! ## Kernels (`matrix/traits.rs`)

Every kernel first takes the slices of its operands (e.g. `matrix/traits.rs:319-321`) and then works on the slices
only. `lift` writes the contents of the mutable slice back. -/

/-- End of the borrow of the mutable slice of `c`. -/
def lift (c : S R C) (r : Res (Mat R C T)) : Res (S R C) := do
  let d ← r
  pure (update c d.data)

/-- The slice obtained by `as_slice`. -/
def sl (s : S R C) : Mat R C T := ⟨asSlice s⟩

/-- The slice obtained by `as_mut_slice`. -/
def msl (s : S R C) : Mat R C T := ⟨asMutSlice s⟩

/-- `Matrix::copy_to`, `matrix/traits.rs:138-157`; the count is `self.len()` (`:149`). -/
def copyTo (a target : S R C) : Res (S R C) := do
  let count := len a
  let last ← usub count 1
  let d ← forDown (last + 1) (fun index bdata => do
    let v ← rd (asSlice a) index
    wr bdata index v) (asMutSlice target)
  pure (update target d)

section Arith
variable [Zero T] [One T] [Add T] [Sub T] [Mul T] [Neg T]

/-- `Matrix::mult`, `matrix/traits.rs:296-335`. -/
def mult (a : S R C) (b : S C U) (c : S R U) : Res (S R U) := lift c (Mat.mult (sl a) (sl b) (msl c))

/-- `Matrix::mult_rowvector`, `matrix/traits.rs:345-385`. -/
def multRowvector (a : S R C) (x : S C 1) (c : S R 1) : Res (S R 1) := lift c (Mat.multRowvector (sl a) (sl x) (msl c))

/-- `Matrix::multadd_rowvector`, `matrix/traits.rs:397-437`. -/
def multaddRowvector (a : S R C) (x : S C 1) (c : S R 1) : Res (S R 1) :=
  lift c (Mat.multaddRowvector (sl a) (sl x) (msl c))

/-- `Matrix::mult_transb`, `matrix/traits.rs:449-497`. -/
def multTransb (a : S R C) (b : S U C) (c : S R U) : Res (S R U) := lift c (Mat.multTransb (sl a) (sl b) (msl c))

/-- `Matrix::multadd_transb`, `matrix/traits.rs:509-557`. -/
def multaddTransb (a : S R C) (b : S U C) (c : S R U) : Res (S R U) :=
  lift c (Mat.multaddTransb (sl a) (sl b) (msl c))

/-- `Matrix::multscale_transb`, `matrix/traits.rs:570-620`. -/
def multscaleTransb (a : S R C) (b : S U C) (scale : T) (c : S R U) : Res (S R U) :=
  lift c (Mat.multscaleTransb (sl a) (sl b) scale (msl c))

/-- `Matrix::add_inplace_b`, `matrix/traits.rs:662-682`; the count is `self.len()` (`:673`). -/
def addInplaceB (a b : S R C) : Res (S R C) := do
  let d ← forDown (len a) (fun index bdata => do
    let bv ← rd bdata index
    let av ← rd (asSlice a) index
    wr bdata index (bv + av)) (asMutSlice b)
  pure (update b d)

/-- `Matrix::sub_inplace_b`, `matrix/traits.rs:690-710`; the count is `self.len()` (`:701`). -/
def subInplaceB (a b : S R C) : Res (S R C) := do
  let d ← forDown (len a) (fun index bdata => do
    let av ← rd (asSlice a) index
    let bv ← rd bdata index
    wr bdata index (av - bv)) (asMutSlice b)
  pure (update b d)

/-- `MatrixMut::add_inplace_a`, `matrix/traits.rs:1033-1053`; the count is `self.len()` (`:1044`). -/
def addInplaceA (a b : S R C) : Res (S R C) := do
  let d ← forDown (len a) (fun index adata => do
    let av ← rd adata index
    let bv ← rd (asSlice b) index
    wr adata index (av + bv)) (asMutSlice a)
  pure (update a d)

/-- `MatrixMut::sub_inplace_a`, `matrix/traits.rs:1061-1081`; the count is `self.len()` (`:1072`). -/
def subInplaceA (a b : S R C) : Res (S R C) := do
  let d ← forDown (len a) (fun index adata => do
    let av ← rd adata index
    let bv ← rd (asSlice b) index
    wr adata index (av - bv)) (asMutSlice a)
  pure (update a d)

variable [MDT T]

/-- `MatrixMut::cholesky_decompose_lower`, `matrix/traits.rs:1119-1171`. -/
def choleskyDecomposeLower (bld : Build) (a : S R C) : Res (S R C × Bool) := do
  let (d, b) ← Mat.choleskyDecomposeLower bld (msl a)
  pure (update a d.data, b)

/-- `SquareMatrix::invert_l_cholesky`, `matrix/traits.rs:769-817`. -/
def invertLCholesky (a inverse : S N N) : Res (S N N) := lift inverse (Mat.invertLCholesky (sl a) (msl inverse))

end Arith

/-! ## Filters -/

/-- The buffers of `RegularKalman` (`kalman/regular.rs:92-120`) and `ExtendedKalman` (`kalman/extended.rs:92-120`). In
the code every buffer has its own type; `Storage.Mixed` is a family containing several. -/
structure Kalman (S : Nat → Nat → Type) (n : Nat) where
  x : S n 1
  A : S n n
  P : S n n
  Q : S n n
  predictedX : S n 1
  tempP : S n n

/-- The buffers of `Control`, `controls.rs:52-72`. -/
structure Control (S : Nat → Nat → Type) (n l : Nat) where
  B : S n l
  u : S l 1
  Q : S l l
  tempBQ : S n l

/-- The buffers of `RegularObservation` (`observations/regular.rs:139-205`) and `ExtendedObservation`
(`observations/extended.rs:139-205`). -/
structure Observation (F : Nat → Nat → Type) (n m : Nat) where
  H : F m n
  z : F m 1
  R : F m m
  y : F m 1
  S : F m m
  K : F n m
  tempSInv : F m m
  tempHP : F m n
  tempPHt : F n m
  tempKHP : F n n

section Arith
variable [Zero T] [One T] [Add T] [Sub T] [Mul T] [Neg T] [MDT T]

/-- `Control::apply_control`, `controls.rs:199-227`. -/
def Control.applyControl (c : Control S n l) (x : S n 1) (P : S n n) : Res (Control S n l × S n 1 × S n n) := do
  if isEmpty c.u || isEmpty c.B then
    pure (c, x, P)
  else do
    let x ← multaddRowvector c.B c.u x
    let tempBQ ← mult c.B c.Q c.tempBQ
    let P ← multaddTransb tempBQ c.B P
    pure ({ c with tempBQ := tempBQ }, x, P)

/-- `update_with_innovation`, `observations/regular.rs:365-419` and `observations/extended.rs:377-431` (textual
duplicates). -/
def Observation.updateWithInnovation (bld : Build) (o : Observation S n m) (x : S n 1) (P : S n n) :
    Res (Observation S n m × S n 1 × S n n) := do
  let tempHP ← mult o.H P o.tempHP
  let s ← multTransb tempHP o.H o.S
  let s ← addInplaceA s o.R
  let (s, _) ← choleskyDecomposeLower bld s
  let tempSInv ← invertLCholesky s o.tempSInv
  let tempPHt ← multTransb P o.H o.tempPHt
  let K ← mult tempPHt tempSInv o.K
  let x ← multaddRowvector K o.y x
  let tempHP ← mult o.H P tempHP
  let tempKHP ← mult K tempHP o.tempKHP
  let P ← subInplaceA P tempKHP
  pure ({ o with S := s, K := K, tempSInv := tempSInv, tempHP := tempHP,
                 tempPHt := tempPHt, tempKHP := tempKHP }, x, P)

/-- `RegularObservation::correct`, `observations/regular.rs:339-357`. -/
def Observation.correct (bld : Build) (o : Observation S n m) (x : S n 1) (P : S n n) :
    Res (Observation S n m × S n 1 × S n n) := do
  let y ← multRowvector o.H x o.y
  let y ← subInplaceB o.z y
  Observation.updateWithInnovation bld { o with y := y } x P

/-- `ExtendedObservation::correct_nonlinear`, `observations/extended.rs:350-369`. -/
def Observation.correctNonlinear {σ : Type} (bld : Build) (o : Observation S n m) (x : S n 1) (P : S n n)
    (observation : σ → S n 1 → S m 1 → Res (σ × S m 1)) (st : σ) : Res (σ × Observation S n m × S n 1 × S n n) := do
  let (st, y) ← observation st x o.y
  let y ← subInplaceB o.z y
  let r ← Observation.updateWithInnovation bld { o with y := y } x P
  pure (st, r)

/-- `RegularKalman::predict_x`, `kalman/regular.rs:426-445`. -/
def Kalman.predictX (f : Kalman S n) : Res (Kalman S n) := do
  let px ← multRowvector f.A f.x f.predictedX
  let x ← copyTo px f.x
  pure { f with x := x, predictedX := px }

/-- `ExtendedKalman::predict_x_nonlinear`, `kalman/extended.rs:427-439`. -/
def Kalman.predictXNonlinear {σ : Type} (f : Kalman S n) (stateTransition : σ → S n 1 → S n 1 → Res (σ × S n 1)) (st : σ) :
    Res (σ × Kalman S n) := do
  let (st, px) ← stateTransition st f.x f.predictedX
  let x ← copyTo px f.x
  pure (st, { f with x := x, predictedX := px })

/-- `predict_P`, `kalman/regular.rs:449-471` and `kalman/extended.rs:443-465` (textual duplicates). -/
def Kalman.predictP (f : Kalman S n) : Res (Kalman S n) := do
  let tempP ← mult f.A f.P f.tempP
  let P ← multTransb tempP f.A f.P
  let P ← addInplaceB f.Q P
  pure { f with P := P, tempP := tempP }

/-- `predict_P_tuned`, `kalman/regular.rs:475-501` and `kalman/extended.rs:469-495` (textual duplicates). -/
def Kalman.predictPTuned (f : Kalman S n) (lambda : T) : Res (Kalman S n) := do
  let factor ← MDT.recip (lambda * lambda)
  let tempP ← mult f.A f.P f.tempP
  let P ← multscaleTransb tempP f.A factor f.P
  let P ← addInplaceB f.Q P
  pure { f with P := P, tempP := tempP }

/-- `RegularKalman::predict`, `kalman/regular.rs:299-317`. -/
def Kalman.predict (f : Kalman S n) : Res (Kalman S n) := do
  let f ← f.predictX
  f.predictP

/-- `RegularKalman::predict_tuned`, `kalman/regular.rs:404-421`. -/
def Kalman.predictTuned (f : Kalman S n) (lambda : T) : Res (Kalman S n) := do
  let f ← f.predictX
  f.predictPTuned lambda

/-- `RegularKalman::control`, `kalman/regular.rs:505-513`. -/
def Kalman.control (f : Kalman S n) (c : Control S n l) : Res (Kalman S n × Control S n l) := do
  let (c, x, P) ← c.applyControl f.x f.P
  pure ({ f with x := x, P := P }, c)

/-- `RegularKalman::correct`, `kalman/regular.rs:589-597`. -/
def Kalman.correct (bld : Build) (f : Kalman S n) (o : Observation S n m) : Res (Kalman S n × Observation S n m) := do
  let (o, x, P) ← o.correct bld f.x f.P
  pure ({ f with x := x, P := P }, o)

/-- `ExtendedKalman::predict_nonlinear`, `kalman/extended.rs:360-378`. -/
def Kalman.predictNonlinear {σ : Type} (f : Kalman S n) (stateTransition : σ → S n 1 → S n 1 → Res (σ × S n 1)) (st : σ) :
    Res (σ × Kalman S n) := do
  let (st, f) ← f.predictXNonlinear stateTransition st
  let f ← f.predictP
  pure (st, f)

/-- `ExtendedKalman::predict_tuned_nonlinear`, `kalman/extended.rs:405-423`. -/
def Kalman.predictTunedNonlinear {σ : Type} (f : Kalman S n) (lambda : T)
    (stateTransition : σ → S n 1 → S n 1 → Res (σ × S n 1)) (st : σ) : Res (σ × Kalman S n) := do
  let (st, f) ← f.predictXNonlinear stateTransition st
  let f ← f.predictPTuned lambda
  pure (st, f)

/-- `ExtendedKalman::correct_nonlinear`, `kalman/extended.rs:507-520`. -/
def Kalman.correctNonlinear {σ : Type} (bld : Build) (f : Kalman S n) (o : Observation S n m)
    (observation : σ → S n 1 → S m 1 → Res (σ × S m 1)) (st : σ) : Res (σ × Kalman S n × Observation S n m) := do
  let (st, o, x, P) ← o.correctNonlinear bld f.x f.P observation st
  pure (st, { f with x := x, P := P }, o)

end Arith

/-! ## Programs -/

/-- Overwriting a buffer: `as_mut_slice().copy_from_slice(v)`, which panics if the lengths differ. -/
def copyFromSlice (s : S R C) (v : List T) : Res (S R C) :=
  if v.length = (asMutSlice s).length then .ok (update s v) else .error .assertion

/-- A program holding one regular filter, controls and observations (cf. `Minikalman.World`). -/
structure World (S : Nat → Nat → Type) (n : Nat) where
  kf : Kalman S n
  ctl : List ((l : Nat) × Control S n l)
  obs : List ((m : Nat) × Observation S n m)

/-- A program holding one extended filter and observations (cf. `Minikalman.XWorld`). -/
structure XWorld (S : Nat → Nat → Type) (n : Nat) (σ : Type) where
  kf : Kalman S n
  obs : List ((m : Nat) × Observation S n m)
  env : σ

/-- One API call of a program with an extended filter; the user's closures get the storages (cf. `Minikalman.XOp`). -/
inductive XOp (S : Nat → Nat → Type) (T : Type) (n : Nat) (σ : Type)
  | predict (g : σ → S n 1 → S n 1 → Res (σ × S n 1))
  | predictTuned (lambda : T) (g : σ → S n 1 → S n 1 → Res (σ × S n 1))
  | correct (i : Nat) (h : (m : Nat) → σ → S n 1 → S m 1 → Res (σ × S m 1))
  | assign (a : Assign T)

section
variable [Zero T] [One T] [Add T] [Sub T] [Mul T] [Neg T] [MDT T]

/-- Modify the `i`-th control; a missing control is a panic. -/
def World.withCtl (w : World S n) (i : Nat) (g : (l : Nat) → Control S n l → Res (Control S n l)) : Res (World S n) :=
  match w.ctl[i]? with
  | none => .error .bounds
  | some ⟨l, c⟩ => do
    let c ← g l c
    pure { w with ctl := w.ctl.set i ⟨l, c⟩ }

/-- Modify the `i`-th observation; a missing observation is a panic. -/
def World.withObs (w : World S n) (i : Nat) (g : (m : Nat) → Observation S n m → Res (Observation S n m)) :
    Res (World S n) :=
  match w.obs[i]? with
  | none => .error .bounds
  | some ⟨m, o⟩ => do
    let o ← g m o
    pure { w with obs := w.obs.set i ⟨m, o⟩ }

/-- Execute one call (the calls and setters cited at `Minikalman.Op`). -/
def World.step (bld : Build) (w : World S n) : Op T → Res (World S n)
  | .predict => do
    let kf ← w.kf.predict
    pure { w with kf := kf }
  | .predictTuned lambda => do
    let kf ← w.kf.predictTuned lambda
    pure { w with kf := kf }
  | .control i =>
    match w.ctl[i]? with
    | none => .error .bounds
    | some ⟨l, c⟩ => do
      let (kf, c) ← w.kf.control c
      pure { w with kf := kf, ctl := w.ctl.set i ⟨l, c⟩ }
  | .correct i =>
    match w.obs[i]? with
    | none => .error .bounds
    | some ⟨m, o⟩ => do
      let (kf, o) ← w.kf.correct bld o
      pure { w with kf := kf, obs := w.obs.set i ⟨m, o⟩ }
  | .setX v => do
    let x ← copyFromSlice w.kf.x v
    pure { w with kf := { w.kf with x := x } }
  | .setA v => do
    let A ← copyFromSlice w.kf.A v
    pure { w with kf := { w.kf with A := A } }
  | .setP v => do
    let P ← copyFromSlice w.kf.P v
    pure { w with kf := { w.kf with P := P } }
  | .setQ v => do
    let Q ← copyFromSlice w.kf.Q v
    pure { w with kf := { w.kf with Q := Q } }
  | .setU i v => w.withCtl i fun _ c => do
    let u ← copyFromSlice c.u v
    pure { c with u := u }
  | .setB i v => w.withCtl i fun _ c => do
    let B ← copyFromSlice c.B v
    pure { c with B := B }
  | .setQc i v => w.withCtl i fun _ c => do
    let Q ← copyFromSlice c.Q v
    pure { c with Q := Q }
  | .setZ i v => w.withObs i fun _ o => do
    let z ← copyFromSlice o.z v
    pure { o with z := z }
  | .setH i v => w.withObs i fun _ o => do
    let H ← copyFromSlice o.H v
    pure { o with H := H }
  | .setR i v => w.withObs i fun _ o => do
    let R ← copyFromSlice o.R v
    pure { o with R := R }

/-- Execute a sequence of calls. -/
def World.run (bld : Build) (w : World S n) : List (Op T) → Res (World S n)
  | [] => .ok w
  | op :: ops => do
    let w ← w.step bld op
    w.run bld ops

variable {σ : Type}

/-- Modify the `i`-th observation; a missing observation is a panic. -/
def XWorld.withObs (w : XWorld S n σ) (i : Nat) (g : (m : Nat) → Observation S n m → Res (Observation S n m)) :
    Res (XWorld S n σ) :=
  match w.obs[i]? with
  | none => .error .bounds
  | some ⟨m, o⟩ => do
    let o ← g m o
    pure { w with obs := w.obs.set i ⟨m, o⟩ }

/-- Overwrite a buffer (the setters cited at `Minikalman.Assign`). -/
def XWorld.assign (w : XWorld S n σ) : Assign T → Res (XWorld S n σ)
  | .x v => do
    let x ← copyFromSlice w.kf.x v
    pure { w with kf := { w.kf with x := x } }
  | .A v => do
    let A ← copyFromSlice w.kf.A v
    pure { w with kf := { w.kf with A := A } }
  | .P v => do
    let P ← copyFromSlice w.kf.P v
    pure { w with kf := { w.kf with P := P } }
  | .Q v => do
    let Q ← copyFromSlice w.kf.Q v
    pure { w with kf := { w.kf with Q := Q } }
  | .z i v => w.withObs i fun _ o => do
    let z ← copyFromSlice o.z v
    pure { o with z := z }
  | .H i v => w.withObs i fun _ o => do
    let H ← copyFromSlice o.H v
    pure { o with H := H }
  | .R i v => w.withObs i fun _ o => do
    let R ← copyFromSlice o.R v
    pure { o with R := R }

/-- Execute one call. -/
def XWorld.step (bld : Build) (w : XWorld S n σ) : XOp S T n σ → Res (XWorld S n σ)
  | .predict g => do
    let (env, kf) ← w.kf.predictNonlinear g w.env
    pure { w with kf := kf, env := env }
  | .predictTuned lambda g => do
    let (env, kf) ← w.kf.predictTunedNonlinear lambda g w.env
    pure { w with kf := kf, env := env }
  | .correct i h =>
    match w.obs[i]? with
    | none => .error .bounds
    | some ⟨m, o⟩ => do
      let (env, kf, o) ← w.kf.correctNonlinear bld o (h m) w.env
      pure { kf := kf, obs := w.obs.set i ⟨m, o⟩, env := env }
  | .assign a => w.assign a

/-- Execute a sequence of calls. -/
def XWorld.run (bld : Build) (w : XWorld S n σ) : List (XOp S T n σ) → Res (XWorld S n σ)
  | [] => .ok w
  | op :: ops => do
    let w ← w.step bld op
    w.run bld ops

end
end Stored

/-! ## The storages of the crate -/

/-- The storages owning or borrowing a slice: `MatrixDataArray` (`matrix/data/matrix_data_array.rs:12-14`),
`MatrixDataBoxed` (`matrix/data/matrix_data_boxed.rs:20`), `MatrixDataRef` (`matrix/data/matrix_data_ref.rs:11`) and
`MatrixDataMut` (`matrix/data/matrix_data_mut.rs:13`). -/
inductive CrateStorage (T : Type) (R C : Nat)
  | array (data : List T)
  | boxed (data : List T)
  | ref (data : List T)
  | mut (data : List T)

/-- `as_slice`: `matrix/data/matrix_data_array.rs:60-62`, `matrix_data_boxed.rs:77-79`, `matrix_data_ref.rs:65-67` and
`matrix_data_mut.rs:83-85`. -/
def CrateStorage.contents {T : Type} {R C : Nat} : CrateStorage T R C → List T
  | .array d => d
  | .boxed d => d
  | .ref d => d
  | .mut d => d

/-- Writing through `as_mut_slice`: `matrix/data/matrix_data_array.rs:69-71`, `matrix_data_boxed.rs:86-88`,
`matrix_data_mut.rs:97-99`. `MatrixDataRef` has no `as_mut_slice`. -/
def CrateStorage.overwrite {T : Type} {R C : Nat} : CrateStorage T R C → List T → CrateStorage T R C
  | .array _, d => .array d
  | .boxed _, d => .boxed d
  | .ref _, d => .ref d
  | .mut _, d => .mut d

/-- The trait implementations cited at `CrateStorage.contents`; everything else is the default. -/
instance {T : Type} : Storage (CrateStorage T) T where
  asSlice := CrateStorage.contents
  asMutSlice := CrateStorage.contents
  update := CrateStorage.overwrite

/-- `MatrixDataRowMajor` (`matrix/data/matrix_data_row_major.rs:13-15`) and `MatrixDataRowMajorMut`
(`matrix/data/matrix_data_row_major_mut.rs:14-19`): a wrapper around any storage. -/
structure RowMajor (S : Nat → Nat → Type) (R C : Nat) where
  inner : S R C

/-- `matrix/data/matrix_data_row_major_mut.rs:90-126`: `as_slice`, `as_mut_slice`, `get_at` and `set_at` forward, `len`
and `is_empty` are the defaults. -/
instance {S : Nat → Nat → Type} {T : Type} [Storage S T] : Storage (RowMajor S) T where
  asSlice s := Storage.asSlice s.inner
  asMutSlice s := Storage.asMutSlice s.inner
  update s d := ⟨Storage.update s.inner d⟩
  getAt s := Storage.getAt s.inner
  setAt s row column value := do
    let i ← Storage.setAt s.inner row column value
    pure ⟨i⟩

/-- The typed buffers (`buffers/types/*.rs`), e.g. `StateTransitionMatrixMutBuffer`
(`buffers/types/state_transition_matrix_buffer.rs:69-71`), used as matrices. (The filters use the wrapped matrix.) -/
structure TypedBuffer (S : Nat → Nat → Type) (R C : Nat) where
  inner : S R C

/-- `buffers/macros.rs:107-125`, `buffers/types/state_transition_matrix_buffer.rs:159-168,206-226`: `as_slice` and
`as_mut_slice` forward, everything else is the default. -/
instance {S : Nat → Nat → Type} {T : Type} [Storage S T] : Storage (TypedBuffer S) T where
  asSlice s := Storage.asSlice s.inner
  asMutSlice s := Storage.asMutSlice s.inner
  update s d := ⟨Storage.update s.inner d⟩

/-- A matrix of the model is a storage. -/
instance {T : Type} : Storage (fun R C => Mat R C T) T where
  asSlice m := m.data
  asMutSlice m := m.data
  update _ d := ⟨d⟩

/-- Buffers of different types in one filter: every buffer is of one of the types `F i`. Every buffer of the code has a
type parameter of its own. -/
structure Mixed {ι : Type} (F : ι → Nat → Nat → Type) (R C : Nat) where
  kind : ι
  inner : F kind R C

/-- Every buffer behaves as its own type prescribes. -/
instance {ι : Type} {F : ι → Nat → Nat → Type} {T : Type} [∀ i, Storage (F i) T] : Storage (Mixed F) T where
  asSlice s := Storage.asSlice s.inner
  asMutSlice s := Storage.asMutSlice s.inner
  update s d := ⟨s.kind, Storage.update s.inner d⟩
  len s := Storage.len s.inner
  isEmpty s := Storage.isEmpty s.inner
  getAt s := Storage.getAt s.inner
  setAt s row column value := do
    let i ← Storage.setAt s.inner row column value
    pure ⟨s.kind, i⟩

end Minikalman
