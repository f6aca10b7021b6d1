import Verif.Model.Storage

/-!
# What a storage has to satisfy, and what a program over storages contains
-/

namespace Minikalman

/-- The contract of `RowMajorSequentialData` and `RowMajorSequentialDataMut`: the mutable slice is the slice, what is
written into it is what is read next, and the overridable methods agree with their defaults. The number of elements
of the slice is not restricted. -/
structure Storage.Lawful (S : Nat → Nat → Type) {T : Type} [Storage S T] : Prop where
  same : ∀ {R C : Nat} (s : S R C), Storage.asMutSlice s = Storage.asSlice s
  written : ∀ {R C : Nat} (s : S R C) (d : List T), d.length = (Storage.asSlice s).length →
    Storage.asSlice (Storage.update s d) = d
  len : ∀ {R C : Nat} (s : S R C), Storage.len s = R * C
  isEmpty : ∀ {R C : Nat} (s : S R C), Storage.isEmpty s = true ↔ R * C = 0
  getAt : ∀ {R C : Nat} (s : S R C) (i j : Nat), Storage.getAt s i j = rd (Storage.asSlice s) (i * C + j)
  setAt : ∀ {R C : Nat} (s : S R C) (i j : Nat) (v : T),
    (Storage.setAt s i j v).map Storage.asSlice = wr (Storage.asSlice s) (i * C + j) v

namespace Stored

variable {S : Nat → Nat → Type} {T : Type} [Storage S T] {R C n l m : Nat}

/-- The contents of a storage. -/
def view (s : S R C) : Mat R C T := ⟨Storage.asSlice s⟩

/-- The contents of the buffers of a regular filter. -/
def Kalman.view (f : Kalman S n) : RegularKalman n T where
  x := Stored.view f.x
  A := Stored.view f.A
  P := Stored.view f.P
  Q := Stored.view f.Q
  predictedX := Stored.view f.predictedX
  tempP := Stored.view f.tempP

/-- The contents of the buffers of an extended filter. -/
def Kalman.xview (f : Kalman S n) : ExtendedKalman n T where
  x := Stored.view f.x
  A := Stored.view f.A
  P := Stored.view f.P
  Q := Stored.view f.Q
  predictedX := Stored.view f.predictedX
  tempP := Stored.view f.tempP

/-- The contents of the buffers of a control. -/
def Control.view (c : Control S n l) : Minikalman.Control n l T where
  B := Stored.view c.B
  u := Stored.view c.u
  Q := Stored.view c.Q
  tempBQ := Stored.view c.tempBQ

/-- The contents of the buffers of an observation. -/
def Observation.view (o : Observation S n m) : RegularObservation n m T where
  H := Stored.view o.H
  z := Stored.view o.z
  R := Stored.view o.R
  y := Stored.view o.y
  S := Stored.view o.S
  K := Stored.view o.K
  tempSInv := Stored.view o.tempSInv
  tempHP := Stored.view o.tempHP
  tempPHt := Stored.view o.tempPHt
  tempKHP := Stored.view o.tempKHP

/-- The contents of the buffers of an observation of an extended filter. -/
def Observation.xview (o : Observation S n m) : ExtendedObservation n m T where
  H := Stored.view o.H
  z := Stored.view o.z
  R := Stored.view o.R
  y := Stored.view o.y
  S := Stored.view o.S
  K := Stored.view o.K
  tempSInv := Stored.view o.tempSInv
  tempHP := Stored.view o.tempHP
  tempPHt := Stored.view o.tempPHt
  tempKHP := Stored.view o.tempKHP

/-- The contents of all buffers of a program. -/
def World.view (w : World S n) : Minikalman.World n T where
  kf := w.kf.view
  ctl := w.ctl.map fun c => ⟨c.1, c.2.view⟩
  obs := w.obs.map fun o => ⟨o.1, o.2.view⟩

/-- The contents of all buffers of a program with an extended filter. -/
def XWorld.view {σ : Type} (w : XWorld S n σ) : Minikalman.XWorld n T σ where
  kf := w.kf.xview
  obs := w.obs.map fun o => ⟨o.1, o.2.xview⟩
  env := w.env

/-- A closure on storages does to the contents what `g'` does. -/
def Acts {σ : Type} (g : σ → S n 1 → S m 1 → Res (σ × S m 1)) (g' : σ → Mat n 1 T → Mat m 1 T → Res (σ × Mat m 1 T)) : Prop :=
  ∀ st x y, (g st x y).map (fun r => (r.1, view r.2)) = g' st (view x) (view y)

/-- The closures of a call do to the contents what those of the other call do. -/
inductive XOp.Acts {σ : Type} : XOp S T n σ → Minikalman.XOp n T σ → Prop
  | predict {g g'} (h : Stored.Acts g g') : XOp.Acts (.predict g) (.predict g')
  | predictTuned (lambda : T) {g g'} (h : Stored.Acts g g') : XOp.Acts (.predictTuned lambda g) (.predictTuned lambda g')
  | correct (i : Nat) {g g'} (h : ∀ m, Stored.Acts (g m) (g' m)) : XOp.Acts (.correct i g) (.correct i g')
  | assign (a : Assign T) : XOp.Acts (.assign a) (.assign a)

end Stored
end Minikalman
