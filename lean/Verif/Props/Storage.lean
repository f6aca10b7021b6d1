import Verif.Proofs.Storage
import Verif.Props.History

/-!
# C101: the results do not depend on where the matrices are stored
-/

set_option linter.unusedSectionVars false

namespace Minikalman

variable {T : Type} {n : Nat}

section
variable [Zero T] [One T] [Add T] [Sub T] [Mul T] [Neg T] [MDT T] {S S' : Nat → Nat → Type} [Storage S T] [Storage S' T]

/-- C101: for every storage that keeps the contract of the traits, every program and every arithmetic: the contents of
all buffers after a run, or the panic, are those of the same program on plain slices. -/
theorem C101_runs_as_on_slices (hS : Storage.Lawful S) (bld : Build) (w : Stored.World S n) (ops : List (Op T)) :
    (w.run bld ops).map Stored.World.view = w.view.run bld ops := Stored.run_view hS bld w ops

/-- C101 for extended filters, where the user's closures get the storages: it suffices that the closures do to the
contents what the closures of the program on slices do. -/
theorem C101_runs_as_on_slices_extended {σ : Type} (hS : Storage.Lawful S) (bld : Build) (w : Stored.XWorld S n σ)
    {ops : List (Stored.XOp S T n σ)} {ops' : List (XOp n T σ)} (h : List.Forall₂ Stored.XOp.Acts ops ops') :
    (w.run bld ops).map Stored.XWorld.view = w.view.run bld ops' := Stored.xrun_view hS bld w h

/-- C101: two programs keeping their matrices in different storages with the same contents get the same results. -/
theorem C101_storage_independent (hS : Storage.Lawful S) (hS' : Storage.Lawful S') (bld : Build) (w : Stored.World S n)
    (w' : Stored.World S' n) (h : w.view = w'.view) (ops : List (Op T)) :
    (w.run bld ops).map Stored.World.view = (w'.run bld ops).map Stored.World.view := by
  rw [Stored.run_view hS, Stored.run_view hS', h]

end

/-- C101: the storages of the crate (arrays, boxes, references, mutable references) keep the contract, the wrappers of
the crate keep it if the wrapped storage does, and so do filters with buffers of different types. -/
theorem C101_crate_storages :
    Storage.Lawful (CrateStorage T) ∧
      (∀ (S : Nat → Nat → Type) [Storage S T], Storage.Lawful S → Storage.Lawful (RowMajor S) ∧ Storage.Lawful (TypedBuffer S)) ∧
      ∀ (ι : Type) (F : ι → Nat → Nat → Type) [∀ i, Storage (F i) T], (∀ i, Storage.Lawful (F i)) → Storage.Lawful (Mixed F) :=
  ⟨lawful_crate, fun _ _ h => ⟨lawful_rowMajor h, lawful_typed h⟩, fun _ _ _ h => lawful_mixed h⟩

/-- C101: `new_mut_from` and the typed buffers replace wrong `len` and `is_empty` of a storage (and the typed buffers
wrong `get_at` and `set_at`) by correct ones: only the slices matter. -/
theorem C101_wrappers_correct {S : Nat → Nat → Type} [Storage S T]
    (same : ∀ {R C : Nat} (s : S R C), Storage.asMutSlice s = Storage.asSlice s)
    (written : ∀ {R C : Nat} (s : S R C) (d : List T), d.length = (Storage.asSlice s).length →
      Storage.asSlice (Storage.update s d) = d) :
    Storage.Lawful (TypedBuffer S) where
  same s := same s.inner
  written s d h := written s.inner d h
  len _ := rfl
  isEmpty _ := by simp [Storage.isEmpty]
  getAt _ _ _ := rfl
  setAt s i j v := setAt_default (S := TypedBuffer S) (fun s => same s.inner) (fun s d h => written s.inner d h) s _ v

/-- C101 with C40: buffers in lawful storages, large enough, scalar operations that do not panic: no program panics. -/
theorem C101_never_panics [Zero T] [One T] [Add T] [Sub T] [Mul T] [Neg T] [MDT T] [TotalScalar T] {S : Nat → Nat → Type}
    [Storage S T] (hS : Storage.Lawful S) (bld : Build) {w : Stored.World S n} (hw : w.view.Valid) {ops : List (Op T)}
    (hops : ∀ op ∈ ops, op.WellFormed w.view) : ∃ w', w.run bld ops = .ok w' ∧ w'.view.Valid := by
  obtain ⟨v, hv, hv', _⟩ := C40_history_never_panics bld hw hops
  rw [← Stored.run_view hS] at hv
  cases hr : w.run bld ops with
  | error e => rw [hr] at hv; cases hv
  | ok w' =>
    rw [hr] at hv
    cases hv
    exact ⟨w', rfl, hv'⟩

/-- C101 with C51: in exact arithmetic the contents of the storages follow the textbook filter. -/
theorem C101_follows_textbook [MDT ℝ] [ExactReal] {S : Nat → Nat → Type} [Storage S ℝ] (hS : Storage.Lawful S) (bld : Build)
    {w : Stored.World S n} {s : Spec.State n ℝ} (hw : w.view.Reps s) {ops : List (Op ℝ)}
    (hops : ∀ op ∈ ops, op.WellFormed w.view) (hr : s.RegularRun ops) :
    ∃ w' s', w.run bld ops = .ok w' ∧ s.run ops = some s' ∧ w'.view.Reps s' := by
  obtain ⟨v, s', hv, hs', hv', _⟩ := run_refines bld hw hops hr
  rw [← Stored.run_view hS] at hv
  cases hr : w.run bld ops with
  | error e => rw [hr] at hv; cases hv
  | ok w' =>
    rw [hr] at hv
    cases hv
    exact ⟨w', s', rfl, hs', hv'⟩

/-! ## Every clause of the contract is needed -/

namespace Ex

/-- A storage of a user: a header in front of the matrix, which the trait methods skip. -/
structure Framed (T : Type) (R C : Nat) where
  header : List T
  payload : List T

instance {T : Type} : Storage (Framed T) T where
  asSlice s := s.payload
  asMutSlice s := s.payload
  update s d := { s with payload := d }

theorem framed_lawful : Storage.Lawful (Framed T) where
  same _ := rfl
  written _ _ _ := rfl
  len _ := rfl
  isEmpty _ := by simp [Storage.isEmpty]
  getAt _ _ _ := rfl
  setAt s i j v := setAt_default (S := Framed T) (fun _ => rfl) (fun _ _ _ => rfl) s _ v

/-- The matrices of a program put into storages. -/
def store {S : Nat → Nat → Type} (put : {R C : Nat} → Mat R C T → S R C) (w : World n T) : Stored.World S n where
  kf := ⟨put w.kf.x, put w.kf.A, put w.kf.P, put w.kf.Q, put w.kf.predictedX, put w.kf.tempP⟩
  ctl := w.ctl.map fun c => ⟨c.1, put c.2.B, put c.2.u, put c.2.Q, put c.2.tempBQ⟩
  obs := w.obs.map fun o => ⟨o.1, put o.2.H, put o.2.z, put o.2.R, put o.2.y, put o.2.S, put o.2.K, put o.2.tempSInv,
    put o.2.tempHP, put o.2.tempPHt, put o.2.tempKHP⟩

theorem store_view {S : Nat → Nat → Type} [Storage S T] {put : {R C : Nat} → Mat R C T → S R C}
    (h : ∀ {R C : Nat} (m : Mat R C T), Stored.view (put m) = m) (w : World n T) : (store put w).view = w := by
  obtain ⟨kf, ctl, obs⟩ := w
  simp only [store, Stored.World.view, Stored.Kalman.view, Stored.Control.view, Stored.Observation.view, h, List.map_map]
  congr
  · simp only [Function.comp_def, h]
    exact List.map_id'' (fun _ => rfl) ctl
  · simp only [Function.comp_def, h]
    exact List.map_id'' (fun _ => rfl) obs

/-- Square matrices in the user's storage, vectors and rectangular matrices in boxes. -/
def putMixed {R C : Nat} (m : Mat R C T) : Mixed (fun b : Bool => if b then Framed T else CrateStorage T) R C :=
  if R = C then ⟨true, ⟨[], m.data⟩⟩ else ⟨false, (.boxed m.data : CrateStorage T R C)⟩

instance (b : Bool) : Storage (if b then Framed T else CrateStorage T) T :=
  match b with
  | true => inferInstanceAs (Storage (Framed T) T)
  | false => inferInstanceAs (Storage (CrateStorage T) T)

theorem mixed_lawful : Storage.Lawful (Mixed (fun b : Bool => if b then Framed T else CrateStorage T)) :=
  lawful_mixed fun b => match b with
    | true => framed_lawful
    | false => lawful_crate

theorem putMixed_view {R C : Nat} (m : Mat R C T) : Stored.view (putMixed m) = m := by
  unfold putMixed
  split <;> rfl

/-- The hypotheses of C101 are met by a program mixing the storages of the crate and one of the user, which runs. -/
theorem mixed_runs : ((store putMixed (world ℚ)).run ⟨true, false⟩ ((ops ℚ).take 2)).isOk = true := by decide +kernel

theorem mixed_same : ((store putMixed (world ℚ)).run ⟨true, false⟩ (ops ℚ)).map Stored.World.view
    = (world ℚ).run ⟨true, false⟩ (ops ℚ) := by
  rw [C101_runs_as_on_slices mixed_lawful, store_view putMixed_view]

/-- A closure on storages and what it does to the contents: the state is doubled. -/
def double {σ : Type} (st : σ) (x y : Framed ℚ 2 1) : Res (σ × Framed ℚ 2 1) :=
  .ok (st, { y with payload := x.payload.map (2 * ·) })

theorem double_acts {σ : Type} : Stored.Acts (σ := σ) double (fun st x _ => .ok (st, ⟨x.data.map (2 * ·)⟩)) :=
  fun _ _ _ => rfl

/-- The hypotheses of the extended C101 are met. -/
theorem framed_extended (w : Stored.XWorld (Framed ℚ) 2 Unit) :
    (w.run ⟨true, false⟩ [.predict double, .assign (.x [1, 2])]).map Stored.XWorld.view
      = w.view.run ⟨true, false⟩ [.predict fun st x _ => .ok (st, ⟨x.data.map (2 * ·)⟩), .assign (.x [1, 2])] :=
  C101_runs_as_on_slices_extended framed_lawful _ w (.cons (.predict double_acts) (.cons (.assign _) .nil))

/-- A storage whose `as_mut_slice` clears the buffer first. -/
structure Clearing (T : Type) (R C : Nat) where
  data : List T

instance {T : Type} [Zero T] : Storage (Clearing T) T where
  asSlice s := s.data
  asMutSlice s := s.data.map fun _ => 0
  update _ d := ⟨d⟩

/-- A storage which drops what is written (as a memory-mapped file opened without the right to write does). -/
structure Frozen (T : Type) (R C : Nat) where
  data : List T

instance {T : Type} : Storage (Frozen T) T where
  asSlice s := s.data
  asMutSlice s := s.data
  update s _ := s

/-- A storage whose `len` is the length of the buffer, as that of slices is. -/
structure Long (T : Type) (R C : Nat) where
  data : List T

instance {T : Type} : Storage (Long T) T where
  asSlice s := s.data
  asMutSlice s := s.data
  update _ d := ⟨d⟩
  len s := s.data.length

/-- A storage whose `is_empty` says whether something is stored in it. -/
structure Unset (T : Type) (R C : Nat) where
  data : List T

instance {T : Type} [Zero T] [DecidableEq T] : Storage (Unset T) T where
  asSlice s := s.data
  asMutSlice s := s.data
  update _ d := ⟨d⟩
  isEmpty s := s.data.all fun v => v == 0

/-- One state, one control, no observation; the temporary vector is larger than needed. -/
def small (T : Type) [Field T] : World 1 T where
  kf := ⟨⟨[1]⟩, ⟨[2]⟩, ⟨[1]⟩, ⟨[1]⟩, ⟨[0, 0]⟩, ⟨[0]⟩⟩
  ctl := [⟨1, ⟨[1]⟩, ⟨[0]⟩, ⟨[1]⟩, ⟨[0]⟩⟩]
  obs := []

/-- The contents of the estimate and the covariance after a run. -/
def seen {S : Nat → Nat → Type} [Storage S T] (r : Res (Stored.World S n)) : Res (List T × List T) :=
  r.map fun w => (Storage.asSlice w.kf.x, Storage.asSlice w.kf.P)

end Ex

/-- C101: no clause can be dropped. Storages with one mistake each, and a program which then gets
another result than on slices (`[2], [6]`: the estimate and covariance after predict and a control): clearing the
mutable slice loses the prediction, dropping writes loses everything, `len` as the length of the buffer panics, and
`is_empty` for "all zero" loses the uncertainty of the control input. -/
theorem C101_contract_needed :
    (((Ex.small ℚ).run ⟨true, false⟩ [.predict, .control 0]).map fun w => (w.kf.x.data, w.kf.P.data)) = .ok ([2], [6]) ∧
      Ex.seen ((Ex.store (fun m => ⟨m.data⟩ : {R C : Nat} → Mat R C ℚ → Ex.Clearing ℚ R C) (Ex.small ℚ)).run ⟨true, false⟩
        [.predict, .control 0]) = .ok ([0], [1]) ∧
      Ex.seen ((Ex.store (fun m => ⟨m.data⟩ : {R C : Nat} → Mat R C ℚ → Ex.Frozen ℚ R C) (Ex.small ℚ)).run ⟨true, false⟩
        [.predict, .control 0]) = .ok ([1], [1]) ∧
      Ex.seen ((Ex.store (fun m => ⟨m.data⟩ : {R C : Nat} → Mat R C ℚ → Ex.Long ℚ R C) (Ex.small ℚ)).run ⟨true, false⟩
        [.predict, .control 0]) = .error .bounds ∧
      Ex.seen ((Ex.store (fun m => ⟨m.data⟩ : {R C : Nat} → Mat R C ℚ → Ex.Unset ℚ R C) (Ex.small ℚ)).run ⟨true, false⟩
        [.predict, .control 0]) = .ok ([2], [5]) := by
  decide +kernel

end Minikalman
