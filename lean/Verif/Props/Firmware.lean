import Verif.Proofs.Firmware

/-!
# C102: what repeated calls of the firmware's `predict_gravity` return

The buffers of `/repo/xbuild-tests/stm32/src/kalman_{float,fixed}_example.rs` are `static mut`. A call does not see what was left
in most of them, but the initialisation of the covariance writes only the cells on and above the diagonal, so the cells below it
carry over from call to call.
-/

set_option linter.unusedSectionVars false

namespace Minikalman

open Examples Firmware

section Any
variable {T : Type} [Zero T] [One T] [Add T] [Sub T] [Mul T] [Neg T] [MDT T]

/-- C102: the first call after the start of the device returns what the test `tests/gravity.rs` computes, in any arithmetic. -/
theorem C102_first_call (bld : Build) (half tenth six : T) (data : List (T × T)) :
    (Statics.boot (T := T)).Sized ∧
    (predictGravity bld half tenth six data Statics.boot).map Prod.fst = gravityTest bld half tenth six data := by
  refine ⟨⟨⟨Nat.le_refl _, Nat.le_refl _, Nat.le_refl _, Nat.le_refl _, Nat.le_refl _, Nat.le_refl _⟩,
    ⟨Nat.le_refl _, Nat.le_refl _, Nat.le_refl _, Nat.le_refl _, Nat.le_refl _, Nat.le_refl _, Nat.le_refl _, Nat.le_refl _,
      Nat.le_refl _, Nat.le_refl _⟩, rfl, rfl, rfl, rfl, rfl, rfl, rfl⟩, ?_⟩
  unfold predictGravity gravityTest
  simp only [Statics.boot]
  cases gravityFilter half tenth six (staticKalman 0) with
  | error e => rfl
  | ok f =>
    cases gravityObservation half (staticObservation 0) with
    | error e => rfl
    | ok o =>
      simp only [res_bind_ok]
      cases gravityLoop bld f o data with
      | error e => rfl
      | ok r =>
        simp only [res_bind_ok]
        cases r.1.x.index 2 <;> rfl

/-- C102: whatever the buffers contain, the result depends on nothing but the process noise and the three cells of the covariance
below its diagonal; what is left for the next call depends on nothing else either, in any arithmetic. -/
theorem C102_depends_only_on_leftovers (bld : Build) (half tenth six : T) (data : List (T × T)) {s t : Statics T} (hs : s.Sized)
    (ht : t.Sized) (h : s.SameLeftovers t) :
    (∃ e, predictGravity bld half tenth six data s = .error e ∧ predictGravity bld half tenth six data t = .error e) ∨
    ∃ g s' t', predictGravity bld half tenth six data s = .ok (g, s') ∧ predictGravity bld half tenth six data t = .ok (g, t') ∧
      s'.SameLeftovers t' := by
  rw [call_start bld half tenth six data hs, call_start bld half tenth six data ht]
  have hl := loop_leftovers bld half tenth six data hs ht h
  rcases hl with ⟨e, h1, h2⟩ | ⟨⟨f, o⟩, ⟨g, p⟩, h1, h2, hx, hP, hQ⟩
  · exact Or.inl ⟨e, by rw [h1]; rfl, by rw [h2]; rfl⟩
  · simp only [h1, h2, res_bind_ok]
    rw [← hx]
    cases f.x.index 2 with
    | error e => exact Or.inl ⟨e, rfl, rfl⟩
    | ok r => exact Or.inr ⟨r, ⟨f, o⟩, ⟨g, p⟩, rfl, rfl, hQ, by rw [hP], by rw [hP], by rw [hP]⟩

/-- C102: a call keeps the sizes of all buffers and never writes the process noise; the only panics are those of the element
type's `recip` and `square_root`. -/
theorem C102_call_keeps (bld : Build) (half tenth six : T) (data : List (T × T)) {s : Statics T} (hs : s.Sized) :
    (∃ e, predictGravity bld half tenth six data s = .error e ∧ ScalarPanic T e) ∨
    ∃ g s', predictGravity bld half tenth six data s = .ok (g, s') ∧ s'.Sized ∧ s'.filter.Q = s.filter.Q := by
  rw [call_start bld half tenth six data hs]
  have hv := start_valid half tenth six hs
  have hz : (startObservation half s.observation).z.data.length = 1 := hs.z
  have h1 := loop_run bld (data := data) hv hz
  have h2 := run_safe bld hv (ops_wellFormed hz data)
  rcases h1 with ⟨e, k1, k2⟩ | ⟨⟨f, o⟩, v, k1, k2, _⟩
  · refine Or.inl ⟨e, by rw [k1]; rfl, ?_⟩
    rw [k2] at h2
    rcases h2 with ⟨e', h, h'⟩ | ⟨v, h, _⟩
    · cases h; exact h'
    · cases h
  · obtain ⟨q1, q2, q3⟩ := loop_keeps bld hv hz k1
    have hsz := sized_after hs half tenth six q1 q2
    obtain ⟨a, b, c, hd⟩ := list3 hsz.x
    have hi : f.x.index 2 = .ok c := by
      obtain ⟨⟨xd⟩, _, _, _, _, _⟩ := f
      simp only at hd
      subst hd
      rfl
    exact Or.inr ⟨c, ⟨f, o⟩, by simp only [k1, res_bind_ok, hi]; rfl, hsz, q3⟩

/-- C102: if the process noise and the cells of the covariance below the diagonal are zero, a call returns what `tests/gravity.rs`
computes, whatever else the buffers contain. -/
theorem C102_clean_call (bld : Build) (half tenth six : T) (data : List (T × T)) {s : Statics T} (hs : s.Sized)
    (hQ : s.filter.Q.data = List.replicate 9 0) (h10 : s.filter.P.getAt 1 0 = .ok 0) (h20 : s.filter.P.getAt 2 0 = .ok 0)
    (h21 : s.filter.P.getAt 2 1 = .ok 0) :
    (predictGravity bld half tenth six data s).map Prod.fst = gravityTest bld half tenth six data := by
  obtain ⟨hb, hf⟩ := C102_first_call bld half tenth six data
  rw [← hf]
  have hl : s.SameLeftovers Statics.boot := ⟨by
    obtain ⟨⟨_, _, _, ⟨Qd⟩, _, _⟩, _⟩ := s
    exact congrArg Mat.mk hQ, h10, h20, h21⟩
  rcases C102_depends_only_on_leftovers bld half tenth six data hs hb hl with ⟨e, h1, h2⟩ | ⟨g, s', t', h1, h2, _⟩
  · rw [h1, h2]
  · rw [h1, h2]; rfl

/-- C102: the missing three writes are the whole problem: if they are made before a call (by anyone), every one of any number of
calls returns what `tests/gravity.rs` computes from the same measurements. -/
theorem C102_with_symmetric_writes (bld : Build) (half tenth six : T) (data : List (T × T)) {s : Statics T} (hs : s.Sized)
    (hQ : s.filter.Q.data = List.replicate 9 0) :
    ∃ P, symmetricP tenth s.filter.P = .ok P ∧ (Statics.mk { s.filter with P := P } s.observation).Sized ∧
      (predictGravity bld half tenth six data ⟨{ s.filter with P := P }, s.observation⟩).map Prod.fst =
        gravityTest bld half tenth six data := by
  obtain ⟨⟨x, A, ⟨Pd⟩, Q, px, tp⟩, o⟩ := s
  obtain ⟨_, _, _, _, _, _, _, _, _, rfl⟩ := list9 hs.P
  have hsz : (Statics.mk (RegularKalman.mk x A (⟨[tenth, 0, 0, 0, 1, 0, 0, 0, 1]⟩ : Mat 3 3 T) Q px tp) o).Sized :=
    ⟨⟨hs.filter.x, hs.filter.A, Nat.le_refl _, hs.filter.Q, hs.filter.predictedX, hs.filter.tempP⟩, hs.observation, hs.x, hs.A, rfl,
      hs.Q, hs.H, hs.z, hs.R⟩
  exact ⟨⟨[tenth, 0, 0, 0, 1, 0, 0, 0, 1]⟩, rfl, hsz, C102_clean_call bld half tenth six data hsz hQ rfl rfl rfl⟩

/-- C102: once a call leaves the process noise and the cells below the diagonal as it found them, all further calls with the same
measurements return the same result. -/
theorem C102_settles (bld : Build) (half tenth six : T) (data : List (T × T)) {s s' : Statics T} {g : T} (hs : s.Sized)
    (h : predictGravity bld half tenth six data s = .ok (g, s')) (hl : s.SameLeftovers s') (k : Nat) :
    calls bld half tenth six (List.replicate k data) s' = .ok (List.replicate k g) := by
  have hs' : s'.Sized := by
    rcases C102_call_keeps bld half tenth six data hs with ⟨e, h1, _⟩ | ⟨g', t, h1, h2, _⟩
    · rw [h] at h1; cases h1
    · rw [h] at h1; cases h1; exact h2
  suffices H : ∀ t : Statics T, t.Sized → s.SameLeftovers t →
      calls bld half tenth six (List.replicate k data) t = .ok (List.replicate k g) from H s' hs' hl
  induction k with
  | zero => intro t _ _; rfl
  | succ k ih =>
    intro t ht hst
    rcases C102_depends_only_on_leftovers bld half tenth six data hs ht hst with ⟨e, h1, _⟩ | ⟨g', a, b, h1, h2, h3⟩
    · rw [h] at h1; cases h1
    · rw [h] at h1
      cases h1
      have hb : b.Sized := by
        rcases C102_call_keeps bld half tenth six data ht with ⟨e, k1, _⟩ | ⟨g', t, k1, k2, _⟩
        · rw [h2] at k1; cases k1
        · rw [h2] at k1; cases k1; exact k2
      have hsb : s.SameLeftovers b := ⟨hl.Q.trans h3.Q, hl.P10.trans h3.P10, hl.P20.trans h3.P20, hl.P21.trans h3.P21⟩
      rw [List.replicate_succ, List.replicate_succ]
      simp only [calls, h2, res_bind_ok, ih b hb hsb]
      rfl

end Any

end Minikalman
