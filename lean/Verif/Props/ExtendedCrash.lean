import Verif.Proofs.ExtendedCrash
import Verif.Props.Crash
import Verif.Props.ExtendedShared

/-!
# Property C100: catching panics in programs with an extended filter, and calls as transactions

`XWorld.Interrupted bld w op w'` (`Verif/Model/ExtendedCrash.lean`): a panic anywhere in the call `op`, in a kernel or in the user's
closure, can leave the program in the state `w'`. `w.restore w'` writes the saved `x`, `P` and captured state back.
`World.RunTransactions`, `XWorld.RunTransactions` (`Verif/Spec/ExtendedCrash.lean`): every call is saved, rolled back, retried, given up.
-/

set_option linter.unusedSectionVars false

namespace Minikalman

variable {T σ : Type} {n m : Nat}

section AnyArith
variable [Zero T] [One T] [Add T] [Sub T] [Mul T] [Neg T] [MDT T]

/-- C100: the sequence of calls is `predict_tuned_nonlinear` (`C67_calls_are_the_steps` has the other two). -/
theorem C100_calls_are_the_step (lambda : T) (g : σ → Mat n 1 T → Mat n 1 T → Res (σ × Mat n 1 T)) (st : σ)
    (f : ExtendedKalman n T) : exec (xpredictTunedCalls lambda g) (st, f) = f.predictTunedNonlinear lambda g st :=
  exec_xpredictTuned lambda g st f

/-- C100: interrupt any call of a program with an extended filter anywhere, in a kernel or in the closure, and write back `x`, `P` and
what the closures capture. The rest of the program then runs as if the interrupted call had not been made. -/
theorem C100_restore_after_interruption (bld : Build) {w w' : XWorld n T σ} {op : XOp n T σ} (hw : w.Valid) (hk : op.KeepsLength)
    (h : XWorld.Interrupted bld w op w') {ops : List (XOp n T σ)} (hops : ∀ op ∈ ops, op.WellFormed w)
    (hkeeps : ∀ op ∈ ops, op.KeepsLength) (hover : ∀ op ∈ ops, op.Overwrites) :
    (∃ e, w.run bld ops = .error e ∧ (w.restore w').run bld ops = .error e) ∨
    ∃ w₁ w₂, w.run bld ops = .ok w₁ ∧ (w.restore w').run bld ops = .ok w₂ ∧ w₁.InputsEq w₂ := by
  obtain ⟨_, _, h1, h2⟩ := xinterrupted_world bld hw hk h
  have hsc : OnlyXTemporaries (n := n) (T := T) (σ := σ) fun _ w => w := fun _ w => ⟨⟨.refl _, rfl⟩, id⟩
  have := xrun_scribbled bld hsc 0 hw h2 h1 hops hkeeps hover
  rw [xrun_plain] at this
  exact this

/-- C100: after any history in which any calls were interrupted anywhere and the panics caught (nothing restored), all buffers still
have their sizes, and whatever program follows panics only if a scalar operation or a closure does. -/
theorem C100_catching_panics_is_safe (bld : Build) {w w' : XWorld n T σ} {ops : List (XOp n T σ)} (hw : w.Valid)
    (hops : ∀ op ∈ ops, op.WellFormed w) (hkeeps : ∀ op ∈ ops, op.KeepsLength) (h : XWorld.RunCatching bld w ops w') :
    w'.Valid ∧ w.asRegular.SameShape w'.asRegular ∧
      ∀ ops' : List (XOp n T σ), (∀ op ∈ ops', op.WellFormed w) → (∀ op ∈ ops', op.KeepsLength) → ∀ e,
        w'.run bld ops' = .error e → ScalarPanic T e ∨ ∃ op ∈ ops', op.ClosurePanic e := by
  obtain ⟨h1, h2⟩ := xrunCatching_valid bld h hw hops hkeeps
  refine ⟨h1, h2, fun ops' ho hk' e he => ?_⟩
  rcases xrun_safe bld h1 (ops := ops') (fun op h => (ho op h).congr h2) hk' with ⟨e', k1, k2⟩ | ⟨v, k1, _⟩
  · rw [he] at k1; cases k1; exact k2
  · rw [he] at k1; cases k1

/-- C100: an interrupted call does not touch the Jacobians, the noise covariances and the measurement. -/
theorem C100_model_untouched (bld : Build) {w w' : XWorld n T σ} {op : XOp n T σ} (hw : w.Valid) (hk : op.KeepsLength)
    (h : XWorld.Interrupted bld w op w') : w'.kf.A = w.kf.A ∧ w'.kf.Q = w.kf.Q ∧
      List.Forall₂ ObsInputsEq w.asRegular.obs w'.asRegular.obs := by
  obtain ⟨_, _, h1, _⟩ := xinterrupted_world bld hw hk h
  exact ⟨h1.buffers.A.symm, h1.buffers.Q.symm, h1.buffers.obs⟩

/-- C100: all calls of the extended filter finish with the closure and the new state before they touch the covariance. So a caller who
finds `P` changed knows that `x` and the captured state are final. -/
theorem C100_state_before_covariance (bld : Build) {f f' f₁ : ExtendedKalman n T} {o o' o₁ : ExtendedObservation n m T}
    {g : σ → Mat n 1 T → Mat n 1 T → Res (σ × Mat n 1 T)} {k : σ → Mat n 1 T → Mat m 1 T → Res (σ × Mat m 1 T)} {st st' st₁ : σ}
    {lambda : T} (hP : f'.P ≠ f.P) :
    (Interrupted (xpredictCalls g) (st, f) (st', f') → f.predictNonlinear g st = .ok (st₁, f₁) → f'.x = f₁.x ∧ st' = st₁) ∧
    (Interrupted (xpredictTunedCalls lambda g) (st, f) (st', f') → f.predictTunedNonlinear lambda g st = .ok (st₁, f₁) →
      f'.x = f₁.x ∧ st' = st₁) ∧
    (Interrupted (xcorrectCalls bld k) (st, f, o) (st', f', o') → f.correctNonlinear bld o k st = .ok (st₁, f₁, o₁) →
      f'.x = f₁.x ∧ st' = st₁) :=
  ⟨fun h hg => ((xpredict_order h hg).resolve_left hP).symm, fun h hg => ((xpredictTuned_order h hg).resolve_left hP).symm,
    fun h hg => ((xcorrect_order h hg).resolve_left hP).symm⟩

/-- C100: if `predict_tuned_nonlinear` panics and `+`, `-`, `*` do not, then either the closure panicked and the filter still has its
`x` and `P`, or `recip(λ²)` did and the filter has the new state (as computed by the closure) with the old covariance. -/
theorem C100_failed_predict_tuned {g : σ → Mat n 1 T → Mat n 1 T → Res (σ × Mat n 1 T)} (hg : KeepsLength g)
    {f f' : ExtendedKalman n T} {st st' : σ} {lambda : T} {e : Panic} (hn : 0 < n) (hf : f.asRegular.Valid)
    (h : PanicsWith e (xpredictTunedCalls lambda g) (st, f) (st', f')) :
    (g st f.x f.predictedX = .error e ∧ f'.x = f.x ∧ f'.P = f.P) ∨
    (MDT.recip (lambda * lambda) = .error e ∧ ∃ f₁, f.predictNonlinear g st = .ok (st', f₁) ∧ f'.x = f₁.x ∧ f'.P = f.P) := by
  have key : ∀ st' f', PanicsWith e (xpredictTunedCalls lambda g) (st, f) (st', f') →
      (g st f.x f.predictedX = .error e ∧ f'.x = f.x ∧ f'.P = f.P) ∨
      (MDT.recip (lambda * lambda) = .error e ∧ ∃ f₁, f.predictNonlinear g st = .ok (st', f₁) ∧ f'.x = f₁.x ∧ f'.P = f.P) := by
    intro st' f' h
    cases h with
    | here h hd =>
      obtain ⟨d, _, hd⟩ := hd
      simp only at hd
      subst hd
      refine Or.inl ⟨?_, rfl, rfl⟩
      simp only [closure] at h
      cases hr : g st f.x f.predictedX with
      | error e' => rw [hr] at h; cases h; rfl
      | ok r => rw [hr] at h; cases h
    | @later _ _ _ s₁ _ h h' =>
      simp only [closure] at h
      cases hr : g st f.x f.predictedX with
      | error e' => rw [hr] at h; cases h
      | ok r =>
        obtain ⟨st1, px⟩ := r
        rw [hr, res_bind_ok] at h
        injection h with h
        subst h
        have hl := hg _ _ _ _ _ hr
        have hpx : px.Valid := valid_of_len hl hf.predictedX
        obtain ⟨x1, k1, k1r, k1t⟩ := Mat.copyTo_repsV hn hpx.repsV hf.x
        have k1 : px.copyTo f.x = .ok x1 := k1
        obtain ⟨f₁, q1, q2, _, _, _, _, q7, _⟩ := xpredict_run hn hf hr hl hpx.repsV hf.A.reps hf.P.reps hf.Q.reps
        have hx : x1 = f₁.x := Mat.ext_of_repsV k1r q2 k1t q7
        cases h' with
        | here h hd =>
          exfalso
          simp only [call, k1, res_bind_ok] at h
          cases h
        | @later _ _ _ s₂ _ h h' =>
          simp only [call, k1, res_bind_ok] at h
          injection h with h
          subst h
          cases h' with
          | here h hd =>
            simp only [scalar] at h hd
            injection hd with hd1 hd2
            subst hd1 hd2
            refine Or.inr ⟨?_, f₁, q1, hx, rfl⟩
            cases hφ : (MDT.recip (lambda * lambda) : Res T) with
            | error e' => rw [hφ] at h; cases h; rfl
            | ok φ => rw [hφ] at h; cases h
          | @later _ _ _ s₃ _ h h' =>
            exfalso
            simp only [scalar] at h
            cases hφ : (MDT.recip (lambda * lambda) : Res T) with
            | error e' => rw [hφ] at h; cases h
            | ok φ =>
              rw [hφ] at h
              cases h
              obtain ⟨ap, k2, _, k2t⟩ := Mat.mult_reps hf.A.reps hf.P.reps hf.tempP
              obtain ⟨apa, k3, _, k3t⟩ := Mat.multscaleTransb_reps φ (k2t.valid hf.tempP).reps hf.A.reps hf.P
              obtain ⟨P, k4, _⟩ := Mat.addInplaceB_reps hf.Q.reps (k3t.valid hf.P).reps
              simp only [ExtendedKalman.asRegular] at k2 k3 k4
              have := h'.error
              simp only [exec, call, k2, k3, k4, hφ, res_bind_ok, pure_bind] at this
              cases this
  exact key st' f' h

/-- C100, calls as transactions: a program that saves `x` and `P` before each call, and after an interruption writes them back and
retries or gives up the call, ends like a program that makes only the calls that completed, in the same order and without any
interruption. -/
theorem C100_transactions (bld : Build) {w w' : World n T} {ops committed : List (Op T)} (hw : w.Valid)
    (hops : ∀ op ∈ ops, op.WellFormed w) (h : World.RunTransactions bld w ops committed w') :
    committed.Sublist ops ∧ ∃ v, w.run bld committed = .ok v ∧ v.InputsEq w' :=
  ⟨transactions_sublist bld h, transactions bld h hw hw (.refl w) hops⟩

/-- C100, calls as transactions, for the extended filter; the captured state of the closures is saved and written back, too. -/
theorem C100_transactions_extended (bld : Build) {w w' : XWorld n T σ} {ops committed : List (XOp n T σ)} (hw : w.Valid)
    (hops : ∀ op ∈ ops, op.WellFormed w) (hkeeps : ∀ op ∈ ops, op.KeepsLength) (hover : ∀ op ∈ ops, op.Overwrites)
    (h : XWorld.RunTransactions bld w ops committed w') :
    committed.Sublist ops ∧ ∃ v, w.run bld committed = .ok v ∧ v.InputsEq w' :=
  ⟨xtransactions_sublist bld h, xtransactions bld h hw hw ⟨.refl _, rfl⟩ hops hkeeps hover⟩

end AnyArith

/-! ## Examples -/

/-- A program that counts the calls of its closures; the closure of `predict` is interrupted after it has counted and written 9 to the
first cell. -/
def Ex.xinterrupted : XWorld 2 ℚ Nat :=
  { (Ex.world ℚ).asExtended (0 : Nat) with
    kf := { (Ex.world ℚ).kf.asExtended with predictedX := ⟨(Ex.world ℚ).kf.predictedX.data.set 0 9⟩ }, env := 1 }

theorem Ex.xinterrupted_ok (f : Nat → Mat 2 1 ℚ → ℚ) :
    XWorld.Interrupted ⟨true, false⟩ ((Ex.world ℚ).asExtended (0 : Nat)) (.predict (Ex.fill f)) Ex.xinterrupted := by
  refine XWorld.Interrupted.predict (.here ⟨⟨(Ex.world ℚ).kf.predictedX.data.set 0 9⟩, ?_, rfl⟩)
  simp [World.asExtended, RegularKalman.asExtended]

/-- A closure whose result depends on how often it ran. -/
def Ex.count (st : Nat) (_ out : Mat 2 1 ℚ) : Res (Nat × Mat 2 1 ℚ) := .ok (st + 1, ⟨out.data.map fun _ => (st : ℚ)⟩)

/-- The hypotheses of `C100_transactions_extended` can be met: the prediction is interrupted, retried, the correction given up. -/
example (f : Nat → Mat 2 1 ℚ → ℚ) (w₁ : XWorld 2 ℚ Nat)
    (h : (((Ex.world ℚ).asExtended (0 : Nat)).restore Ex.xinterrupted).step ⟨true, false⟩ (.predict (Ex.fill f)) = .ok w₁) :
    XWorld.RunTransactions ⟨true, false⟩ ((Ex.world ℚ).asExtended (0 : Nat))
      [.predict (Ex.fill f), .correct 0 fun _ => Ex.fill f] [.predict (Ex.fill f)] (w₁.restore w₁) ∧
    ((Ex.world ℚ).asExtended (0 : Nat)).Valid :=
  ⟨.retry (Ex.xinterrupted_ok f) (.commit h (.skip (.none _) (.nil _))),
    ⟨by decide, (Ex.filter_reps ℚ).valid, by simp [XWorld.asRegular, World.asExtended], (Ex.world_reps ℚ).valid.obs⟩⟩

/-- The step in the example above completes. -/
example : ((((Ex.world ℚ).asExtended (0 : Nat)).restore Ex.xinterrupted).step ⟨true, false⟩
    (.predict Ex.count)).isOk = true := by decide +kernel

/-- C100, what has to be restored: without the captured state (here: how often the closures ran) the next prediction differs, and with a
closure that reads the old contents of its output even a complete restore is not enough. -/
theorem C100_what_to_restore :
    (((Ex.world ℚ).asExtended (0 : Nat)).run ⟨true, false⟩ [.predict Ex.count]).map (fun w => w.kf.x.data) ≠
      (({ ((Ex.world ℚ).asExtended (0 : Nat)).restore Ex.xinterrupted with env := Ex.xinterrupted.env } : XWorld 2 ℚ Nat).run ⟨true, false⟩
        [.predict Ex.count]).map (fun w => w.kf.x.data) ∧
    (((Ex.world ℚ).asExtended (0 : Nat)).run ⟨true, false⟩ [.predict Ex.count]).map (fun w => w.kf.x.data) =
      ((((Ex.world ℚ).asExtended (0 : Nat)).restore Ex.xinterrupted).run ⟨true, false⟩
        [.predict Ex.count]).map (fun w => w.kf.x.data) ∧
    (((Ex.world ℚ).asExtended (0 : Nat)).run ⟨true, false⟩ [.predict fun st _ out => .ok (st, out)]).map (fun w => w.kf.x.data) ≠
      ((((Ex.world ℚ).asExtended (0 : Nat)).restore Ex.xinterrupted).run ⟨true, false⟩
        [.predict fun st _ out => .ok (st, out)]).map (fun w => w.kf.x.data) := by
  decide +kernel

end Minikalman
