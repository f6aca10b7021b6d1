import Verif.Spec.Extended
import Verif.Proofs.HistoryRel

/-! # The extended filter: helper lemmas -/

set_option linter.unusedSectionVars false

namespace Minikalman

open Matrix

variable {T σ : Type} {n m : Nat}

@[simp] theorem RegularKalman.asExtended_asRegular (f : RegularKalman n T) : f.asExtended.asRegular = f := rfl
@[simp] theorem ExtendedKalman.asRegular_asExtended (f : ExtendedKalman n T) : f.asRegular.asExtended = f := rfl
@[simp] theorem RegularObservation.asExtended_asRegular (f : RegularObservation n m T) : f.asExtended.asRegular = f := rfl
@[simp] theorem ExtendedObservation.asRegular_asExtended (f : ExtendedObservation n m T) :
    f.asRegular.asExtended = f := rfl

theorem res_map_ok {α β : Type} (f : α → β) (a : α) : (Except.ok a : Res α).map f = .ok (f a) := rfl

theorem res_map_error {α β : Type} (f : α → β) (e : Panic) : (Except.error e : Res α).map f = .error e := rfl

theorem res_map_bind {α β γ : Type} (x : Res α) (f : α → Res β) (g : β → γ) :
    (x >>= f).map g = x >>= fun a => (f a).map g := by cases x <;> rfl

theorem res_bind_map {α β γ : Type} (x : Res α) (f : α → β) (g : β → Res γ) :
    (x.map f >>= g) = x >>= fun a => g (f a) := by cases x <;> rfl

theorem res_pure_map {α β : Type} (a : α) (g : α → β) : (pure a : Res α).map g = pure (g a) := rfl

section Any
variable [Zero T] [One T] [Add T] [Sub T] [Mul T] [Neg T] [MDT T]

theorem xpredictP_eq (f : ExtendedKalman n T) : f.predictP = f.asRegular.predictP.map RegularKalman.asExtended := by
  unfold ExtendedKalman.predictP RegularKalman.predictP
  simp only [res_map_bind, res_pure_map]
  rfl

theorem xpredictPTuned_eq (f : ExtendedKalman n T) (lambda : T) :
    f.predictPTuned lambda = (f.asRegular.predictPTuned lambda).map RegularKalman.asExtended := by
  unfold ExtendedKalman.predictPTuned RegularKalman.predictPTuned
  simp only [res_map_bind, res_pure_map]
  rfl

theorem xupdate_eq (bld : Build) (o : ExtendedObservation n m T) (x : Mat n 1 T) (P : Mat n n T) :
    o.updateWithInnovation bld x P =
      (o.asRegular.updateWithInnovation bld x P).map fun r => (r.1.asExtended, r.2) := by
  unfold ExtendedObservation.updateWithInnovation RegularObservation.updateWithInnovation
  simp only [res_map_bind, res_pure_map]
  rfl

/-- The linear state transition as a closure: `A.mult_rowvector(x, next)`. -/
theorem xpredictX_linear (f : RegularKalman n T) (st : σ) :
    f.asExtended.predictXNonlinear (fun st x out => (f.A.multRowvector x out).map fun r => (st, r)) st =
      f.predictX.map fun f' => (st, f'.asExtended) := by
  unfold ExtendedKalman.predictXNonlinear RegularKalman.predictX
  simp only [res_map_bind, res_pure_map, res_bind_map]
  rfl

theorem xpredict_linear (f : RegularKalman n T) (st : σ) :
    f.asExtended.predictNonlinear (fun st x out => (f.A.multRowvector x out).map fun r => (st, r)) st =
      f.predict.map fun f' => (st, f'.asExtended) := by
  unfold ExtendedKalman.predictNonlinear RegularKalman.predict
  rw [xpredictX_linear]
  simp only [res_map_bind, res_bind_map, xpredictP_eq, RegularKalman.asExtended_asRegular]
  cases f.predictX with
  | error e => rfl
  | ok g =>
    simp only [res_bind_ok]
    cases g.predictP <;> rfl

theorem xpredictTuned_linear (f : RegularKalman n T) (lambda : T) (st : σ) :
    f.asExtended.predictTunedNonlinear lambda (fun st x out => (f.A.multRowvector x out).map fun r => (st, r)) st =
      (f.predictTuned lambda).map fun f' => (st, f'.asExtended) := by
  unfold ExtendedKalman.predictTunedNonlinear RegularKalman.predictTuned
  rw [xpredictX_linear]
  simp only [res_map_bind, res_bind_map, xpredictPTuned_eq, RegularKalman.asExtended_asRegular]
  cases f.predictX with
  | error e => rfl
  | ok g =>
    simp only [res_bind_ok]
    cases g.predictPTuned lambda <;> rfl

theorem xcorrect_linear (bld : Build) (f : RegularKalman n T) (o : RegularObservation n m T) (st : σ) :
    f.asExtended.correctNonlinear bld o.asExtended (fun st x out => (o.H.multRowvector x out).map fun r => (st, r)) st =
      (f.correct bld o).map fun r => (st, r.1.asExtended, r.2.asExtended) := by
  unfold ExtendedKalman.correctNonlinear RegularKalman.correct ExtendedObservation.correctNonlinear
    RegularObservation.correct
  simp only [res_map_bind, res_bind_map, bind_assoc, xupdate_eq, res_pure_map]
  rfl

/-! ## Decomposition of the nonlinear steps -/

theorem xpredict_ok {f f' : ExtendedKalman n T} {g : σ → Mat n 1 T → Mat n 1 T → Res (σ × Mat n 1 T)} {st st' : σ}
    (h : f.predictNonlinear g st = .ok (st', f')) :
    ∃ px x', g st f.x f.predictedX = .ok (st', px) ∧ px.copyTo f.x = .ok x' ∧
      ({ f with x := x', predictedX := px } : ExtendedKalman n T).asRegular.predictP = .ok f'.asRegular := by
  unfold ExtendedKalman.predictNonlinear ExtendedKalman.predictXNonlinear at h
  obtain ⟨⟨s1, f1⟩, h1, h⟩ := bind_ok h
  obtain ⟨⟨s2, px⟩, h2, h1⟩ := bind_ok h1
  obtain ⟨x', h3, h1⟩ := bind_ok h1
  cases h1
  obtain ⟨f2, h4, h⟩ := bind_ok h
  cases h
  rw [xpredictP_eq] at h4
  refine ⟨px, x', h2, h3, ?_⟩
  revert h4
  cases ({ f with x := x', predictedX := px } : ExtendedKalman n T).asRegular.predictP with
  | error e => intro h4; cases h4
  | ok r => intro h4; cases h4; rfl

theorem xpredictTuned_ok {f f' : ExtendedKalman n T} {lambda : T}
    {g : σ → Mat n 1 T → Mat n 1 T → Res (σ × Mat n 1 T)} {st st' : σ}
    (h : f.predictTunedNonlinear lambda g st = .ok (st', f')) :
    ∃ px x', g st f.x f.predictedX = .ok (st', px) ∧ px.copyTo f.x = .ok x' ∧
      ({ f with x := x', predictedX := px } : ExtendedKalman n T).asRegular.predictPTuned lambda = .ok f'.asRegular := by
  unfold ExtendedKalman.predictTunedNonlinear ExtendedKalman.predictXNonlinear at h
  obtain ⟨⟨s1, f1⟩, h1, h⟩ := bind_ok h
  obtain ⟨⟨s2, px⟩, h2, h1⟩ := bind_ok h1
  obtain ⟨x', h3, h1⟩ := bind_ok h1
  cases h1
  obtain ⟨f2, h4, h⟩ := bind_ok h
  cases h
  rw [xpredictPTuned_eq] at h4
  refine ⟨px, x', h2, h3, ?_⟩
  revert h4
  cases ({ f with x := x', predictedX := px } : ExtendedKalman n T).asRegular.predictPTuned lambda with
  | error e => intro h4; cases h4
  | ok r => intro h4; cases h4; rfl

theorem xcorrect_ok (bld : Build) {f f' : ExtendedKalman n T} {o o' : ExtendedObservation n m T}
    {h : σ → Mat n 1 T → Mat m 1 T → Res (σ × Mat m 1 T)} {st st' : σ}
    (hc : f.correctNonlinear bld o h st = .ok (st', f', o')) :
    ∃ y y' x' P', h st f.x o.y = .ok (st', y) ∧ o.z.subInplaceB y = .ok y' ∧
      ({ o with y := y' } : ExtendedObservation n m T).asRegular.updateWithInnovation bld f.x f.P =
        .ok (o'.asRegular, x', P') ∧ f' = { f with x := x', P := P' } := by
  unfold ExtendedKalman.correctNonlinear ExtendedObservation.correctNonlinear at hc
  obtain ⟨⟨s1, o1, x1, P1⟩, h1, hc⟩ := bind_ok hc
  cases hc
  obtain ⟨⟨s2, y⟩, h2, h1⟩ := bind_ok h1
  obtain ⟨y', h3, h1⟩ := bind_ok h1
  obtain ⟨⟨o2, x2, P2⟩, h4, h1⟩ := bind_ok h1
  cases h1
  rw [xupdate_eq] at h4
  refine ⟨y, y', x1, P1, h2, h3, ?_, rfl⟩
  revert h4
  cases ({ o with y := y' } : ExtendedObservation n m T).asRegular.updateWithInnovation bld f.x f.P with
  | error e => intro h4; cases h4
  | ok r => obtain ⟨r1, r2, r3⟩ := r; intro h4; cases h4; rfl

/-- Forward rule for `predict_nonlinear`. -/
theorem xpredict_run {f : ExtendedKalman n T} (hn : 0 < n) (hf : f.asRegular.Valid)
    {g : σ → Mat n 1 T → Mat n 1 T → Res (σ × Mat n 1 T)} {st st' : σ} {px : Mat n 1 T}
    (hg : g st f.x f.predictedX = .ok (st', px)) (hl : px.data.length = f.predictedX.data.length)
    {X A P Q} (hX : px.RepsV X) (hA : f.A.Reps A) (hP : f.P.Reps P) (hQ : f.Q.Reps Q) :
    ∃ f', f.predictNonlinear g st = .ok (st', f') ∧ f'.x.RepsV X ∧
      f'.P.Reps (Spec.mulSeq (Spec.mulSeq A P) A.transpose + Q) ∧ f'.predictedX = px ∧ f'.A = f.A ∧ f'.Q = f.Q ∧
      f.x.SameTail f'.x ∧ f.P.SameTail f'.P ∧ f.tempP.SameTail f'.tempP := by
  obtain ⟨x', h1, h2, h3⟩ := Mat.copyTo_repsV (b := f.x) hn hX hf.x
  have hv : ({ f with x := x', predictedX := px } : ExtendedKalman n T).asRegular.Valid :=
    ⟨h3.valid hf.x, hf.A, hf.P, hf.Q, by
      have := hf.predictedX
      exact this.trans_eq hl.symm, hf.tempP⟩
  obtain ⟨f2, h4, h5, h6, h7, h8, h9⟩ := predictP_any hv (A := A) (P := P) (Q := Q) hA hP hQ
  refine ⟨f2.asExtended, ?_, ?_, h5, h7, h9.A, h9.Q, ?_, h9.P, h9.tempP⟩
  · unfold ExtendedKalman.predictNonlinear ExtendedKalman.predictXNonlinear
    rw [hg]
    simp only [res_bind_ok, h1, pure_bind]
    rw [xpredictP_eq, h4]; rfl
  · show f2.x.RepsV X
    rw [h6]; exact h2
  · show f.x.SameTail f2.x
    rw [h6]; exact h3

theorem xpredictTuned_run {f : ExtendedKalman n T} (hn : 0 < n) (hf : f.asRegular.Valid) (lambda : T) {φ : T}
    (hφ : MDT.recip (lambda * lambda) = .ok φ)
    {g : σ → Mat n 1 T → Mat n 1 T → Res (σ × Mat n 1 T)} {st st' : σ} {px : Mat n 1 T}
    (hg : g st f.x f.predictedX = .ok (st', px)) (hl : px.data.length = f.predictedX.data.length)
    {X A P Q} (hX : px.RepsV X) (hA : f.A.Reps A) (hP : f.P.Reps P) (hQ : f.Q.Reps Q) :
    ∃ f', f.predictTunedNonlinear lambda g st = .ok (st', f') ∧ f'.x.RepsV X ∧
      f'.P.Reps (Matrix.of (fun i j => Spec.mulSeq (Spec.mulSeq A P) A.transpose i j * φ) + Q) ∧ f'.predictedX = px ∧
      f'.A = f.A ∧ f'.Q = f.Q ∧ f.x.SameTail f'.x ∧ f.P.SameTail f'.P ∧ f.tempP.SameTail f'.tempP := by
  obtain ⟨x', h1, h2, h3⟩ := Mat.copyTo_repsV (b := f.x) hn hX hf.x
  have hv : ({ f with x := x', predictedX := px } : ExtendedKalman n T).asRegular.Valid :=
    ⟨h3.valid hf.x, hf.A, hf.P, hf.Q, by
      have := hf.predictedX
      exact this.trans_eq hl.symm, hf.tempP⟩
  obtain ⟨f2, h4, h5, h6, h7, h8, h9⟩ := predictPTuned_any hv lambda hφ (A := A) (P := P) (Q := Q) hA hP hQ
  refine ⟨f2.asExtended, ?_, ?_, h5, h7, h9.A, h9.Q, ?_, h9.P, h9.tempP⟩
  · unfold ExtendedKalman.predictTunedNonlinear ExtendedKalman.predictXNonlinear
    rw [hg]
    simp only [res_bind_ok, h1, pure_bind]
    rw [xpredictPTuned_eq, h4]; rfl
  · show f2.x.RepsV X
    rw [h6]; exact h2
  · show f.x.SameTail f2.x
    rw [h6]; exact h3

theorem xpredictTuned_panic {f : ExtendedKalman n T} (hn : 0 < n) (hf : f.asRegular.Valid) (lambda : T) {e : Panic}
    (hφ : MDT.recip (lambda * lambda) = .error e)
    {g : σ → Mat n 1 T → Mat n 1 T → Res (σ × Mat n 1 T)} {st st' : σ} {px : Mat n 1 T}
    (hg : g st f.x f.predictedX = .ok (st', px)) (hl : px.data.length = f.predictedX.data.length) :
    f.predictTunedNonlinear lambda g st = .error e := by
  have hpx : px.Valid := (show n * 1 ≤ f.predictedX.data.length from hf.predictedX).trans_eq hl.symm
  obtain ⟨x', h1, h2, h3⟩ := Mat.copyTo_repsV hn hpx.repsV hf.x
  unfold ExtendedKalman.predictTunedNonlinear ExtendedKalman.predictXNonlinear
  rw [hg]
  simp only [res_bind_ok]
  have h1' : px.copyTo f.x = .ok x' := h1
  rw [h1']
  simp only [res_bind_ok, pure_bind]
  unfold ExtendedKalman.predictPTuned
  rw [hφ]; rfl

/-- Forward rule for `correct_nonlinear`, up to the innovation. -/
theorem xcorrect_run (bld : Build) {f : ExtendedKalman n T} {o : ExtendedObservation n m T}
    {h : σ → Mat n 1 T → Mat m 1 T → Res (σ × Mat m 1 T)} {st st' : σ} {y y' : Mat m 1 T}
    (hh : h st f.x o.y = .ok (st', y)) (hy : o.z.subInplaceB y = .ok y') :
    f.correctNonlinear bld o h st =
      ({ o with y := y' } : ExtendedObservation n m T).asRegular.updateWithInnovation bld f.x f.P >>= fun r =>
        .ok (st', { f with x := r.2.1, P := r.2.2 }, r.1.asExtended) := by
  unfold ExtendedKalman.correctNonlinear ExtendedObservation.correctNonlinear
  rw [hh]
  simp only [res_bind_ok, hy, xupdate_eq, res_bind_map, bind_assoc, pure_bind]
  rfl

theorem xvalid_mem {w : XWorld n T σ} (hw : w.Valid) {i : Nat} {o : (m : Nat) × ExtendedObservation n m T}
    (hi : w.obs[i]? = some o) : 0 < o.1 ∧ o.2.asRegular.Valid := by
  have : (⟨o.1, o.2.asRegular⟩ : (m : Nat) × RegularObservation n m T) ∈ w.asRegular.obs :=
    List.mem_map.mpr ⟨o, List.mem_of_getElem? hi, rfl⟩
  exact hw.obs _ this

theorem xasRegular_set {w : XWorld n T σ} {i : Nat} {o : (m : Nat) × ExtendedObservation n m T} :
    (w.obs.set i o).map (fun o => (⟨o.1, o.2.asRegular⟩ : (m : Nat) × RegularObservation n m T)) =
      w.asRegular.obs.set i ⟨o.1, o.2.asRegular⟩ := by
  simp [XWorld.asRegular, List.map_set]

/-- Assignments act on the buffers like those of the regular filter. -/
theorem xassign_eq (bld : Build) (w : XWorld n T σ) (a : Assign T) :
    (w.assign a).map XWorld.asRegular = w.asRegular.step bld a.toOp := by
  cases a with
  | x v => simp only [XWorld.assign, Assign.toOp, World.step, res_map_bind]; rfl
  | A v => simp only [XWorld.assign, Assign.toOp, World.step, res_map_bind]; rfl
  | P v => simp only [XWorld.assign, Assign.toOp, World.step, res_map_bind]; rfl
  | Q v => simp only [XWorld.assign, Assign.toOp, World.step, res_map_bind]; rfl
  | z i v =>
    simp only [XWorld.assign, Assign.toOp, World.step, XWorld.withObs, World.withObs, XWorld.asRegular, List.getElem?_map]
    cases w.obs[i]? with
    | none => rfl
    | some o =>
      simp only [Option.map_some, res_map_bind, bind_assoc, pure_bind, res_pure_map, List.map_set, XWorld.asRegular]
      rfl
  | H i v =>
    simp only [XWorld.assign, Assign.toOp, World.step, XWorld.withObs, World.withObs, XWorld.asRegular, List.getElem?_map]
    cases w.obs[i]? with
    | none => rfl
    | some o =>
      simp only [Option.map_some, res_map_bind, bind_assoc, pure_bind, res_pure_map, List.map_set, XWorld.asRegular]
      rfl
  | R i v =>
    simp only [XWorld.assign, Assign.toOp, World.step, XWorld.withObs, World.withObs, XWorld.asRegular, List.getElem?_map]
    cases w.obs[i]? with
    | none => rfl
    | some o =>
      simp only [Option.map_some, res_map_bind, bind_assoc, pure_bind, res_pure_map, List.map_set, XWorld.asRegular]
      rfl

theorem xassign_ok {bld : Build} {w : XWorld n T σ} {a : Assign T} {w' : World n T}
    (h : w.asRegular.step bld a.toOp = .ok w') : ∃ v, w.assign a = .ok v ∧ v.asRegular = w' := by
  rw [← xassign_eq] at h
  cases hv : w.assign a with
  | error e => rw [hv] at h; cases h
  | ok v => rw [hv] at h; cases h; exact ⟨v, rfl, rfl⟩

theorem xassign_error {bld : Build} {w : XWorld n T σ} {a : Assign T} {e : Panic}
    (h : w.asRegular.step bld a.toOp = .error e) : w.assign a = .error e := by
  rw [← xassign_eq] at h
  cases hv : w.assign a with
  | error e => rw [hv] at h; cases h; rfl
  | ok v => rw [hv] at h; cases h

/-! ## Safety -/

/-- The panics an extended program can raise. -/
def XPanic (ops : List (XOp n T σ)) (e : Panic) : Prop := ScalarPanic T e ∨ ∃ op ∈ ops, op.ClosurePanic e

theorem xpredict_frame {w : XWorld n T σ} (hw : w.Valid) {f' : ExtendedKalman n T} {env : σ}
    (hA : f'.A = w.kf.A) (hQ : f'.Q = w.kf.Q) (hx : w.kf.x.SameTail f'.x) (hP : w.kf.P.SameTail f'.P)
    (hp : f'.predictedX.data.length = w.kf.predictedX.data.length) (ht : w.kf.tempP.SameTail f'.tempP) :
    ({ w with kf := f', env := env } : XWorld n T σ).Valid ∧
      w.asRegular.SameShape ({ w with kf := f', env := env } : XWorld n T σ).asRegular := by
  have hk := hw.kf
  refine ⟨⟨hw.states, ⟨hx.valid hk.x, ?_, hP.valid hk.P, ?_, ?_, ht.valid hk.tempP⟩, hw.ctl, hw.obs⟩,
    hx.1, ?_, hP.1, ?_, rfl, rfl⟩
  · show f'.A.Valid
    rw [hA]; exact hk.A
  · show f'.Q.Valid
    rw [hQ]; exact hk.Q
  · exact (show n * 1 ≤ w.kf.predictedX.data.length from hk.predictedX).trans_eq hp.symm
  · show f'.A.data.length = _
    rw [hA]; rfl
  · show f'.Q.data.length = _
    rw [hQ]; rfl

theorem xcorrect_frame {w : XWorld n T σ} (hw : w.Valid) {i : Nat} {o o' : ExtendedObservation n m T} {x' : Mat n 1 T}
    {P' : Mat n n T} {env : σ} (hi : w.obs[i]? = some ⟨m, o⟩)
    (ho : o'.asRegular.Valid ∧ obsShape ⟨m, o'.asRegular⟩ = obsShape ⟨m, o.asRegular⟩)
    (hx : w.kf.x.SameTail x') (hP : w.kf.P.SameTail P') :
    ({ kf := { w.kf with x := x', P := P' }, obs := w.obs.set i ⟨m, o'⟩, env := env } : XWorld n T σ).Valid ∧
      w.asRegular.SameShape
        ({ kf := { w.kf with x := x', P := P' }, obs := w.obs.set i ⟨m, o'⟩, env := env } : XWorld n T σ).asRegular := by
  have hk := hw.kf
  have hov := xvalid_mem hw hi
  have hi' : w.asRegular.obs[i]? = some ⟨m, o.asRegular⟩ := by
    simp [XWorld.asRegular, hi]
  constructor
  · refine ⟨hw.states, ⟨hx.valid hk.x, hk.A, hP.valid hk.P, hk.Q, hk.predictedX, hk.tempP⟩, hw.ctl, ?_⟩
    show ∀ o ∈ List.map _ _, _
    rw [xasRegular_set]
    exact valid_set_obs hw ⟨hov.1, ho.1⟩
  · refine ⟨hx.1, rfl, hP.1, rfl, rfl, ?_⟩
    show List.map obsShape (List.map _ _) = _
    rw [xasRegular_set]
    exact map_set_same hi' ho.2

theorem frame_of_y {o o' : RegularObservation n m T} {y : Mat m 1 T} (hl : y.data.length = o.y.data.length)
    (hv : o.Valid) (h : ({ o with y := y } : RegularObservation n m T).Frame o') :
    o'.Valid ∧ obsShape ⟨m, o'⟩ = obsShape ⟨m, o⟩ := by
  have hv' : ({ o with y := y } : RegularObservation n m T).Valid :=
    ⟨hv.H, hv.z, hv.R, (show m * 1 ≤ o.y.data.length from hv.y).trans_eq hl.symm, hv.S, hv.K, hv.tempSInv, hv.tempHP,
      hv.tempPHt, hv.tempKHP⟩
  exact ⟨h.valid hv', h.shape⟩

theorem update_safe_frame (bld : Build) {o : RegularObservation n m T} {x : Mat n 1 T} {P : Mat n n T}
    (hm : 0 < m) (ho : o.Valid) (hx : x.Valid) (hP : P.Valid) :
    Safe (ScalarPanic T) (o.updateWithInnovation bld x P)
      (fun r => o.Frame r.1 ∧ x.SameTail r.2.1 ∧ P.SameTail r.2.2) := by
  rcases update_safe bld hm ho hx hP with h | ⟨r, hr, _⟩
  · exact Or.inl h
  · refine Or.inr ⟨r, hr, ?_⟩
    have := update_rel bld hm ho ho hP (Mat.Agree.refl _) (Mat.Agree.refl _) (Mat.Agree.refl _)
      hx.repsV ho.y.repsV hx.repsV ho.y.repsV
    rcases this with ⟨e, h, _⟩ | ⟨a, b, h, _, h1, _, _, _, h2, _, h3, _⟩
    · rw [hr] at h; cases h
    · rw [hr] at h; cases h
      exact ⟨h1, h2, h3⟩

theorem Safe.weaken {α : Type} {E E' : Panic → Prop} {r : Res α} {Q : α → Prop} (h : Safe E r Q) (hE : ∀ e, E e → E' e) :
    Safe E' r Q := by
  rcases h with ⟨e, h1, h2⟩ | h
  · exact Or.inl ⟨e, h1, hE e h2⟩
  · exact Or.inr h

theorem y_after {o : RegularObservation n m T} (ho : o.Valid) {y : Mat m 1 T} (hl : y.data.length = o.y.data.length)
    {Z Y} (hZ : o.z.RepsV Z) (hY : y.RepsV Y) :
    ∃ y', o.z.subInplaceB y = .ok y' ∧ y'.RepsV (Z - Y) ∧ y'.data.length = o.y.data.length ∧
      ({ o with y := y' } : RegularObservation n m T).Valid := by
  obtain ⟨y', h1, h2, h3⟩ := Mat.subInplaceB_repsV hZ hY
  have hl' : y'.data.length = o.y.data.length := h3.1.trans hl
  exact ⟨y', h1, h2, hl', ho.H, ho.z, ho.R, (show m * 1 ≤ o.y.data.length from ho.y).trans_eq hl'.symm, ho.S, ho.K,
    ho.tempSInv, ho.tempHP, ho.tempPHt, ho.tempKHP⟩

theorem xstep_safe (bld : Build) {w : XWorld n T σ} (hw : w.Valid) {op : XOp n T σ} (hop : op.WellFormed w)
    (hk : op.KeepsLength) :
    Safe (XPanic [op]) (w.step bld op) (fun w' => w'.Valid ∧ w.asRegular.SameShape w'.asRegular) := by
  have hv := hw.kf
  cases op with
  | predict g =>
    cases hg : g w.env w.kf.x w.kf.predictedX with
    | error e =>
      refine Or.inl ⟨e, ?_, Or.inr ⟨_, List.mem_singleton_self _, _, _, _, hg⟩⟩
      simp only [XWorld.step, ExtendedKalman.predictNonlinear, ExtendedKalman.predictXNonlinear, hg, res_bind_error]
    | ok r =>
      obtain ⟨env, px⟩ := r
      have hl := hk _ _ _ _ _ hg
      have hpx : px.Valid := (show n * 1 ≤ w.kf.predictedX.data.length from hv.predictedX).trans_eq hl.symm
      obtain ⟨f', h1, _, _, h4, h5, h6, h7, h8, h9⟩ := xpredict_run hw.states hv hg hl hpx.repsV hv.A.reps hv.P.reps hv.Q.reps
      simp only [XWorld.step, h1, res_bind_ok]
      exact Safe.pure (xpredict_frame hw h5 h6 h7 h8 (by rw [h4]; exact hl) h9)
  | predictTuned lambda g =>
    cases hg : g w.env w.kf.x w.kf.predictedX with
    | error e =>
      refine Or.inl ⟨e, ?_, Or.inr ⟨_, List.mem_singleton_self _, _, _, _, hg⟩⟩
      simp only [XWorld.step, ExtendedKalman.predictTunedNonlinear, ExtendedKalman.predictXNonlinear, hg, res_bind_error]
    | ok r =>
      obtain ⟨env, px⟩ := r
      have hl := hk _ _ _ _ _ hg
      have hpx : px.Valid := (show n * 1 ≤ w.kf.predictedX.data.length from hv.predictedX).trans_eq hl.symm
      cases hr : MDT.recip (lambda * lambda) with
      | error e =>
        refine Or.inl ⟨e, ?_, Or.inl ⟨_, Or.inl hr⟩⟩
        simp only [XWorld.step, xpredictTuned_panic hw.states hv lambda hr hg hl, res_bind_error]
      | ok φ =>
        obtain ⟨f', h1, _, _, h4, h5, h6, h7, h8, h9⟩ :=
          xpredictTuned_run hw.states hv lambda hr hg hl hpx.repsV hv.A.reps hv.P.reps hv.Q.reps
        simp only [XWorld.step, h1, res_bind_ok]
        exact Safe.pure (xpredict_frame hw h5 h6 h7 h8 (by rw [h4]; exact hl) h9)
  | correct i h =>
    have hi : w.obs[i]? = some w.obs[i] := List.getElem?_eq_getElem hop
    revert hi
    generalize w.obs[i] = oo
    intro hi
    obtain ⟨m, o⟩ := oo
    obtain ⟨hm, ho⟩ := xvalid_mem hw hi
    have ho : o.asRegular.Valid := ho
    simp only [XWorld.step, hi]
    cases hg : h m w.env w.kf.x o.y with
    | error e =>
      refine Or.inl ⟨e, ?_, Or.inr ⟨_, List.mem_singleton_self _, _, _, _, _, hg⟩⟩
      simp only [ExtendedKalman.correctNonlinear, ExtendedObservation.correctNonlinear, hg, res_bind_error]
    | ok r =>
      obtain ⟨env, y⟩ := r
      have hl := hk _ _ _ _ _ _ hg
      have hy : y.Valid := (show m * 1 ≤ o.y.data.length from ho.y).trans_eq hl.symm
      obtain ⟨y', h1, _, h3, h4⟩ := y_after ho hl ho.z.repsV hy.repsV
      rw [xcorrect_run bld hg h1]
      simp only [bind_assoc, res_bind_ok]
      refine ((update_safe_frame bld hm (o := ({ o with y := y' } : ExtendedObservation n m T).asRegular) h4 hv.x hv.P).weaken
        (fun e he => Or.inl he)).bind ?_
      rintro ⟨o', x', P'⟩ ⟨k1, k2, k3⟩
      refine Safe.pure (xcorrect_frame hw hi ?_ k2 k3)
      exact frame_of_y (o := o.asRegular) h3 ho k1
  | assign a =>
    simp only [XWorld.step]
    rcases step_safe bld hw (op := a.toOp) hop with ⟨e, h1, h2⟩ | ⟨w', h1, h2⟩
    · exact Or.inl ⟨e, xassign_error h1, Or.inl h2⟩
    · obtain ⟨v, h3, rfl⟩ := xassign_ok h1
      exact Or.inr ⟨v, h3, h2⟩

theorem XOp.WellFormed.congr {w w' : XWorld n T σ} (h : w.asRegular.SameShape w'.asRegular) {op : XOp n T σ}
    (hop : op.WellFormed w) : op.WellFormed w' := by
  cases op with
  | predict => trivial
  | predictTuned => trivial
  | correct i =>
    have := congrArg List.length h.obs
    simp only [XWorld.asRegular, List.length_map] at this
    simp only [WellFormed] at hop ⊢; omega
  | assign a => exact Op.WellFormed.congr h hop

theorem xrun_safe (bld : Build) {w : XWorld n T σ} (hw : w.Valid) {ops : List (XOp n T σ)}
    (hops : ∀ op ∈ ops, op.WellFormed w) (hk : ∀ op ∈ ops, op.KeepsLength) :
    Safe (XPanic ops) (w.run bld ops) (fun w' => w'.Valid ∧ w.asRegular.SameShape w'.asRegular) := by
  induction ops generalizing w with
  | nil => exact Safe.ok ⟨hw, World.SameShape.refl _⟩
  | cons op ops ih =>
    unfold XWorld.run
    refine ((xstep_safe bld hw (hops op (by simp)) (hk op (by simp))).weaken ?_).bind ?_
    · rintro e (h | ⟨op', h1, h2⟩)
      · exact Or.inl h
      · exact Or.inr ⟨op', by simp at h1; simp [h1], h2⟩
    rintro w' ⟨h1, h2⟩
    refine ((ih h1 (fun op' h => (hops op' (by simp [h])).congr h2) (fun op' h => hk op' (by simp [h]))).weaken ?_).mono
      fun w'' h => ⟨h.1, h2.trans h.2⟩
    rintro e (h | ⟨op', h1, h2⟩)
    · exact Or.inl h
    · exact Or.inr ⟨op', by simp [h1], h2⟩

end Any
end Minikalman
