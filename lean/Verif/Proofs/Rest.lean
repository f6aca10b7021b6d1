import Verif.Spec.Rest
import Verif.Proofs.Schedule
import Verif.Proofs.ExtendedHistory
import Verif.Proofs.RoundingCorrect

/-!
# Filters at rest: proofs
-/

namespace Minikalman

set_option linter.unusedSectionVars false

variable {T σ : Type} {n m : Nat} [Zero T] [One T] [Add T] [Sub T] [Mul T] [Neg T] [MDT T] {Z : T → Prop}

theorem Absorbing.foldl (hZ : Absorbing Z) {k : Nat} {f : Fin k → T} (hf : ∀ i, Z (f i)) :
    ∀ {a : T}, Z a → Z (Fin.foldl k (fun acc i => acc + f i) a) := by
  induction k with
  | zero => intro a ha; rw [Fin.foldl_zero]; exact ha
  | succ k ih =>
    intro a ha
    rw [Fin.foldl_succ]
    exact ih (f := fun i => f i.succ) (fun i => hf i.succ) (hZ.add ha (hf 0))

theorem Absorbing.mulVec (hZ : Absorbing Z) {R C : Nat} (A : Matrix (Fin R) (Fin C) T) {v : Fin C → T} (hv : ∀ i, Z (v i)) (i : Fin R) :
    Z (Spec.mulVecSeq A v i) := by
  unfold Spec.mulVecSeq
  cases C with
  | zero => exact hZ.zero
  | succ C => exact hZ.foldl (fun k => hZ.right _ (hv k.succ)) (hZ.right _ (hv 0))

theorem Absorbing.vecOf (hZ : Absorbing Z) {v : List T} (hv : ∀ a ∈ v, Z a) {k : Nat} (i : Fin k) : Z (Spec.vecOf v i) := by
  unfold Spec.vecOf
  cases h : v[(i : Nat)]? with
  | none => exact hZ.zero
  | some a => exact hv a (List.mem_of_getElem? h)

/-- The data of a replay are zeros. -/
structure Estimator.Rest (Z : T → Prop) (e : Estimator n T) : Prop where
  x : ∀ i, Z (e.x i)
  u : ∀ v ∈ e.u, ∀ a ∈ v, Z a
  z : ∀ v ∈ e.z, ∀ a ∈ v, Z a

theorem getD_rest {s : List (List T)} (h : ∀ v ∈ s, ∀ a ∈ v, Z a) (i : Nat) : ∀ a ∈ s[i]?.getD [], Z a := by
  cases hs : s[i]? with
  | none => intro a ha; simp at ha
  | some v => exact h v (List.mem_of_getElem? hs)

theorem set_rest {s : List (List T)} (h : ∀ v ∈ s, ∀ a ∈ v, Z a) (i : Nat) {v : List T} (hv : ∀ a ∈ v, Z a) :
    ∀ v' ∈ s.set i v, ∀ a ∈ v', Z a := fun v' h' => by
  rcases List.mem_or_eq_of_mem_set h' with h' | rfl
  exacts [h v' h', hv]

theorem Estimator.Rest.step (hZ : Absorbing Z) {e : Estimator n T} (h : e.Rest Z) (r : Recorded T) {op : Op T} (ho : op.KeepsRest Z) :
    (e.step (r, op)).Rest Z := by
  cases op with
  | setX v => cases r <;> exact ⟨fun i => hZ.vecOf ho i, h.u, h.z⟩
  | setU i v => cases r <;> exact ⟨h.x, set_rest h.u i ho, h.z⟩
  | setZ i v => cases r <;> exact ⟨h.x, h.u, set_rest h.z i ho⟩
  | predict =>
    cases r with
    | predict A => exact ⟨fun i => hZ.mulVec _ h.x i, h.u, h.z⟩
    | _ => exact h
  | predictTuned l =>
    cases r with
    | predict A => exact ⟨fun i => hZ.mulVec _ h.x i, h.u, h.z⟩
    | _ => exact h
  | control i =>
    cases r with
    | control l B =>
      unfold Estimator.step
      dsimp only
      split
      · exact h
      · exact ⟨fun j => hZ.add (h.x j) (hZ.mulVec _ (fun k => hZ.vecOf (getD_rest h.u i) k) j), h.u, h.z⟩
    | _ => exact h
  | correct i =>
    cases r with
    | correct m H K =>
      exact ⟨fun j => hZ.add (h.x j) (hZ.mulVec _ (fun k => hZ.sub (hZ.vecOf (getD_rest h.z i) k) (hZ.mulVec _ h.x k)) j), h.u, h.z⟩
    | _ => exact h
  | _ => cases r <;> exact h

theorem Estimator.Rest.replay (hZ : Absorbing Z) {ops : List (Op T)} (ho : ∀ op ∈ ops, op.KeepsRest Z) :
    ∀ {e : Estimator n T} (_ : e.Rest Z) (gains : List (Recorded T)), (e.replay gains ops).Rest Z := by
  induction ops with
  | nil => intro e h gains; cases gains <;> exact h
  | cons op ops ih =>
    intro e h gains
    cases gains with
    | nil => exact h
    | cons r gains =>
      exact ih (fun o h => ho o (List.mem_cons_of_mem _ h)) (h.step hZ r (ho op (List.mem_cons_self ..))) gains

theorem run_rest (hZ : Absorbing Z) (bld : Build) {w w' : World n T} (hw : w.Valid) (hr : w.AtRest Z) {ops : List (Op T)}
    (hops : ∀ op ∈ ops, op.WellFormed w) (ho : ∀ op ∈ ops, op.KeepsRest Z) (h : w.run bld ops = .ok w') : w'.AtRest Z := by
  obtain ⟨gains, hg⟩ := (record_run bld w ops).2 ⟨w', h⟩
  have hs : List.Forall₂ Op.SameUpToData ops ops := by
    clear h hops ho hg
    induction ops with
    | nil => exact .nil
    | cons op ops ih => exact .cons (.same op) ih
  obtain ⟨v', h1, h2⟩ := run_replay bld hw hw (⟨.refl _, .refl _, .refl _, List.forall₂_same.2 fun _ _ => .mk (.refl _) (.refl _),
    List.forall₂_same.2 fun _ _ => .mk (.refl _) (.refl _)⟩ : w.CovEq w) hs hops hops hg hw.estimated
  rw [h] at h1
  cases h1
  have he : w.estimator.Rest Z := by
    refine ⟨?_, ?_, ?_⟩
    · obtain ⟨v, hv, hz⟩ := hr.x
      rw [(hw.estimated.x).unique hv]
      exact hz
    · intro v hv
      obtain ⟨c, hc, rfl⟩ := List.mem_map.1 hv
      exact hr.u c hc
    · intro v hv
      obtain ⟨c, hc, rfl⟩ := List.mem_map.1 hv
      exact hr.z c hc
  have := Estimator.Rest.replay hZ ho he gains
  refine ⟨⟨_, h2.x, this.x⟩, fun c hc => ?_, fun o ho => ?_⟩
  · exact this.u _ (by rw [h2.u]; exact List.mem_map_of_mem hc)
  · exact this.z _ (by rw [h2.z]; exact List.mem_map_of_mem ho)

theorem xpredict_rest {f f' : ExtendedKalman n T} {st st' : σ} {g : σ → Mat n 1 T → Mat n 1 T → Res (σ × Mat n 1 T)} (hn : 0 < n)
    (hf : f.asRegular.Valid) (hl : KeepsLength g) (hg : ∀ st x px st' px', px.Valid → g st x px = .ok (st', px') → x.RestV Z → px'.RestV Z)
    (hx : f.x.RestV Z) (h : f.predictNonlinear g st = .ok (st', f')) : f'.x.RestV Z := by
  obtain ⟨px, x', h1, _, _⟩ := xpredict_ok h
  obtain ⟨v, hv, hz⟩ := hg _ _ _ _ _ hf.predictedX h1 hx
  obtain ⟨f1, k1, k2, _⟩ := xpredict_run hn hf h1 (hl _ _ _ _ _ h1) hv hf.A.reps hf.P.reps hf.Q.reps
  rw [h] at k1
  cases k1
  exact ⟨v, k2, hz⟩

theorem xpredictTuned_rest {f f' : ExtendedKalman n T} {st st' : σ} {lambda : T} {g : σ → Mat n 1 T → Mat n 1 T → Res (σ × Mat n 1 T)}
    (hn : 0 < n) (hf : f.asRegular.Valid) (hl : KeepsLength g)
    (hg : ∀ st x px st' px', px.Valid → g st x px = .ok (st', px') → x.RestV Z → px'.RestV Z) (hx : f.x.RestV Z)
    (h : f.predictTunedNonlinear lambda g st = .ok (st', f')) : f'.x.RestV Z := by
  have h0 := h
  unfold ExtendedKalman.predictTunedNonlinear ExtendedKalman.predictXNonlinear at h
  obtain ⟨⟨s1, f1⟩, h1, h⟩ := bind_ok h
  obtain ⟨⟨s2, px⟩, h2, h1⟩ := bind_ok h1
  obtain ⟨x', h3, h1⟩ := bind_ok h1
  cases h1
  obtain ⟨f2, h4, h⟩ := bind_ok h
  cases h
  unfold ExtendedKalman.predictPTuned at h4
  obtain ⟨φ, h5, _⟩ := bind_ok h4
  obtain ⟨v, hv, hz⟩ := hg _ _ _ _ _ hf.predictedX h2 hx
  obtain ⟨f1, k1, k2, _⟩ := xpredictTuned_run hn hf lambda h5 h2 (hl _ _ _ _ _ h2) hv hf.A.reps hf.P.reps hf.Q.reps
  rw [h0] at k1
  cases k1
  exact ⟨v, k2, hz⟩

theorem xcorrect_rest (hZ : Absorbing Z) (bld : Build) {f f' : ExtendedKalman n T} {o o' : ExtendedObservation n m T} {st st' : σ}
    {h : σ → Mat n 1 T → Mat m 1 T → Res (σ × Mat m 1 T)} (hm : 0 < m) (hf : f.asRegular.Valid) (ho : o.asRegular.Valid)
    (hl : KeepsLength h) (hh : ∀ st x y st' y', y.Valid → h st x y = .ok (st', y') → x.RestV Z → y'.RestV Z) (hx : f.x.RestV Z)
    (hz : o.z.Zeros Z) (hc : f.correctNonlinear bld o h st = .ok (st', f', o')) : f'.x.RestV Z ∧ o'.z = o.z := by
  obtain ⟨y, y', x', P', h1, h2, h3, h4⟩ := xcorrect_ok bld hc
  obtain ⟨Y, hY, hY0⟩ := hh _ _ _ _ _ ho.y h1 hx
  have hZv : o.z.RepsV (Spec.vecOf o.z.data) := repsV_vecOf ho.z
  obtain ⟨y2, l1, l2, l3, l4⟩ := y_after ho (hl _ _ _ _ _ h1) hZv hY
  have l1' : o.z.subInplaceB y = .ok y2 := l1
  rw [h2] at l1'
  cases l1'
  obtain ⟨X, hX, hX0⟩ := hx
  obtain ⟨_, s, b, W, _, _, _, _, _, _, r, _⟩ := update_any bld
    (o := ({ o with y := y' } : ExtendedObservation n m T).asRegular) hm l4 ho.H.reps ho.R.reps hf.P.reps hX l2 _ h3
  refine ⟨⟨_, by rw [h4]; exact r, fun i => hZ.add (hX0 i) (hZ.mulVec _ (fun k => hZ.sub (hZ.vecOf hz k) (hY0 k)) i)⟩, ?_⟩
  rcases update_rel bld (o := ({ o with y := y' } : ExtendedObservation n m T).asRegular)
    (o' := ({ o with y := y' } : ExtendedObservation n m T).asRegular) hm l4 l4 hf.P (Mat.Agree.refl _) (Mat.Agree.refl _)
    (Mat.Agree.refl _) hX l2 hX l2 with ⟨e, he, _⟩ | ⟨a, b, r1, _, r2, _, r3, _⟩
  · have he' : ({ o with y := y' } : ExtendedObservation n m T).asRegular.updateWithInnovation bld f.x f.P = .error e := he
    rw [h3] at he'; cases he'
  have r1' : ({ o with y := y' } : ExtendedObservation n m T).asRegular.updateWithInnovation bld f.x f.P = .ok a := r1
  rw [h3] at r1'
  cases r1'
  exact r2.z

theorem xstep_rest (hZ : Absorbing Z) (bld : Build) {w w' : XWorld n T σ} (hw : w.Valid) (hr : w.AtRest Z) {op : XOp n T σ}
    (hop : op.WellFormed w) (hl : op.KeepsLength) (ho : op.KeepsRest Z) (h : w.step bld op = .ok w') : w'.AtRest Z := by
  have hk := hw.kf
  cases op with
  | predict g =>
    obtain ⟨⟨e, f⟩, h1, h⟩ := bind_ok h
    cases h
    exact ⟨xpredict_rest hw.states hk hl ho hr.x h1, hr.z⟩
  | predictTuned lambda g =>
    obtain ⟨⟨e, f⟩, h1, h⟩ := bind_ok h
    cases h
    exact ⟨xpredictTuned_rest hw.states hk hl ho hr.x h1, hr.z⟩
  | correct i g =>
    unfold XWorld.step at h
    dsimp only at h
    cases hi : w.obs[i]? with
    | none => rw [hi] at h; cases h
    | some o =>
      obtain ⟨m, o⟩ := o
      rw [hi] at h
      obtain ⟨⟨e, f, o'⟩, h1, h⟩ := bind_ok h
      cases h
      obtain ⟨hm, hv⟩ := xvalid_mem hw hi
      obtain ⟨k1, k2⟩ := xcorrect_rest hZ bld hm hk hv (hl m) (ho m) hr.x (hr.z _ (List.mem_of_getElem? hi)) h1
      refine ⟨k1, fun p hp => ?_⟩
      rcases List.mem_or_eq_of_mem_set hp with hp | rfl
      · exact hr.z p hp
      · show o'.z.Zeros Z
        rw [k2]
        exact hr.z _ (List.mem_of_getElem? hi)
  | assign a =>
    have h1 : w.asRegular.step bld a.toOp = .ok w'.asRegular := by
      rw [← xassign_eq]
      show (w.assign a).map _ = _
      rw [show w.assign a = .ok w' from h]; rfl
    have h2 : w.asRegular.run bld [a.toOp] = .ok w'.asRegular := by
      unfold World.run
      rw [h1]; rfl
    have h3 : w.asRegular.AtRest Z := ⟨hr.x, fun c hc => (List.not_mem_nil hc).elim, fun o ho => by
      obtain ⟨p, hp, rfl⟩ := List.mem_map.1 ho
      exact hr.z p hp⟩
    have h4 := run_rest hZ bld hw h3 (fun o ho => by rw [List.mem_singleton.1 ho]; exact hop)
      (fun p hp => by rw [List.mem_singleton.1 hp]; exact ho) h2
    exact ⟨h4.x, fun o ho => h4.z ⟨o.1, o.2.asRegular⟩ (List.mem_map.2 ⟨o, ho, rfl⟩)⟩

theorem xrun_rest (hZ : Absorbing Z) (bld : Build) {ops : List (XOp n T σ)} : ∀ {w w' : XWorld n T σ} (_ : w.Valid) (_ : w.AtRest Z)
    (_ : ∀ op ∈ ops, op.WellFormed w) (_ : ∀ op ∈ ops, op.KeepsLength) (_ : ∀ op ∈ ops, op.KeepsRest Z) (_ : w.run bld ops = .ok w'),
    w'.AtRest Z := by
  induction ops with
  | nil => intro w w' _ hr _ _ _ h; cases h; exact hr
  | cons op ops ih =>
    intro w w' hw hr hops hl ho h
    obtain ⟨w1, h1, h⟩ := bind_ok h
    have hs := xstep_safe bld hw (hops op (List.mem_cons_self ..)) (hl op (List.mem_cons_self ..))
    rcases hs with ⟨e, he, _⟩ | ⟨v, hv, hv1, hv2⟩
    · rw [h1] at he; cases he
    · rw [h1] at hv
      cases hv
      exact ih hv1 (xstep_rest hZ bld hw hr (hops op (List.mem_cons_self ..)) (hl op (List.mem_cons_self ..))
        (ho op (List.mem_cons_self ..)) h1) (fun o h => (hops o (List.mem_cons_of_mem _ h)).congr hv2)
        (fun o h => hl o (List.mem_cons_of_mem _ h)) (fun o h => ho o (List.mem_cons_of_mem _ h)) h

end Minikalman
