import Verif.Spec.ExtendedShared
import Verif.Proofs.Aliasing
import Verif.Proofs.ExtendedHistory

/-!
# Shared temporaries of extended filters
-/

set_option linter.unusedSectionVars false

namespace Minikalman

open Matrix

variable {T σ : Type} {n m : Nat} [Zero T] [One T] [Add T] [Sub T] [Mul T] [Neg T] [MDT T]

theorem xpredictX_error {f : ExtendedKalman n T} {g : σ → Mat n 1 T → Mat n 1 T → Res (σ × Mat n 1 T)} {st : σ} {e : Panic}
    (h : g st f.x f.predictedX = .error e) : f.predictNonlinear g st = .error e := by
  simp only [ExtendedKalman.predictNonlinear, ExtendedKalman.predictXNonlinear, h, res_bind_error]

theorem xpredictTunedX_error {f : ExtendedKalman n T} {g : σ → Mat n 1 T → Mat n 1 T → Res (σ × Mat n 1 T)} {st : σ} {e : Panic}
    (lambda : T) (h : g st f.x f.predictedX = .error e) : f.predictTunedNonlinear lambda g st = .error e := by
  simp only [ExtendedKalman.predictTunedNonlinear, ExtendedKalman.predictXNonlinear, h, res_bind_error]

theorem xassign_env {w w' : XWorld n T σ} {a : Assign T} (h : w.assign a = .ok w') : w'.env = w.env := by
  have hobs : ∀ i (g : (m : Nat) → ExtendedObservation n m T → Res (ExtendedObservation n m T)), w.withObs i g = .ok w' →
      w'.env = w.env := by
    intro i g h
    unfold XWorld.withObs at h
    split at h
    · cases h
    · obtain ⟨_, _, h⟩ := bind_ok h
      cases h; rfl
  cases a with
  | x v => obtain ⟨_, _, h⟩ := bind_ok h; cases h; rfl
  | A v => obtain ⟨_, _, h⟩ := bind_ok h; cases h; rfl
  | P v => obtain ⟨_, _, h⟩ := bind_ok h; cases h; rfl
  | Q v => obtain ⟨_, _, h⟩ := bind_ok h; cases h; rfl
  | z i v => exact hobs i _ h
  | H i v => exact hobs i _ h
  | R i v => exact hobs i _ h

theorem xstep_inputs (bld : Build) {w w' : XWorld n T σ} (hw : w.Valid) (hw' : w'.Valid) (h : w.InputsEq w') {op : XOp n T σ}
    (hop : op.WellFormed w) (hk : op.KeepsLength) (hc : op.Overwrites) :
    Rel2 (w.step bld op) (w'.step bld op) (fun a b => a.InputsEq b) := by
  have hv := hw.kf
  have hv' := hw'.kf
  obtain ⟨hb, he⟩ := h
  have hx : w.kf.x = w'.kf.x := hb.x
  have hA : w.kf.A = w'.kf.A := hb.A
  have hP : w.kf.P = w'.kf.P := hb.P
  have hQ : w.kf.Q = w'.kf.Q := hb.Q
  cases op with
  | predict g =>
    rcases hc w.env w.kf.x w.kf.predictedX w'.kf.predictedX hv.predictedX hv'.predictedX with ⟨e, h1, h2⟩ | ⟨st', r, r', h1, h2, ha⟩
    · rw [he, hx] at h2
      simp only [XWorld.step, xpredictX_error h1, xpredictX_error h2, res_bind_error]
      exact Or.inl ⟨e, rfl, rfl⟩
    · rw [he, hx] at h2
      have hl := hk _ _ _ _ _ h1
      have hl' := hk _ _ _ _ _ h2
      have hr : r.Valid := (show n * 1 ≤ w.kf.predictedX.data.length from hv.predictedX).trans_eq hl.symm
      obtain ⟨f', k1, k2, k3, k4, k5, k6, k7, k8, k9⟩ := xpredict_run hw.states hv h1 hl hr.repsV hv.A.reps hv.P.reps hv.Q.reps
      obtain ⟨g', l1, l2, l3, l4, l5, l6, l7, l8, l9⟩ := xpredict_run hw'.states hv' h2 hl' (ha.repsV hr.repsV)
        (reps_eq hA hv.A.reps) (reps_eq hP hv.P.reps) (reps_eq hQ hv.Q.reps)
      apply rel2_of_ok
      · simp only [XWorld.step, k1, res_bind_ok]; rfl
      · simp only [XWorld.step, l1, res_bind_ok]; rfl
      · exact ⟨⟨Mat.ext_of_repsV k2 l2 k7 (hx ▸ l7), (k5.trans hA).trans l5.symm, Mat.ext_of_reps k3 l3 k8 (hP ▸ l8),
          (k6.trans hQ).trans l6.symm, hb.ctl, hb.obs⟩, rfl⟩
  | predictTuned lambda g =>
    rcases hc w.env w.kf.x w.kf.predictedX w'.kf.predictedX hv.predictedX hv'.predictedX with ⟨e, h1, h2⟩ | ⟨st', r, r', h1, h2, ha⟩
    · rw [he, hx] at h2
      simp only [XWorld.step, xpredictTunedX_error lambda h1, xpredictTunedX_error lambda h2, res_bind_error]
      exact Or.inl ⟨e, rfl, rfl⟩
    · rw [he, hx] at h2
      have hl := hk _ _ _ _ _ h1
      have hl' := hk _ _ _ _ _ h2
      have hr : r.Valid := (show n * 1 ≤ w.kf.predictedX.data.length from hv.predictedX).trans_eq hl.symm
      cases hφ : MDT.recip (lambda * lambda) with
      | error e =>
        simp only [XWorld.step, xpredictTuned_panic hw.states hv lambda hφ h1 hl, xpredictTuned_panic hw'.states hv' lambda hφ h2 hl',
          res_bind_error]
        exact Or.inl ⟨e, rfl, rfl⟩
      | ok φ =>
        obtain ⟨f', k1, k2, k3, k4, k5, k6, k7, k8, k9⟩ :=
          xpredictTuned_run hw.states hv lambda hφ h1 hl hr.repsV hv.A.reps hv.P.reps hv.Q.reps
        obtain ⟨g', l1, l2, l3, l4, l5, l6, l7, l8, l9⟩ := xpredictTuned_run hw'.states hv' lambda hφ h2 hl' (ha.repsV hr.repsV)
          (reps_eq hA hv.A.reps) (reps_eq hP hv.P.reps) (reps_eq hQ hv.Q.reps)
        apply rel2_of_ok
        · simp only [XWorld.step, k1, res_bind_ok]; rfl
        · simp only [XWorld.step, l1, res_bind_ok]; rfl
        · exact ⟨⟨Mat.ext_of_repsV k2 l2 k7 (hx ▸ l7), (k5.trans hA).trans l5.symm, Mat.ext_of_reps k3 l3 k8 (hP ▸ l8),
            (k6.trans hQ).trans l6.symm, hb.ctl, hb.obs⟩, rfl⟩
  | correct i h =>
    have hi : w.obs[i]? = some w.obs[i] := List.getElem?_eq_getElem hop
    revert hi
    generalize w.obs[i] = oo
    intro hi
    obtain ⟨m, o⟩ := oo
    obtain ⟨hm, ho⟩ := xvalid_mem hw hi
    have ho : o.asRegular.Valid := ho
    have hir : w.asRegular.obs[i]? = some ⟨m, o.asRegular⟩ := by simp [XWorld.asRegular, hi]
    obtain ⟨pp, hp, hop2⟩ := forall₂_get hb.obs hir
    have hpx : ∃ p : ExtendedObservation n m T, w'.obs[i]? = some ⟨m, p⟩ ∧ o.H = p.H ∧ o.z = p.z ∧ o.R = p.R := by
      cases hop2 with | @mk m' o' p' e1 e2 e3 =>
      simp only [XWorld.asRegular, List.getElem?_map, Option.map_eq_some_iff] at hp
      obtain ⟨⟨m2, p2⟩, q1, q2⟩ := hp
      cases q2
      exact ⟨p2, q1, e1, e2, e3⟩
    obtain ⟨p, hpi, eH, ez, eR⟩ := hpx
    obtain ⟨_, hpv⟩ := xvalid_mem hw' hpi
    have hpv : p.asRegular.Valid := hpv
    simp only [XWorld.step, hi, hpi]
    rcases hc m w.env w.kf.x o.y p.y ho.y hpv.y with ⟨e, h1, h2⟩ | ⟨st', y, z, h1, h2, ha⟩
    · rw [he, hx] at h2
      simp only [ExtendedKalman.correctNonlinear, ExtendedObservation.correctNonlinear, h1, h2, res_bind_error]
      exact Or.inl ⟨e, rfl, rfl⟩
    · rw [he, hx] at h2
      have hl := hk _ _ _ _ _ _ h1
      have hl' := hk _ _ _ _ _ _ h2
      have hy : y.Valid := (show m * 1 ≤ o.y.data.length from ho.y).trans_eq hl.symm
      obtain ⟨y', a1, a2, a3, a4⟩ := y_after ho hl ho.z.repsV hy.repsV
      obtain ⟨z', b1, b2, b3, b4⟩ := y_after hpv hl' (repsV_eq ez ho.z.repsV) (ha.repsV hy.repsV)
      rw [xcorrect_run bld h1 a1, xcorrect_run bld h2 b1]
      simp only [bind_assoc, res_bind_ok]
      have key := update_rel bld (o := ({ o with y := y' } : ExtendedObservation n m T).asRegular)
        (o' := ({ p with y := z' } : ExtendedObservation n m T).asRegular) (x := w.kf.x) (x' := w'.kf.x) (P := w.kf.P) (P' := w'.kf.P)
        hm a4 b4 hv.P (by show o.H.Agree p.H; rw [eH]; exact .refl _) (by show o.R.Agree p.R; rw [eR]; exact .refl _)
        (by rw [hP]; exact .refl _) hv.x.repsV a2 (repsV_eq hx hv.x.repsV) b2
      refine key.bind ?_
      rintro ⟨o', x', P'⟩ ⟨p', x'', P''⟩ ⟨c1, c2, _, _, c3, c4, c5, c6, c7, _, _, _, _, _, K, _, _, c8, c9⟩
      have hPv : P'.Valid := c5.valid hv.P
      refine rel2_of_ok rfl rfl ?_
      refine ⟨⟨Mat.ext_of_repsV c8 c9 c3 (by have := c4; rwa [← hx] at this), hA,
        Mat.ext_of_reps hPv.reps (c7.reps hPv.reps) c5 (by have := c6; rwa [← hP] at this), hQ, hb.ctl, ?_⟩, rfl⟩
      show List.Forall₂ ObsInputsEq (List.map _ _) (List.map _ _)
      rw [xasRegular_set, xasRegular_set]
      exact forall₂_set hb.obs i (.mk ((c1.H.trans eH).trans c2.H.symm) ((c1.z.trans ez).trans c2.z.symm)
        ((c1.R.trans eR).trans c2.R.symm))
  | assign a =>
    simp only [XWorld.step]
    rcases step_inputs bld hw hw' hb (op := a.toOp) hop with ⟨e, h1, h2⟩ | ⟨v, v', h1, h2, h3⟩
    · exact Or.inl ⟨e, xassign_error h1, xassign_error h2⟩
    · obtain ⟨u, h4, rfl⟩ := xassign_ok h1
      obtain ⟨u', h5, rfl⟩ := xassign_ok h2
      exact Or.inr ⟨u, u', h4, h5, h3, by rw [xassign_env h4, xassign_env h5, he]⟩

theorem xrun_scribbled (bld : Build) {scribble : Nat → XWorld n T σ → XWorld n T σ} (hsc : OnlyXTemporaries scribble) (k : Nat)
    {w w' : XWorld n T σ} (hw : w.Valid) (hw' : w'.Valid) (h : w.InputsEq w') {ops : List (XOp n T σ)}
    (hops : ∀ op ∈ ops, op.WellFormed w) (hk : ∀ op ∈ ops, op.KeepsLength) (hc : ∀ op ∈ ops, op.Overwrites) :
    Rel2 (w.run bld ops) (w'.runScribbled bld scribble k ops) (fun a b => a.InputsEq b) := by
  induction ops generalizing w w' k with
  | nil => exact Rel2.ok h
  | cons op ops ih =>
    unfold XWorld.run XWorld.runScribbled
    have h2 : w.InputsEq (scribble k w') := ⟨h.buffers.trans (hsc k w').1.buffers, h.env.trans (hsc k w').1.env⟩
    have hv2 := (hsc k w').2 hw'
    have ho := hops op (by simp)
    have hl := hk op (by simp)
    rcases xstep_inputs bld hw hv2 h2 ho hl (hc op (by simp)) with ⟨e, e1, e2⟩ | ⟨a, b, e1, e2, hab⟩
    · rw [e1, e2]; exact Or.inl ⟨e, rfl, rfl⟩
    · obtain ⟨v1, s1⟩ := xstep_ok hw ho hl e1
      obtain ⟨v2, _⟩ := xstep_ok hv2 (ho.congr h2.buffers.shape) hl e2
      rw [e1, e2]
      exact ih _ v1 v2 hab (fun o ho => (hops o (by simp [ho])).congr s1) (fun o ho => hk o (by simp [ho]))
        (fun o ho => hc o (by simp [ho]))

theorem xupdateShared_eq (bld : Build) (o : ExtendedObservation n m T) (rg : TempRegions) (h : Memory T) (x : Mat n 1 T) (P : Mat n n T) :
    o.updateShared bld rg h x P = (o.asRegular.updateShared bld rg h x P).map fun r => (r.1.asExtended, r.2) := by
  unfold ExtendedObservation.updateShared RegularObservation.updateShared
  by_cases hk : rg.hp = rg.khp
  · simp only [if_pos hk, pure_bind, res_map_bind, res_pure_map]
    rfl
  · simp only [if_neg hk, res_map_bind, res_pure_map]
    rfl

theorem xcorrectShared_rel (bld : Build) {o : ExtendedObservation n m T} {rg : TempRegions} {h : Memory T} {x : Mat n 1 T}
    {P : Mat n n T} (hm : 0 < m) (ho : o.asRegular.Valid) (hx : x.Valid) (hP : P.Valid) (hc : rg.Contract) (hf : rg.Fits n m h)
    {g : σ → Mat n 1 T → Mat m 1 T → Res (σ × Mat m 1 T)} (hg : KeepsLength g) (st : σ) :
    Rel2 (o.correctNonlinear bld x P g st) (o.correctShared bld rg h x P g st) (fun a b => a.1 = b.1 ∧
      a.2.1.y = b.2.1.y ∧ a.2.1.S = b.2.1.S ∧ a.2.1.K = b.2.1.K ∧ b.2.1.H = o.H ∧ b.2.1.z = o.z ∧ b.2.1.R = o.R ∧
      a.2.2.1 = b.2.2.2.1 ∧ a.2.2.2 = b.2.2.2.2 ∧
      (∀ k, k ≠ rg.sInv → k ≠ rg.hp → k ≠ rg.pht → k ≠ rg.khp → b.2.2.1 k = h k)) := by
  unfold ExtendedObservation.correctNonlinear ExtendedObservation.correctShared
  cases hr : g st x o.y with
  | error e => exact Or.inl ⟨e, rfl, rfl⟩
  | ok r =>
    obtain ⟨st', y⟩ := r
    have hl := hg _ _ _ _ _ hr
    have hy : y.Valid := (show m * 1 ≤ o.y.data.length from ho.y).trans_eq hl.symm
    obtain ⟨y', a1, a2, a3, a4⟩ := y_after ho hl ho.z.repsV hy.repsV
    have a1 : o.z.subInplaceB y = .ok y' := a1
    simp only [res_bind_ok, a1, xupdate_eq, xupdateShared_eq, res_bind_map]
    refine (updateShared_rel bld (o := ({ o with y := y' } : ExtendedObservation n m T).asRegular) hm a4 hx hP hc hf).bind ?_
    rintro ⟨o', x', P'⟩ ⟨p', h', x'', P''⟩ ⟨h1, h2, h3, h4, h5, h6, h7, h8, h9, _⟩
    exact rel2_of_ok rfl rfl ⟨rfl, h1, h2, h3, h4, h5, h6, h7, h8, h9⟩

end Minikalman
