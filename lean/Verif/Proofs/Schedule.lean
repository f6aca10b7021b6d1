import Verif.Spec.Schedule
import Verif.Proofs.HistoryRel
import Verif.Proofs.GravityFixed

/-! # Recorded gains: helper lemmas -/

set_option linter.unusedSectionVars false

namespace Minikalman

open Matrix

variable {T : Type} {R C n l m : Nat}

/-- The estimator holds the state, the inputs and the measurements of the world. -/
structure World.Estimated (w : World n T) (e : Estimator n T) : Prop where
  x : w.kf.x.RepsV e.x
  u : e.u = w.ctl.map fun c => c.2.u.data
  z : e.z = w.obs.map fun o => o.2.z.data

section Any
variable [Zero T] [One T] [Add T] [Sub T] [Mul T] [Neg T] [MDT T]

theorem World.Valid.estimated {w : World n T} (h : w.Valid) : w.Estimated w.estimator :=
  ⟨repsV_vecOf h.kf.x, rfl, rfl⟩

/-- Slices of recorded matrices. -/
theorem matOf_eq {M : Mat R C T} {A} (h : M.Reps A) : (Spec.matOf M.data : Matrix (Fin R) (Fin C) T) = A :=
  (reps_matOf h.valid).unique h

theorem map_set_unchanged {α β : Type} {f : α → β} {s : List α} {i : Nat} {a b : α} (h : s[i]? = some a) (hf : f b = f a) :
    (s.set i b).map f = s.map f := by
  rw [List.map_set, hf]
  apply List.ext_getElem?
  intro j
  by_cases hj : i = j
  · subst hj
    have : i < s.length := by
      by_contra hlt
      rw [List.getElem?_eq_none (by omega)] at h; cases h
    simp [this]
    rw [List.getElem?_eq_getElem this] at h
    exact (congrArg f (Option.some.inj h)).symm
  · simp [hj]

theorem step_replay (bld : Build) {w w' v : World n T} (hw : w.Valid) (hw' : w'.Valid) (h : w.CovEq w') {op op' : Op T}
    (hs : op.SameUpToData op') (hop : op.WellFormed w) (hop' : op'.WellFormed w') (hv : w.step bld op = .ok v)
    {e : Estimator n T} (he : w'.Estimated e) :
    ∃ v', w'.step bld op' = .ok v' ∧ v.CovEq v' ∧ v'.Estimated (e.step (w.recorded v op, op')) := by
  obtain ⟨v', hv', hc⟩ : ∃ v', w'.step bld op' = .ok v' ∧ v.CovEq v' := by
    rcases step_cov bld hw hw' h hs hop hop' with ⟨e, e1, _⟩ | ⟨a, b, e1, e2, hab⟩
    · rw [e1] at hv; cases hv
    · rw [e1] at hv; cases hv; exact ⟨b, e2, hab⟩
  refine ⟨v', hv', hc, ?_⟩
  have hk := hw.kf
  have hk' := hw'.kf
  cases hs with
  | setX a a' =>
    simp only [World.step, copyFromSlice_ok hop', res_bind_ok] at hv'
    cases hv'
    refine ⟨repsV_vecOf (v := a') (by rw [hop']; exact hk'.x), he.u, he.z⟩
  | setU i a a' =>
    obtain ⟨d, hi', hl'⟩ := map_len_some hop'
    simp only [World.step, World.withCtl, hi', copyFromSlice_ok hl', res_bind_ok, pure_bind] at hv'
    cases hv'
    refine ⟨he.x, ?_, he.z⟩
    show e.u.set i a' = _
    rw [he.u, List.map_set]
  | setZ i a a' =>
    obtain ⟨d, hi', hl'⟩ := map_len_some hop'
    simp only [World.step, World.withObs, hi', copyFromSlice_ok hl', res_bind_ok, pure_bind] at hv'
    cases hv'
    refine ⟨he.x, he.u, ?_⟩
    show e.z.set i a' = _
    rw [he.z, List.map_set]
  | same =>
    cases op with
    | predict =>
      obtain ⟨g, k1, k2, _⟩ := predict_any hw.states hk' he.x (h.A.reps hk.A.reps) hk'.P.reps hk'.Q.reps
      simp only [World.step, k1, res_bind_ok] at hv'
      cases hv'
      refine ⟨?_, he.u, he.z⟩
      show g.x.RepsV (Spec.mulVecSeq (Spec.matOf w.kf.A.data) e.x)
      rw [matOf_eq hk.A.reps]; exact k2
    | predictTuned lambda =>
      cases hr : MDT.recip (lambda * lambda) with
      | error e =>
        simp only [World.step, predictTuned_error hw.states hk' lambda hr] at hv'
        cases hv'
      | ok φ =>
        obtain ⟨g, k1, k2, _⟩ := predictTuned_any hw.states hk' lambda hr he.x (h.A.reps hk.A.reps) hk'.P.reps
          hk'.Q.reps
        simp only [World.step, k1, res_bind_ok] at hv'
        cases hv'
        refine ⟨?_, he.u, he.z⟩
        show g.x.RepsV (Spec.mulVecSeq (Spec.matOf w.kf.A.data) e.x)
        rw [matOf_eq hk.A.reps]; exact k2
    | control i =>
      have hi : w.ctl[i]? = some w.ctl[i] := List.getElem?_eq_getElem hop
      generalize w.ctl[i] = c at hi
      obtain ⟨d, hd, hcd⟩ := forall₂_get h.ctl hi
      have hcv := hw.ctl _ (List.mem_of_getElem? hi)
      have hdv := hw'.ctl _ (List.mem_of_getElem? hd)
      cases hcd with | @mk l c d hB hQ =>
      simp only [World.recorded, hi, Estimator.step]
      simp only [World.step, hd] at hv'
      unfold RegularKalman.control at hv'
      by_cases h0 : l = 0
      · rw [control_empty (c := d) (Or.inl h0) w'.kf.x w'.kf.P] at hv'
        cases hv'
        simp only [h0, if_true]
        refine ⟨he.x, ?_, he.z⟩
        rw [he.u]
        exact (map_set_unchanged hd rfl).symm
      · obtain ⟨d', y', Q', k1, k2, k3, k4, k5, k6⟩ :=
          control_any hw.states (Nat.pos_of_ne_zero h0) hdv (hB.reps hcv.B.reps) hdv.u.repsV hdv.Q.reps he.x hk'.P.reps
        rw [k1] at hv'
        cases hv'
        simp only [h0, if_false]
        have hu : e.u[i]?.getD [] = d.u.data := by rw [he.u]; simp [hd]
        refine ⟨?_, ?_, he.z⟩
        · show y'.RepsV _
          rw [hu, matOf_eq hcv.B.reps]
          have := (repsV_vecOf hdv.u).unique hdv.u.repsV
          rw [this]; exact k2
        · show e.u = _
          rw [he.u]
          exact (map_set_unchanged hd (congrArg Mat.data k4.u)).symm
    | correct i =>
      have hi : w.obs[i]? = some w.obs[i] := List.getElem?_eq_getElem hop
      generalize w.obs[i] = c at hi
      obtain ⟨d, hd, hcd⟩ := forall₂_get h.obs hi
      have hov := hw.obs _ (List.mem_of_getElem? hi)
      have hpv := hw'.obs _ (List.mem_of_getElem? hd)
      cases hcd with | @mk m o p hH hR =>
      simp only [World.step, hi] at hv
      simp only [World.step, hd] at hv'
      unfold RegularKalman.correct at hv hv'
      rcases correct_rel bld hw.states hov.1 hov.2 hpv.2 hk.P hH hR h.P hov.2.H.reps hk.x.repsV hov.2.z.repsV he.x
        hpv.2.z.repsV with ⟨er, e1, _⟩ | ⟨⟨o', x', P'⟩, ⟨p', y', Q'⟩, e1, e2, hab⟩
      · rw [e1] at hv; cases hv
      · obtain ⟨h1, h2, h3, h4, h5, h6, h7, h8, _, _, _, _, _, _, K, k1, k2, _, k4⟩ := hab
        rw [e1] at hv; rw [e2] at hv'
        cases hv; cases hv'
        have hlt : i < w.obs.length := hop
        have hz : e.z[i]?.getD [] = p.z.data := by rw [he.z]; simp [hd]
        simp only [World.recorded, List.getElem?_set_self hlt, Estimator.step]
        refine ⟨?_, he.u, ?_⟩
        · show y'.RepsV _
          have e1 : (Spec.matOf o'.H.data : Matrix (Fin m) (Fin n) T) = fun (i : Fin m) (j : Fin n) => o.H.cell i j := by
            have : o'.H = o.H := h1.H
            rw [this]; exact matOf_eq hov.2.H.reps
          have := (repsV_vecOf hpv.2.z).unique hpv.2.z.repsV
          rw [hz, matOf_eq k1, e1, this]; exact k4
        · show e.z = _
          rw [he.z]
          exact (map_set_unchanged hd (congrArg Mat.data h2.z)).symm
    | setX a =>
      simp only [World.step, copyFromSlice_ok hop', res_bind_ok] at hv'
      cases hv'
      refine ⟨repsV_vecOf (v := a) (by rw [hop']; exact hk'.x), he.u, he.z⟩
    | setA a =>
      simp only [World.step, copyFromSlice_ok hop', res_bind_ok] at hv'
      cases hv'
      exact ⟨he.x, he.u, he.z⟩
    | setP a =>
      simp only [World.step, copyFromSlice_ok hop', res_bind_ok] at hv'
      cases hv'
      exact ⟨he.x, he.u, he.z⟩
    | setQ a =>
      simp only [World.step, copyFromSlice_ok hop', res_bind_ok] at hv'
      cases hv'
      exact ⟨he.x, he.u, he.z⟩
    | setU i a =>
      obtain ⟨d, hi', hl'⟩ := map_len_some hop'
      simp only [World.step, World.withCtl, hi', copyFromSlice_ok hl', res_bind_ok, pure_bind] at hv'
      cases hv'
      refine ⟨he.x, ?_, he.z⟩
      show e.u.set i a = _
      rw [he.u, List.map_set]
    | setB i a =>
      obtain ⟨d, hi', hl'⟩ := map_len_some hop'
      simp only [World.step, World.withCtl, hi', copyFromSlice_ok hl', res_bind_ok, pure_bind] at hv'
      cases hv'
      refine ⟨he.x, ?_, he.z⟩
      show e.u = _
      rw [he.u]; symm; apply map_set_unchanged hi'; rfl
    | setQc i a =>
      obtain ⟨d, hi', hl'⟩ := map_len_some hop'
      simp only [World.step, World.withCtl, hi', copyFromSlice_ok hl', res_bind_ok, pure_bind] at hv'
      cases hv'
      refine ⟨he.x, ?_, he.z⟩
      show e.u = _
      rw [he.u]; symm; apply map_set_unchanged hi'; rfl
    | setZ i a =>
      obtain ⟨d, hi', hl'⟩ := map_len_some hop'
      simp only [World.step, World.withObs, hi', copyFromSlice_ok hl', res_bind_ok, pure_bind] at hv'
      cases hv'
      refine ⟨he.x, he.u, ?_⟩
      show e.z.set i a = _
      rw [he.z, List.map_set]
    | setH i a =>
      obtain ⟨d, hi', hl'⟩ := map_len_some hop'
      simp only [World.step, World.withObs, hi', copyFromSlice_ok hl', res_bind_ok, pure_bind] at hv'
      cases hv'
      refine ⟨he.x, he.u, ?_⟩
      show e.z = _
      rw [he.z]; symm; apply map_set_unchanged hi'; rfl
    | setR i a =>
      obtain ⟨d, hi', hl'⟩ := map_len_some hop'
      simp only [World.step, World.withObs, hi', copyFromSlice_ok hl', res_bind_ok, pure_bind] at hv'
      cases hv'
      refine ⟨he.x, he.u, ?_⟩
      show e.z = _
      rw [he.z]; symm; apply map_set_unchanged hi'; rfl

theorem run_replay (bld : Build) {w w' : World n T} (hw : w.Valid) (hw' : w'.Valid) (h : w.CovEq w') {ops ops' : List (Op T)}
    (hs : List.Forall₂ Op.SameUpToData ops ops') (hops : ∀ op ∈ ops, op.WellFormed w)
    (hops' : ∀ op ∈ ops', op.WellFormed w') {gains} (hg : w.record bld ops = .ok gains)
    {e : Estimator n T} (he : w'.Estimated e) :
    ∃ v', w'.run bld ops' = .ok v' ∧ v'.Estimated (e.replay gains ops') := by
  induction hs generalizing w w' e gains with
  | nil => cases hg; exact ⟨w', rfl, he⟩
  | @cons op op' ops ops' hoo _ ih =>
    unfold World.record at hg
    obtain ⟨v, hv, hg⟩ := bind_ok hg
    obtain ⟨rest, hr, hg⟩ := bind_ok hg
    cases hg
    obtain ⟨v', e1, e2, e3⟩ := step_replay bld hw hw' h hoo (hops op (by simp)) (hops' op' (by simp)) hv he
    obtain ⟨v1, s1⟩ := step_ok hw (hops op (by simp)) hv
    obtain ⟨v2, s2⟩ := step_ok hw' (hops' op' (by simp)) e1
    obtain ⟨u, u1, u2⟩ := ih v1 v2 e2 (fun o ho => (hops o (by simp [ho])).congr s1)
      (fun o ho => (hops' o (by simp [ho])).congr s2) hr e3
    refine ⟨u, ?_, u2⟩
    unfold World.run
    rw [e1]; exact u1

/-- Recording succeeds exactly if running does. -/
theorem record_run (bld : Build) (w : World n T) (ops : List (Op T)) :
    (∃ gains, w.record bld ops = .ok gains) ↔ ∃ v, w.run bld ops = .ok v := by
  induction ops generalizing w with
  | nil => exact ⟨fun _ => ⟨w, rfl⟩, fun _ => ⟨[], rfl⟩⟩
  | cons op ops ih =>
    unfold World.record World.run
    cases hw : w.step bld op with
    | error e => constructor <;> rintro ⟨_, h⟩ <;> cases h
    | ok v =>
      constructor
      · rintro ⟨g, h⟩
        rw [res_bind_ok] at h
        obtain ⟨rest, hr, _⟩ := bind_ok h
        exact (ih v).1 ⟨rest, hr⟩
      · rintro ⟨u, h⟩
        obtain ⟨rest, hr⟩ := (ih v).2 ⟨u, h⟩
        exact ⟨_, by rw [res_bind_ok, hr]; rfl⟩

end Any
end Minikalman
