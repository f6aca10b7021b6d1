import Verif.Proofs.Parts

/-! # Histories of a filter that contains a smaller one -/

set_option linter.unusedSectionVars false

namespace Minikalman

open Matrix

variable {T : Type} {n k m l : Nat}

/-- The small filter holds the part `p` of what the large one holds. -/
def World.PartOf [Zero T] (p : Fin k → Fin n) (g : Spec.Share) (ls ms : List Nat) (w : World n T) (v : World k T) : Prop :=
  ∃ s t, w.Reps s ∧ v.Reps t ∧ Spec.State.Part p g s t ∧ s.ctl.map Sigma.fst = ls ∧ s.obs.map Sigma.fst = ms

theorem map_fst_get {ι : Type} {F : ι → Type} {c : List (Sigma F)} {ls : List ι} (h : c.map Sigma.fst = ls) {i : Nat} {a : Sigma F}
    (hi : c[i]? = some a) : ls[i]? = some a.1 := by
  rw [← h, List.getElem?_map, hi]; rfl

theorem map_fst_set {ι : Type} {F : ι → Type} {c : List (Sigma F)} {ls : List ι} (h : c.map Sigma.fst = ls) {i : Nat} {a b : Sigma F}
    (hi : c[i]? = some a) (hb : b.1 = a.1) : (c.set i b).map Sigma.fst = ls := by
  rw [← h, List.map_set, hb]
  refine List.ext_getElem? fun j => ?_
  rw [List.getElem?_set]
  split
  · subst i
    split
    · rw [List.getElem?_map, hi]; rfl
    · rw [List.getElem?_eq_none (by omega)]
  · rfl

section Part
variable [Zero T]

/-- A control that belongs to both filters is replaced in both. -/
theorem Spec.State.Part.setCtl {p : Fin k → Fin n} {g : Spec.Share} {s : Spec.State n T} {t : Spec.State k T} (h : Spec.State.Part p g s t)
    {i j : Nat} (hi : g.ctl i = some j) {d0} (hj : t.ctl[j]? = some d0) {c d} (hcd : Spec.CtlPart p c d) :
    Spec.State.Part p g { s with ctl := s.ctl.set i c } { t with ctl := t.ctl.set j d } := by
  obtain ⟨hjl, _⟩ := List.getElem?_eq_some_iff.mp hj
  refine ⟨h.x, h.A, h.P, h.Q, fun i' j' c' h1 h2 => ?_, fun i' c' h1 h2 => ?_, h.obsIn, h.obsOut⟩
  · have h2 : (s.ctl.set i c)[i']? = some c' := h2
    by_cases e : i = i'
    · subst e
      obtain rfl : j = j' := by rw [hi] at h1; exact Option.some.inj h1
      rw [List.getElem?_set_self'] at h2
      obtain rfl : c = c' := by
        cases hc : s.ctl[i]? with
        | none => rw [hc] at h2; cases h2
        | some _ => rw [hc] at h2; cases h2; rfl
      exact ⟨d, List.getElem?_set_self hjl, hcd⟩
    · rw [List.getElem?_set_ne e] at h2
      obtain ⟨d', h3, h4⟩ := h.ctlIn i' j' c' h1 h2
      refine ⟨d', ?_, h4⟩
      show (t.ctl.set j d)[j']? = some d'
      rw [List.getElem?_set_ne fun e' => e (g.ctl_inj i i' j hi (by rw [h1, e']))]
      exact h3
  · have h2 : (s.ctl.set i c)[i']? = some c' := h2
    by_cases e : i = i'
    · subst e
      rw [hi] at h1; cases h1
    · rw [List.getElem?_set_ne e] at h2
      exact h.ctlOut i' c' h1 h2

theorem Spec.State.Part.setObs {p : Fin k → Fin n} {g : Spec.Share} {s : Spec.State n T} {t : Spec.State k T} (h : Spec.State.Part p g s t)
    {i j : Nat} (hi : g.obs i = some j) {d0} (hj : t.obs[j]? = some d0) {c d} (hcd : Spec.ObsPart p c d) :
    Spec.State.Part p g { s with obs := s.obs.set i c } { t with obs := t.obs.set j d } := by
  obtain ⟨hjl, _⟩ := List.getElem?_eq_some_iff.mp hj
  refine ⟨h.x, h.A, h.P, h.Q, h.ctlIn, h.ctlOut, fun i' j' c' h1 h2 => ?_, fun i' c' h1 h2 => ?_⟩
  · have h2 : (s.obs.set i c)[i']? = some c' := h2
    by_cases e : i = i'
    · subst e
      obtain rfl : j = j' := by rw [hi] at h1; exact Option.some.inj h1
      rw [List.getElem?_set_self'] at h2
      obtain rfl : c = c' := by
        cases hc : s.obs[i]? with
        | none => rw [hc] at h2; cases h2
        | some _ => rw [hc] at h2; cases h2; rfl
      exact ⟨d, List.getElem?_set_self hjl, hcd⟩
    · rw [List.getElem?_set_ne e] at h2
      obtain ⟨d', h3, h4⟩ := h.obsIn i' j' c' h1 h2
      refine ⟨d', ?_, h4⟩
      show (t.obs.set j d)[j']? = some d'
      rw [List.getElem?_set_ne fun e' => e (g.obs_inj i i' j hi (by rw [h1, e']))]
      exact h3
  · have h2 : (s.obs.set i c)[i']? = some c' := h2
    by_cases e : i = i'
    · subst e
      rw [hi] at h1; cases h1
    · rw [List.getElem?_set_ne e] at h2
      exact h.obsOut i' c' h1 h2

/-- A control that does not belong to the small filter is replaced. -/
theorem Spec.State.Part.otherCtl {p : Fin k → Fin n} {g : Spec.Share} {s : Spec.State n T} {t : Spec.State k T}
    (h : Spec.State.Part p g s t) {i : Nat} (hi : g.ctl i = none) {c : (l : Nat) × Spec.Ctl n l T} (hc : ∀ a b, c.2.B (p a) b = 0) :
    Spec.State.Part p g { s with ctl := s.ctl.set i c } t := by
  refine ⟨h.x, h.A, h.P, h.Q, fun i' j' c' h1 h2 => ?_, fun i' c' h1 h2 => ?_, h.obsIn, h.obsOut⟩
  · have h2 : (s.ctl.set i c)[i']? = some c' := h2
    by_cases e : i = i'
    · subst e
      rw [hi] at h1; cases h1
    · rw [List.getElem?_set_ne e] at h2
      exact h.ctlIn i' j' c' h1 h2
  · have h2 : (s.ctl.set i c)[i']? = some c' := h2
    by_cases e : i = i'
    · subst e
      rw [List.getElem?_set_self'] at h2
      cases hc' : s.ctl[i]? with
      | none => rw [hc'] at h2; cases h2
      | some _ => rw [hc'] at h2; cases h2; exact hc
    · rw [List.getElem?_set_ne e] at h2
      exact h.ctlOut i' c' h1 h2

theorem Spec.State.Part.otherObs {p : Fin k → Fin n} {g : Spec.Share} {s : Spec.State n T} {t : Spec.State k T}
    (h : Spec.State.Part p g s t) {i : Nat} (hi : g.obs i = none) {c : (m : Nat) × Spec.Obs n m T} (hc : ∀ b a, c.2.H b (p a) = 0) :
    Spec.State.Part p g { s with obs := s.obs.set i c } t := by
  refine ⟨h.x, h.A, h.P, h.Q, h.ctlIn, h.ctlOut, fun i' j' c' h1 h2 => ?_, fun i' c' h1 h2 => ?_⟩
  · have h2 : (s.obs.set i c)[i']? = some c' := h2
    by_cases e : i = i'
    · subst e
      rw [hi] at h1; cases h1
    · rw [List.getElem?_set_ne e] at h2
      exact h.obsIn i' j' c' h1 h2
  · have h2 : (s.obs.set i c)[i']? = some c' := h2
    by_cases e : i = i'
    · subst e
      rw [List.getElem?_set_self'] at h2
      cases hc' : s.obs[i]? with
      | none => rw [hc'] at h2; cases h2
      | some _ => rw [hc'] at h2; cases h2; exact hc
    · rw [List.getElem?_set_ne e] at h2
      exact h.obsOut i' c' h1 h2

theorem Spec.State.Part.newXP {p : Fin k → Fin n} {g : Spec.Share} {s : Spec.State n T} {t : Spec.State k T} (h : Spec.State.Part p g s t)
    {X Pn X' Pn'} (hx : ∀ a, X' a = X (p a)) (hP : Spec.Block p p Pn Pn') :
    Spec.State.Part p g { s with x := X, P := Pn } { t with x := X', P := Pn' } :=
  ⟨hx, h.A, hP, h.Q, h.ctlIn, h.ctlOut, h.obsIn, h.obsOut⟩

end Part

theorem forall₂_get' {α β : Type} {Q : α → β → Prop} {s : List α} {t : List β} (h : List.Forall₂ Q s t) {i : Nat} {b : β}
    (hi : t[i]? = some b) : ∃ a, s[i]? = some a ∧ Q a b := forall₂_get h.flip hi

theorem list_set_self {α : Type} {s : List α} {i : Nat} {a : α} (h : s[i]? = some a) : s.set i a = s := by
  obtain ⟨hlt, he⟩ := List.getElem?_eq_some_iff.mp h
  rw [← he]
  exact List.set_getElem_self hlt

section Steps
variable [Zero T] [One T] [Add T] [Sub T] [Mul T] [Neg T] [MDT T]

/-- A call of both filters. -/
theorem step_part (hz : Spec.ZeroExact T) (bld : Build) {p : Fin k → Fin n} (hp : StrictMono p) {g : Spec.Share} {ls ms : List Nat}
    {w : World n T} {v : World k T} (h : World.PartOf p g ls ms w v) {op op' : Op T} (ho : Spec.OpPart p g ls ms op op')
    (hop : op.WellFormed w) (hop' : op'.WellFormed v) :
    Rel2 (w.step bld op) (v.step bld op') (World.PartOf p g ls ms) := by
  obtain ⟨s, t, hs, ht, hst, hl, hm⟩ := h
  have hv := hs.valid.kf
  have hv' := ht.valid.kf
  cases ho with
  | predict =>
    simp only [World.step]
    refine (predict_part hz hp hs.states ht.states hs.kf ht.kf hst.x hst.A hst.P hst.Q).bind ?_
    rintro a b ⟨X, Pn, X', Pn', h1, h2, h3, h4⟩
    exact Rel2.pure ⟨{ s with x := X, P := Pn }, { t with x := X', P := Pn' }, ⟨hs.states, h1, hs.ctl, hs.obs⟩, ⟨ht.states, h2, ht.ctl, ht.obs⟩, hst.newXP h3 h4, hl, hm⟩
  | predictTuned lambda =>
    simp only [World.step]
    refine (predictTuned_part hz hp lambda hs.states ht.states hs.kf ht.kf hst.x hst.A hst.P hst.Q).bind ?_
    rintro a b ⟨X, Pn, X', Pn', h1, h2, h3, h4⟩
    exact Rel2.pure ⟨{ s with x := X, P := Pn }, { t with x := X', P := Pn' }, ⟨hs.states, h1, hs.ctl, hs.obs⟩, ⟨ht.states, h2, ht.ctl, ht.obs⟩, hst.newXP h3 h4, hl, hm⟩
  | setX v1 v2 he =>
    apply rel2_of_ok
    · simp only [World.step, copyFromSlice_ok hop, res_bind_ok]; rfl
    · simp only [World.step, copyFromSlice_ok hop', res_bind_ok]; rfl
    · exact ⟨{ s with x := Spec.vecOf v1 }, { t with x := Spec.vecOf v2 },
        ⟨hs.states, ⟨repsV_vecOf (by rw [hop]; exact hv.x), hs.kf.A, hs.kf.P, hs.kf.Q, hs.kf.predictedX, hs.kf.tempP⟩, hs.ctl, hs.obs⟩,
        ⟨ht.states, ⟨repsV_vecOf (by rw [hop']; exact hv'.x), ht.kf.A, ht.kf.P, ht.kf.Q, ht.kf.predictedX, ht.kf.tempP⟩, ht.ctl, ht.obs⟩,
        hst.newXP he hst.P, hl, hm⟩
  | setA v1 v2 he =>
    apply rel2_of_ok
    · simp only [World.step, copyFromSlice_ok hop, res_bind_ok]; rfl
    · simp only [World.step, copyFromSlice_ok hop', res_bind_ok]; rfl
    · exact ⟨{ s with A := Spec.matOf v1 }, { t with A := Spec.matOf v2 },
        ⟨hs.states, ⟨hs.kf.x, reps_matOf (by rw [hop]; exact hv.A), hs.kf.P, hs.kf.Q, hs.kf.predictedX, hs.kf.tempP⟩, hs.ctl, hs.obs⟩,
        ⟨ht.states, ⟨ht.kf.x, reps_matOf (by rw [hop']; exact hv'.A), ht.kf.P, ht.kf.Q, ht.kf.predictedX, ht.kf.tempP⟩, ht.ctl, ht.obs⟩,
        ⟨hst.x, he, hst.P, hst.Q, hst.ctlIn, hst.ctlOut, hst.obsIn, hst.obsOut⟩, hl, hm⟩
  | setP v1 v2 he =>
    apply rel2_of_ok
    · simp only [World.step, copyFromSlice_ok hop, res_bind_ok]; rfl
    · simp only [World.step, copyFromSlice_ok hop', res_bind_ok]; rfl
    · exact ⟨{ s with P := Spec.matOf v1 }, { t with P := Spec.matOf v2 },
        ⟨hs.states, ⟨hs.kf.x, hs.kf.A, reps_matOf (by rw [hop]; exact hv.P), hs.kf.Q, hs.kf.predictedX, hs.kf.tempP⟩, hs.ctl, hs.obs⟩,
        ⟨ht.states, ⟨ht.kf.x, ht.kf.A, reps_matOf (by rw [hop']; exact hv'.P), ht.kf.Q, ht.kf.predictedX, ht.kf.tempP⟩, ht.ctl, ht.obs⟩,
        hst.newXP hst.x he, hl, hm⟩
  | setQ v1 v2 he =>
    apply rel2_of_ok
    · simp only [World.step, copyFromSlice_ok hop, res_bind_ok]; rfl
    · simp only [World.step, copyFromSlice_ok hop', res_bind_ok]; rfl
    · exact ⟨{ s with Q := Spec.matOf v1 }, { t with Q := Spec.matOf v2 },
        ⟨hs.states, ⟨hs.kf.x, hs.kf.A, hs.kf.P, reps_matOf (by rw [hop]; exact hv.Q), hs.kf.predictedX, hs.kf.tempP⟩, hs.ctl, hs.obs⟩,
        ⟨ht.states, ⟨ht.kf.x, ht.kf.A, ht.kf.P, reps_matOf (by rw [hop']; exact hv'.Q), ht.kf.predictedX, ht.kf.tempP⟩, ht.ctl, ht.obs⟩,
        ⟨hst.x, hst.A, hst.P, he, hst.ctlIn, hst.ctlOut, hst.obsIn, hst.obsOut⟩, hl, hm⟩
  | control i j hij =>
    obtain ⟨c, hi⟩ : ∃ c, w.ctl[i]? = some c := ⟨_, List.getElem?_eq_getElem hop⟩
    obtain ⟨sc, hsi, hc⟩ := forall₂_get hs.ctl hi
    obtain ⟨sd, htj, hcd⟩ := hst.ctlIn i j sc hij hsi
    obtain ⟨d, hj, hd⟩ := forall₂_get' ht.ctl htj
    cases hc with | @mk l c sc hc =>
    cases hcd with | @mk _ _ sd hB hu hQ =>
    cases hd with | @mk _ d _ hd =>
    simp only [World.step, hi, hj]
    rw [hu, hQ] at hd
    refine (control_part hz rfl hs.states ht.states hs.kf ht.kf hc hd hst.x hst.P hB).bind ?_
    rintro ⟨f1, c1⟩ ⟨g1, d1⟩ ⟨X, Pn, X', Pn', h1, h2, h3, h4, h5, h6⟩
    refine Rel2.pure ⟨{ s with x := X, P := Pn }, { t with x := X', P := Pn' }, ⟨hs.states, h1, ?_, hs.obs⟩, ⟨ht.states, h2, ?_, ht.obs⟩, hst.newXP h5 h6, hl, hm⟩
    · rw [← list_set_self hsi]
      exact forall₂_set hs.ctl i (.mk h3)
    · rw [← list_set_self htj]
      exact forall₂_set ht.ctl j (.mk (by rw [hu, hQ]; exact h4))
  | correct i j hij =>
    obtain ⟨c, hi⟩ : ∃ c, w.obs[i]? = some c := ⟨_, List.getElem?_eq_getElem hop⟩
    obtain ⟨sc, hsi, hc⟩ := forall₂_get hs.obs hi
    obtain ⟨sd, htj, hcd⟩ := hst.obsIn i j sc hij hsi
    obtain ⟨d, hj, hd⟩ := forall₂_get' ht.obs htj
    cases hc with | @mk m c sc hm0 hc =>
    cases hcd with | @mk _ _ sd hH hzz hR =>
    cases hd with | @mk _ d _ _ hd =>
    simp only [World.step, hi, hj]
    rw [hzz, hR] at hd
    refine (correct_part hz bld hp hs.states ht.states hm0 hs.kf ht.kf hc hd hst.x hst.P hH).bind ?_
    rintro ⟨f1, c1⟩ ⟨g1, d1⟩ ⟨X, Pn, X', Pn', h1, h2, h3, h4, h5, h6⟩
    refine Rel2.pure ⟨{ s with x := X, P := Pn }, { t with x := X', P := Pn' }, ⟨hs.states, h1, hs.ctl, ?_⟩, ⟨ht.states, h2, ht.ctl, ?_⟩, hst.newXP h5 h6, hl, hm⟩
    · rw [← list_set_self hsi]
      exact forall₂_set hs.obs i (.mk hm0 h3)
    · rw [← list_set_self htj]
      exact forall₂_set ht.obs j (.mk hm0 (by rw [hzz, hR]; exact h4))
  | setU i j vv hij =>
    obtain ⟨c, hi, hlen⟩ := map_len_some hop
    obtain ⟨d, hj, hlen'⟩ := map_len_some hop'
    obtain ⟨sc, hsi, hc⟩ := forall₂_get hs.ctl hi
    obtain ⟨sd, htj, hcd⟩ := hst.ctlIn i j sc hij hsi
    obtain ⟨d', hj', hd⟩ := forall₂_get' ht.ctl htj
    obtain rfl : d = d' := by rw [hj] at hj'; exact Option.some.inj hj'
    cases hc with | @mk l c sc hc =>
    cases hcd with | @mk _ _ sd hB hu hQ =>
    cases hd with | @mk _ d _ hd =>
    apply rel2_of_ok
    · simp only [World.step, World.withCtl, hi, copyFromSlice_ok hlen, res_bind_ok, pure_bind]; rfl
    · simp only [World.step, World.withCtl, hj, copyFromSlice_ok hlen', res_bind_ok, pure_bind]; rfl
    · have hcn : ({ c with u := ⟨vv⟩ } : Control n l T).Reps sc.B (Spec.vecOf vv) sc.Q :=
        ⟨hc.B, repsV_vecOf (by rw [hlen]; exact hc.valid.u), hc.Q, hc.tempBQ⟩
      have hdn : ({ d with u := ⟨vv⟩ } : Control k l T).Reps sd.B (Spec.vecOf vv) sd.Q :=
        ⟨hd.B, repsV_vecOf (by rw [hlen']; exact hd.valid.u), hd.Q, hd.tempBQ⟩
      exact ⟨{ s with ctl := s.ctl.set i ⟨l, ⟨sc.B, Spec.vecOf vv, sc.Q⟩⟩ }, { t with ctl := t.ctl.set j ⟨l, ⟨sd.B, Spec.vecOf vv, sd.Q⟩⟩ },
        ⟨hs.states, hs.kf, forall₂_set hs.ctl i (.mk (d := ⟨sc.B, Spec.vecOf vv, sc.Q⟩) hcn), hs.obs⟩,
        ⟨ht.states, ht.kf, forall₂_set ht.ctl j (.mk (d := ⟨sd.B, Spec.vecOf vv, sd.Q⟩) hdn), ht.obs⟩,
        hst.setCtl hij htj (.mk hB rfl hQ), map_fst_set hl hsi rfl, hm⟩
  | setB i j v1 v2 hij he =>
    obtain ⟨c, hi, hlen⟩ := map_len_some hop
    obtain ⟨d, hj, hlen'⟩ := map_len_some hop'
    obtain ⟨sc, hsi, hc⟩ := forall₂_get hs.ctl hi
    obtain ⟨sd, htj, hcd⟩ := hst.ctlIn i j sc hij hsi
    obtain ⟨d', hj', hd⟩ := forall₂_get' ht.ctl htj
    obtain rfl : d = d' := by rw [hj] at hj'; exact Option.some.inj hj'
    have hb := he sc.1 (map_fst_get hl hsi)
    cases hc with | @mk l c sc hc =>
    cases hcd with | @mk _ _ sd hB hu hQ =>
    cases hd with | @mk _ d _ hd =>
    apply rel2_of_ok
    · simp only [World.step, World.withCtl, hi, copyFromSlice_ok hlen, res_bind_ok, pure_bind]; rfl
    · simp only [World.step, World.withCtl, hj, copyFromSlice_ok hlen', res_bind_ok, pure_bind]; rfl
    · have hcn : ({ c with B := ⟨v1⟩ } : Control n l T).Reps (Spec.matOf v1) sc.u sc.Q :=
        ⟨reps_matOf (by rw [hlen]; exact hc.valid.B), hc.u, hc.Q, hc.tempBQ⟩
      have hdn : ({ d with B := ⟨v2⟩ } : Control k l T).Reps (Spec.matOf v2) sd.u sd.Q :=
        ⟨reps_matOf (by rw [hlen']; exact hd.valid.B), hd.u, hd.Q, hd.tempBQ⟩
      exact ⟨{ s with ctl := s.ctl.set i ⟨l, ⟨Spec.matOf v1, sc.u, sc.Q⟩⟩ }, { t with ctl := t.ctl.set j ⟨l, ⟨Spec.matOf v2, sd.u, sd.Q⟩⟩ },
        ⟨hs.states, hs.kf, forall₂_set hs.ctl i (.mk (d := ⟨Spec.matOf v1, sc.u, sc.Q⟩) hcn), hs.obs⟩,
        ⟨ht.states, ht.kf, forall₂_set ht.ctl j (.mk (d := ⟨Spec.matOf v2, sd.u, sd.Q⟩) hdn), ht.obs⟩,
        hst.setCtl hij htj (.mk hb hu hQ), map_fst_set hl hsi rfl, hm⟩
  | setQc i j vv hij =>
    obtain ⟨c, hi, hlen⟩ := map_len_some hop
    obtain ⟨d, hj, hlen'⟩ := map_len_some hop'
    obtain ⟨sc, hsi, hc⟩ := forall₂_get hs.ctl hi
    obtain ⟨sd, htj, hcd⟩ := hst.ctlIn i j sc hij hsi
    obtain ⟨d', hj', hd⟩ := forall₂_get' ht.ctl htj
    obtain rfl : d = d' := by rw [hj] at hj'; exact Option.some.inj hj'
    cases hc with | @mk l c sc hc =>
    cases hcd with | @mk _ _ sd hB hu hQ =>
    cases hd with | @mk _ d _ hd =>
    apply rel2_of_ok
    · simp only [World.step, World.withCtl, hi, copyFromSlice_ok hlen, res_bind_ok, pure_bind]; rfl
    · simp only [World.step, World.withCtl, hj, copyFromSlice_ok hlen', res_bind_ok, pure_bind]; rfl
    · have hcn : ({ c with Q := ⟨vv⟩ } : Control n l T).Reps sc.B sc.u (Spec.matOf vv) :=
        ⟨hc.B, hc.u, reps_matOf (by rw [hlen]; exact hc.valid.Q), hc.tempBQ⟩
      have hdn : ({ d with Q := ⟨vv⟩ } : Control k l T).Reps sd.B sd.u (Spec.matOf vv) :=
        ⟨hd.B, hd.u, reps_matOf (by rw [hlen']; exact hd.valid.Q), hd.tempBQ⟩
      exact ⟨{ s with ctl := s.ctl.set i ⟨l, ⟨sc.B, sc.u, Spec.matOf vv⟩⟩ }, { t with ctl := t.ctl.set j ⟨l, ⟨sd.B, sd.u, Spec.matOf vv⟩⟩ },
        ⟨hs.states, hs.kf, forall₂_set hs.ctl i (.mk (d := ⟨sc.B, sc.u, Spec.matOf vv⟩) hcn), hs.obs⟩,
        ⟨ht.states, ht.kf, forall₂_set ht.ctl j (.mk (d := ⟨sd.B, sd.u, Spec.matOf vv⟩) hdn), ht.obs⟩,
        hst.setCtl hij htj (.mk hB hu rfl), map_fst_set hl hsi rfl, hm⟩
  | setZ i j vv hij =>
    obtain ⟨c, hi, hlen⟩ := map_len_some hop
    obtain ⟨d, hj, hlen'⟩ := map_len_some hop'
    obtain ⟨sc, hsi, hc⟩ := forall₂_get hs.obs hi
    obtain ⟨sd, htj, hcd⟩ := hst.obsIn i j sc hij hsi
    obtain ⟨d', hj', hd⟩ := forall₂_get' ht.obs htj
    obtain rfl : d = d' := by rw [hj] at hj'; exact Option.some.inj hj'
    cases hc with | @mk m c sc hm0 hc =>
    cases hcd with | @mk _ _ sd hH hzz hR =>
    cases hd with | @mk _ d _ _ hd =>
    apply rel2_of_ok
    · simp only [World.step, World.withObs, hi, copyFromSlice_ok hlen, res_bind_ok, pure_bind]; rfl
    · simp only [World.step, World.withObs, hj, copyFromSlice_ok hlen', res_bind_ok, pure_bind]; rfl
    · have hcn : ({ c with z := ⟨vv⟩ } : RegularObservation n m T).Reps sc.H (Spec.vecOf vv) sc.R :=
        ⟨hc.H, repsV_vecOf (by rw [hlen]; exact hc.valid.z), hc.R, hc.y, hc.S, hc.K, hc.tempSInv, hc.tempHP, hc.tempPHt, hc.tempKHP⟩
      have hdn : ({ d with z := ⟨vv⟩ } : RegularObservation k m T).Reps sd.H (Spec.vecOf vv) sd.R :=
        ⟨hd.H, repsV_vecOf (by rw [hlen']; exact hd.valid.z), hd.R, hd.y, hd.S, hd.K, hd.tempSInv, hd.tempHP, hd.tempPHt, hd.tempKHP⟩
      exact ⟨{ s with obs := s.obs.set i ⟨m, ⟨sc.H, Spec.vecOf vv, sc.R⟩⟩ }, { t with obs := t.obs.set j ⟨m, ⟨sd.H, Spec.vecOf vv, sd.R⟩⟩ },
        ⟨hs.states, hs.kf, hs.ctl, forall₂_set hs.obs i (.mk (p := ⟨sc.H, Spec.vecOf vv, sc.R⟩) hm0 hcn)⟩,
        ⟨ht.states, ht.kf, ht.ctl, forall₂_set ht.obs j (.mk (p := ⟨sd.H, Spec.vecOf vv, sd.R⟩) hm0 hdn)⟩,
        hst.setObs hij htj (.mk hH rfl hR), hl, map_fst_set hm hsi rfl⟩
  | setH i j v1 v2 hij he =>
    obtain ⟨c, hi, hlen⟩ := map_len_some hop
    obtain ⟨d, hj, hlen'⟩ := map_len_some hop'
    obtain ⟨sc, hsi, hc⟩ := forall₂_get hs.obs hi
    obtain ⟨sd, htj, hcd⟩ := hst.obsIn i j sc hij hsi
    obtain ⟨d', hj', hd⟩ := forall₂_get' ht.obs htj
    obtain rfl : d = d' := by rw [hj] at hj'; exact Option.some.inj hj'
    have hb := he sc.1 (map_fst_get hm hsi)
    cases hc with | @mk m c sc hm0 hc =>
    cases hcd with | @mk _ _ sd hH hzz hR =>
    cases hd with | @mk _ d _ _ hd =>
    apply rel2_of_ok
    · simp only [World.step, World.withObs, hi, copyFromSlice_ok hlen, res_bind_ok, pure_bind]; rfl
    · simp only [World.step, World.withObs, hj, copyFromSlice_ok hlen', res_bind_ok, pure_bind]; rfl
    · have hcn : ({ c with H := ⟨v1⟩ } : RegularObservation n m T).Reps (Spec.matOf v1) sc.z sc.R :=
        ⟨reps_matOf (by rw [hlen]; exact hc.valid.H), hc.z, hc.R, hc.y, hc.S, hc.K, hc.tempSInv, hc.tempHP, hc.tempPHt, hc.tempKHP⟩
      have hdn : ({ d with H := ⟨v2⟩ } : RegularObservation k m T).Reps (Spec.matOf v2) sd.z sd.R :=
        ⟨reps_matOf (by rw [hlen']; exact hd.valid.H), hd.z, hd.R, hd.y, hd.S, hd.K, hd.tempSInv, hd.tempHP, hd.tempPHt, hd.tempKHP⟩
      exact ⟨{ s with obs := s.obs.set i ⟨m, ⟨Spec.matOf v1, sc.z, sc.R⟩⟩ }, { t with obs := t.obs.set j ⟨m, ⟨Spec.matOf v2, sd.z, sd.R⟩⟩ },
        ⟨hs.states, hs.kf, hs.ctl, forall₂_set hs.obs i (.mk (p := ⟨Spec.matOf v1, sc.z, sc.R⟩) hm0 hcn)⟩,
        ⟨ht.states, ht.kf, ht.ctl, forall₂_set ht.obs j (.mk (p := ⟨Spec.matOf v2, sd.z, sd.R⟩) hm0 hdn)⟩,
        hst.setObs hij htj (.mk hb hzz hR), hl, map_fst_set hm hsi rfl⟩
  | setR i j vv hij =>
    obtain ⟨c, hi, hlen⟩ := map_len_some hop
    obtain ⟨d, hj, hlen'⟩ := map_len_some hop'
    obtain ⟨sc, hsi, hc⟩ := forall₂_get hs.obs hi
    obtain ⟨sd, htj, hcd⟩ := hst.obsIn i j sc hij hsi
    obtain ⟨d', hj', hd⟩ := forall₂_get' ht.obs htj
    obtain rfl : d = d' := by rw [hj] at hj'; exact Option.some.inj hj'
    cases hc with | @mk m c sc hm0 hc =>
    cases hcd with | @mk _ _ sd hH hzz hR =>
    cases hd with | @mk _ d _ _ hd =>
    apply rel2_of_ok
    · simp only [World.step, World.withObs, hi, copyFromSlice_ok hlen, res_bind_ok, pure_bind]; rfl
    · simp only [World.step, World.withObs, hj, copyFromSlice_ok hlen', res_bind_ok, pure_bind]; rfl
    · have hcn : ({ c with R := ⟨vv⟩ } : RegularObservation n m T).Reps sc.H sc.z (Spec.matOf vv) :=
        ⟨hc.H, hc.z, reps_matOf (by rw [hlen]; exact hc.valid.R), hc.y, hc.S, hc.K, hc.tempSInv, hc.tempHP, hc.tempPHt, hc.tempKHP⟩
      have hdn : ({ d with R := ⟨vv⟩ } : RegularObservation k m T).Reps sd.H sd.z (Spec.matOf vv) :=
        ⟨hd.H, hd.z, reps_matOf (by rw [hlen']; exact hd.valid.R), hd.y, hd.S, hd.K, hd.tempSInv, hd.tempHP, hd.tempPHt, hd.tempKHP⟩
      exact ⟨{ s with obs := s.obs.set i ⟨m, ⟨sc.H, sc.z, Spec.matOf vv⟩⟩ }, { t with obs := t.obs.set j ⟨m, ⟨sd.H, sd.z, Spec.matOf vv⟩⟩ },
        ⟨hs.states, hs.kf, hs.ctl, forall₂_set hs.obs i (.mk (p := ⟨sc.H, sc.z, Spec.matOf vv⟩) hm0 hcn)⟩,
        ⟨ht.states, ht.kf, ht.ctl, forall₂_set ht.obs j (.mk (p := ⟨sd.H, sd.z, Spec.matOf vv⟩) hm0 hdn)⟩,
        hst.setObs hij htj (.mk hH hzz rfl), hl, map_fst_set hm hsi rfl⟩

/-- A call that has nothing to do with the small filter. -/
theorem step_other (hz : Spec.ZeroExact T) (bld : Build) {p : Fin k → Fin n} {g : Spec.Share} {ls ms : List Nat}
    {w w' : World n T} {v : World k T} (h0 : World.PartOf p g ls ms w v) {op : Op T} (ho : Spec.OpOther p g ls ms op)
    (hop : op.WellFormed w) (h : w.step bld op = .ok w') : World.PartOf p g ls ms w' v := by
  obtain ⟨s, t, hs, ht, hst, hl, hm⟩ := h0
  cases op with
  | predict => exact ho.elim
  | predictTuned _ => exact ho.elim
  | setX _ => exact ho.elim
  | setA _ => exact ho.elim
  | setP _ => exact ho.elim
  | setQ _ => exact ho.elim
  | control i =>
    obtain ⟨c, hi⟩ : ∃ c, w.ctl[i]? = some c := ⟨_, List.getElem?_eq_getElem hop⟩
    obtain ⟨sc, hsi, hc⟩ := forall₂_get hs.ctl hi
    have ho0 := hst.ctlOut i sc ho hsi
    cases hc with | @mk l c sc hc =>
    obtain ⟨f', c', X, Pn, h1, h2, h3, h4, h5⟩ := control_other hz hs.states hs.kf hc hst.x hst.P ho0
    simp only [World.step, hi, h1, res_bind_ok] at h
    cases h
    refine ⟨{ s with x := X, P := Pn }, t, ⟨hs.states, h2, ?_, hs.obs⟩, ht,
      ⟨h4, hst.A, h5, hst.Q, hst.ctlIn, hst.ctlOut, hst.obsIn, hst.obsOut⟩, hl, hm⟩
    rw [← list_set_self hsi]
    exact forall₂_set hs.ctl i (.mk h3)
  | correct i =>
    obtain ⟨c, hi⟩ : ∃ c, w.obs[i]? = some c := ⟨_, List.getElem?_eq_getElem hop⟩
    obtain ⟨sc, hsi, hc⟩ := forall₂_get hs.obs hi
    have ho0 := hst.obsOut i sc ho hsi
    cases hc with | @mk m c sc hm0 hc =>
    simp only [World.step, hi] at h
    obtain ⟨⟨f', c'⟩, h1, h⟩ := bind_ok h
    cases h
    obtain ⟨X, Pn, h2, h3, h4, h5⟩ := correct_other hz bld hs.states hm0 hs.kf hc hst.x hst.P ho0 h1
    refine ⟨{ s with x := X, P := Pn }, t, ⟨hs.states, h2, hs.ctl, ?_⟩, ht,
      ⟨h4, hst.A, h5, hst.Q, hst.ctlIn, hst.ctlOut, hst.obsIn, hst.obsOut⟩, hl, hm⟩
    rw [← list_set_self hsi]
    exact forall₂_set hs.obs i (.mk hm0 h3)
  | setU i vv =>
    obtain ⟨c, hi, hlen⟩ := map_len_some hop
    obtain ⟨sc, hsi, hc⟩ := forall₂_get hs.ctl hi
    have ho0 := hst.ctlOut i sc ho hsi
    cases hc with | @mk l c sc hc =>
    simp only [World.step, World.withCtl, hi, copyFromSlice_ok hlen, res_bind_ok, pure_bind] at h
    cases h
    have hcn : ({ c with u := ⟨vv⟩ } : Control n l T).Reps sc.B (Spec.vecOf vv) sc.Q := ⟨hc.B, repsV_vecOf (by rw [hlen]; exact hc.valid.u), hc.Q, hc.tempBQ⟩
    exact ⟨{ s with ctl := s.ctl.set i ⟨l, ⟨sc.B, Spec.vecOf vv, sc.Q⟩⟩ }, t, ⟨hs.states, hs.kf, forall₂_set hs.ctl i (.mk (d := ⟨sc.B, Spec.vecOf vv, sc.Q⟩) hcn), hs.obs⟩, ht,
      hst.otherCtl ho ho0, map_fst_set hl hsi rfl, hm⟩
  | setB i vv =>
    obtain ⟨c, hi, hlen⟩ := map_len_some hop
    obtain ⟨sc, hsi, hc⟩ := forall₂_get hs.ctl hi
    have ho0 := hst.ctlOut i sc ho.1 hsi
    have hb := ho.2 sc.1 (map_fst_get hl hsi)
    cases hc with | @mk l c sc hc =>
    simp only [World.step, World.withCtl, hi, copyFromSlice_ok hlen, res_bind_ok, pure_bind] at h
    cases h
    have hcn : ({ c with B := ⟨vv⟩ } : Control n l T).Reps (Spec.matOf vv) sc.u sc.Q := ⟨reps_matOf (by rw [hlen]; exact hc.valid.B), hc.u, hc.Q, hc.tempBQ⟩
    exact ⟨{ s with ctl := s.ctl.set i ⟨l, ⟨Spec.matOf vv, sc.u, sc.Q⟩⟩ }, t, ⟨hs.states, hs.kf, forall₂_set hs.ctl i (.mk (d := ⟨Spec.matOf vv, sc.u, sc.Q⟩) hcn), hs.obs⟩, ht,
      hst.otherCtl ho.1 hb, map_fst_set hl hsi rfl, hm⟩
  | setQc i vv =>
    obtain ⟨c, hi, hlen⟩ := map_len_some hop
    obtain ⟨sc, hsi, hc⟩ := forall₂_get hs.ctl hi
    have ho0 := hst.ctlOut i sc ho hsi
    cases hc with | @mk l c sc hc =>
    simp only [World.step, World.withCtl, hi, copyFromSlice_ok hlen, res_bind_ok, pure_bind] at h
    cases h
    have hcn : ({ c with Q := ⟨vv⟩ } : Control n l T).Reps sc.B sc.u (Spec.matOf vv) := ⟨hc.B, hc.u, reps_matOf (by rw [hlen]; exact hc.valid.Q), hc.tempBQ⟩
    exact ⟨{ s with ctl := s.ctl.set i ⟨l, ⟨sc.B, sc.u, Spec.matOf vv⟩⟩ }, t, ⟨hs.states, hs.kf, forall₂_set hs.ctl i (.mk (d := ⟨sc.B, sc.u, Spec.matOf vv⟩) hcn), hs.obs⟩, ht,
      hst.otherCtl ho ho0, map_fst_set hl hsi rfl, hm⟩
  | setZ i vv =>
    obtain ⟨c, hi, hlen⟩ := map_len_some hop
    obtain ⟨sc, hsi, hc⟩ := forall₂_get hs.obs hi
    have ho0 := hst.obsOut i sc ho hsi
    cases hc with | @mk m c sc hm0 hc =>
    simp only [World.step, World.withObs, hi, copyFromSlice_ok hlen, res_bind_ok, pure_bind] at h
    cases h
    have hcn : ({ c with z := ⟨vv⟩ } : RegularObservation n m T).Reps sc.H (Spec.vecOf vv) sc.R := 
        ⟨hc.H, repsV_vecOf (by rw [hlen]; exact hc.valid.z), hc.R, hc.y, hc.S, hc.K, hc.tempSInv, hc.tempHP, hc.tempPHt, hc.tempKHP⟩
    exact ⟨{ s with obs := s.obs.set i ⟨m, ⟨sc.H, Spec.vecOf vv, sc.R⟩⟩ }, t, ⟨hs.states, hs.kf, hs.ctl, forall₂_set hs.obs i (.mk (p := ⟨sc.H, Spec.vecOf vv, sc.R⟩) hm0 hcn)⟩,
      ht, hst.otherObs ho ho0, hl, map_fst_set hm hsi rfl⟩
  | setH i vv =>
    obtain ⟨c, hi, hlen⟩ := map_len_some hop
    obtain ⟨sc, hsi, hc⟩ := forall₂_get hs.obs hi
    have ho0 := hst.obsOut i sc ho.1 hsi
    have hb := ho.2 sc.1 (map_fst_get hm hsi)
    cases hc with | @mk m c sc hm0 hc =>
    simp only [World.step, World.withObs, hi, copyFromSlice_ok hlen, res_bind_ok, pure_bind] at h
    cases h
    have hcn : ({ c with H := ⟨vv⟩ } : RegularObservation n m T).Reps (Spec.matOf vv) sc.z sc.R := 
        ⟨reps_matOf (by rw [hlen]; exact hc.valid.H), hc.z, hc.R, hc.y, hc.S, hc.K, hc.tempSInv, hc.tempHP, hc.tempPHt, hc.tempKHP⟩
    exact ⟨{ s with obs := s.obs.set i ⟨m, ⟨Spec.matOf vv, sc.z, sc.R⟩⟩ }, t, ⟨hs.states, hs.kf, hs.ctl, forall₂_set hs.obs i (.mk (p := ⟨Spec.matOf vv, sc.z, sc.R⟩) hm0 hcn)⟩,
      ht, hst.otherObs ho.1 hb, hl, map_fst_set hm hsi rfl⟩
  | setR i vv =>
    obtain ⟨c, hi, hlen⟩ := map_len_some hop
    obtain ⟨sc, hsi, hc⟩ := forall₂_get hs.obs hi
    have ho0 := hst.obsOut i sc ho hsi
    cases hc with | @mk m c sc hm0 hc =>
    simp only [World.step, World.withObs, hi, copyFromSlice_ok hlen, res_bind_ok, pure_bind] at h
    cases h
    have hcn : ({ c with R := ⟨vv⟩ } : RegularObservation n m T).Reps sc.H sc.z (Spec.matOf vv) := 
        ⟨hc.H, hc.z, reps_matOf (by rw [hlen]; exact hc.valid.R), hc.y, hc.S, hc.K, hc.tempSInv, hc.tempHP, hc.tempPHt, hc.tempKHP⟩
    exact ⟨{ s with obs := s.obs.set i ⟨m, ⟨sc.H, sc.z, Spec.matOf vv⟩⟩ }, t, ⟨hs.states, hs.kf, hs.ctl, forall₂_set hs.obs i (.mk (p := ⟨sc.H, sc.z, Spec.matOf vv⟩) hm0 hcn)⟩,
      ht, hst.otherObs ho ho0, hl, map_fst_set hm hsi rfl⟩

theorem PartOf.valid {p : Fin k → Fin n} {g : Spec.Share} {ls ms : List Nat} {w : World n T} {v : World k T}
    (h : World.PartOf p g ls ms w v) : w.Valid ∧ v.Valid := by
  obtain ⟨_, _, hs, ht, _⟩ := h
  exact ⟨hs.valid, ht.valid⟩

/-- A history. -/
theorem run_part (hz : Spec.ZeroExact T) (bld : Build) {p : Fin k → Fin n} (hp : StrictMono p) {g : Spec.Share} {ls ms : List Nat}
    {w w' : World n T} {v : World k T} (h : World.PartOf p g ls ms w v) {ops ops' : List (Op T)} (ho : Spec.OpsPart p g ls ms ops ops')
    (hops : ∀ op ∈ ops, op.WellFormed w) (hops' : ∀ op ∈ ops', op.WellFormed v) (hr : w.run bld ops = .ok w') :
    ∃ v', v.run bld ops' = .ok v' ∧ World.PartOf p g ls ms w' v' := by
  induction ho generalizing w v with
  | nil => cases hr; exact ⟨v, rfl, h⟩
  | part h1 _ ih =>
    unfold World.run at hr ⊢
    obtain ⟨a, ha, hr⟩ := bind_ok hr
    rcases step_part hz bld hp h h1 (hops _ (by simp)) (hops' _ (by simp)) with ⟨e, he, _⟩ | ⟨a', b, ha', hb, hab⟩
    · rw [ha] at he; cases he
    · rw [ha] at ha'; cases ha'
      have s1 := (step_ok (PartOf.valid h).1 (hops _ (by simp)) ha).2
      have s2 := (step_ok (PartOf.valid h).2 (hops' _ (by simp)) hb).2
      rw [hb]
      exact ih hab (fun o hm => (hops o (by simp [hm])).congr s1) (fun o hm => (hops' o (by simp [hm])).congr s2) hr
  | other h1 _ ih =>
    unfold World.run at hr
    obtain ⟨a, ha, hr⟩ := bind_ok hr
    have hab := step_other hz bld h h1 (hops _ (by simp)) ha
    have s1 := (step_ok (PartOf.valid h).1 (hops _ (by simp)) ha).2
    exact ih hab (fun o hm => (hops o (by simp [hm])).congr s1) hops' hr

/-- If every call concerns one of the parts, and no part panics, then the large filter does not panic. -/
theorem run_parts (hz : Spec.ZeroExact T) (bld : Build) {ι : Type} {κ : ι → Nat} {p : ∀ i, Fin (κ i) → Fin n} (hp : ∀ i, StrictMono (p i))
    {g : ι → Spec.Share} {ls ms : List Nat} {w : World n T} {v : ∀ i, World (κ i) T} (h : ∀ i, World.PartOf (p i) (g i) ls ms w (v i))
    {ops : List (Op T)} {ops' : ι → List (Op T)} (ho : ∀ i, Spec.OpsPart (p i) (g i) ls ms ops (ops' i))
    (hc : ∀ op ∈ ops, ∃ i, ¬ Spec.OpOther (p i) (g i) ls ms op)
    (hops : ∀ op ∈ ops, op.WellFormed w) (hops' : ∀ i, ∀ op ∈ ops' i, op.WellFormed (v i)) (hr : ∀ i, ∃ v', (v i).run bld (ops' i) = .ok v') :
    ∃ w', w.run bld ops = .ok w' := by
  induction ops generalizing w v ops' with
  | nil => exact ⟨w, rfl⟩
  | cons op ops ih =>
    obtain ⟨i0, hi0⟩ := hc op (by simp)
    have hw : ∃ a, w.step bld op = .ok a := by
      have := ho i0
      have hw' := hops' i0
      obtain ⟨v', hv'⟩ := hr i0
      generalize ops' i0 = l at *
      cases this with
      | part h1 h2 =>
        unfold World.run at hv'
        obtain ⟨b, hb, _⟩ := bind_ok hv'
        rcases step_part hz bld (hp i0) (h i0) h1 (hops _ (by simp)) (hw' _ (by simp)) with ⟨e, _, he⟩ | ⟨a', b, ha', _, _⟩
        · rw [hb] at he; cases he
        · exact ⟨a', ha'⟩
      | other h1 h2 => exact absurd h1 hi0
    obtain ⟨a, ha⟩ := hw
    have next : ∀ i, ∃ (u : World (κ i) T) (l : List (Op T)), World.PartOf (p i) (g i) ls ms a u ∧ Spec.OpsPart (p i) (g i) ls ms ops l ∧
        (∀ o ∈ l, o.WellFormed u) ∧ ∃ v', u.run bld l = .ok v' := by
      intro i
      have := ho i
      have hw' := hops' i
      obtain ⟨v', hv'⟩ := hr i
      generalize ops' i = l at *
      cases this with
      | part h1 h2 =>
        unfold World.run at hv'
        obtain ⟨b, hb, hv'⟩ := bind_ok hv'
        rcases step_part hz bld (hp i) (h i) h1 (hops _ (by simp)) (hw' _ (by simp)) with ⟨e, _, he⟩ | ⟨a', b', ha', hb', hab⟩
        · rw [hb] at he; cases he
        · rw [ha] at ha'; cases ha'
          rw [hb] at hb'; cases hb'
          have s2 := (step_ok (PartOf.valid (h i)).2 (hw' _ (by simp)) hb).2
          exact ⟨b, _, hab, h2, fun o hm => (hw' o (by simp [hm])).congr s2, v', hv'⟩
      | other h1 h2 => exact ⟨v i, _, step_other hz bld (h i) h1 (hops _ (by simp)) ha, h2, hw', v', hv'⟩
    choose u l q1 q2 q3 q4 using next
    have s1 := (step_ok (PartOf.valid (h i0)).1 (hops _ (by simp)) ha).2
    obtain ⟨w', hw'⟩ := ih q1 q2 (fun o hm => hc o (by simp [hm])) (fun o hm => (hops o (by simp [hm])).congr s1) q3 q4
    refine ⟨w', ?_⟩
    unfold World.run
    rw [ha]
    exact hw'

end Steps
end Minikalman
