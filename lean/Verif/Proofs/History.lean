import Verif.Spec.History
import Verif.Proofs.Steps
import Verif.Proofs.Riccati

/-! # Histories: helper lemmas -/

set_option linter.unusedSectionVars false

namespace Minikalman

open Matrix

variable {T : Type} {R C n l m : Nat}

theorem map_set_same {α β : Type} {f : α → β} {s : List α} {i : Nat} {c c' : α} (h : s[i]? = some c)
    (hf : f c' = f c) : (s.set i c').map f = s.map f := by
  apply List.ext_getElem?
  intro k
  simp only [List.getElem?_map, List.getElem?_set]
  by_cases hk : i = k
  · subst hk
    have hlt := (List.getElem?_eq_some_iff.mp h).1
    simp [hlt, hf, (List.getElem?_eq_some_iff.mp h).2]
  · simp [hk]

theorem World.SameShape.refl (w : World n T) : w.SameShape w := ⟨rfl, rfl, rfl, rfl, rfl, rfl⟩

theorem World.SameShape.trans {w w' w'' : World n T} (h : w.SameShape w') (h' : w'.SameShape w'') : w.SameShape w'' :=
  ⟨h'.x.trans h.x, h'.A.trans h.A, h'.P.trans h.P, h'.Q.trans h.Q, h'.ctl.trans h.ctl, h'.obs.trans h.obs⟩

theorem World.SameShape.symm {w w' : World n T} (h : w.SameShape w') : w'.SameShape w :=
  ⟨h.x.symm, h.A.symm, h.P.symm, h.Q.symm, h.ctl.symm, h.obs.symm⟩

theorem shape_ctl_get {w w' : World n T} (h : w.SameShape w') {β : Type} (g : Nat × Nat × Nat × Nat → β) (i : Nat) :
    (w'.ctl[i]?.map fun c => g (ctlShape c)) = w.ctl[i]?.map fun c => g (ctlShape c) := by
  have := congrArg (fun s => s[i]?.map g) h.ctl
  simpa [List.getElem?_map, Option.map_map, Function.comp_def] using this

theorem shape_obs_get {w w' : World n T} (h : w.SameShape w') {β : Type} (g : Nat × Nat × Nat × Nat → β) (i : Nat) :
    (w'.obs[i]?.map fun c => g (obsShape c)) = w.obs[i]?.map fun c => g (obsShape c) := by
  have := congrArg (fun s => s[i]?.map g) h.obs
  simpa [List.getElem?_map, Option.map_map, Function.comp_def] using this

theorem Op.WellFormed.congr {w w' : World n T} (h : w.SameShape w') {op : Op T} (hop : op.WellFormed w) :
    op.WellFormed w' := by
  cases op with
  | predict => trivial
  | predictTuned => trivial
  | control i =>
    have := congrArg List.length h.ctl
    simp only [List.length_map] at this
    simp only [WellFormed] at hop ⊢; omega
  | correct i =>
    have := congrArg List.length h.obs
    simp only [List.length_map] at this
    simp only [WellFormed] at hop ⊢; omega
  | setX v => exact hop.trans h.x.symm
  | setA v => exact hop.trans h.A.symm
  | setP v => exact hop.trans h.P.symm
  | setQ v => exact hop.trans h.Q.symm
  | setU i v => exact (shape_ctl_get h (fun s => s.2.1) i).trans hop
  | setB i v => exact (shape_ctl_get h (fun s => s.2.2.1) i).trans hop
  | setQc i v => exact (shape_ctl_get h (fun s => s.2.2.2) i).trans hop
  | setZ i v => exact (shape_obs_get h (fun s => s.2.1) i).trans hop
  | setH i v => exact (shape_obs_get h (fun s => s.2.2.1) i).trans hop
  | setR i v => exact (shape_obs_get h (fun s => s.2.2.2) i).trans hop

theorem map_len_some {α : Type} {o : Option α} {f : α → Nat} {k : Nat} (h : o.map f = some k) :
    ∃ c, o = some c ∧ k = f c := by
  cases o with
  | none => cases h
  | some c => exact ⟨c, rfl, by simpa using h.symm⟩

theorem copyFromSlice_ok {M : Mat R C T} {v : List T} (h : v.length = M.data.length) :
    M.copyFromSlice v = .ok ⟨v⟩ := by
  unfold Mat.copyFromSlice
  rw [if_pos h]

theorem Control.Frame.shape {c c' : Control n l T} (h : c.Frame c') : ctlShape ⟨l, c'⟩ = ctlShape ⟨l, c⟩ := by
  simp [ctlShape, h.B, h.u, h.Q]

theorem RegularObservation.Frame.shape {o o' : RegularObservation n m T} (h : o.Frame o') :
    obsShape ⟨m, o'⟩ = obsShape ⟨m, o⟩ := by
  simp [obsShape, h.H, h.z, h.R]

theorem valid_set_ctl {w : World n T} (hw : w.Valid) {i : Nat} {c : (l : Nat) × Control n l T} (hc : c.2.Valid) :
    ∀ d ∈ w.ctl.set i c, d.2.Valid := by
  intro d hd
  rcases List.mem_or_eq_of_mem_set hd with h | rfl
  · exact hw.ctl d h
  · exact hc

theorem valid_set_obs {w : World n T} (hw : w.Valid) {i : Nat} {c : (m : Nat) × RegularObservation n m T}
    (hc : 0 < c.1 ∧ c.2.Valid) : ∀ d ∈ w.obs.set i c, 0 < d.1 ∧ d.2.Valid := by
  intro d hd
  rcases List.mem_or_eq_of_mem_set hd with h | rfl
  · exact hw.obs d h
  · exact hc

section Safe
variable [Zero T] [One T] [Add T] [Sub T] [Mul T] [Neg T] [MDT T]

theorem control_safe {f : RegularKalman n T} {c : Control n l T} (hn : 0 < n) (hf : f.Valid) (hc : c.Valid) :
    ∃ f' c', f.control c = .ok (f', c') ∧ f.Frame f' ∧ c.Frame c' := by
  by_cases h0 : l = 0
  · have h1 := control_empty (c := c) (Or.inl h0) f.x f.P
    refine ⟨f, c, ?_, RegularKalman.Frame.refl f, Control.Frame.refl c⟩
    unfold RegularKalman.control
    rw [h1]; rfl
  · obtain ⟨c', x', P', h1, h2, h3, h4, h5, h6⟩ :=
      control_any hn (by omega) hc hc.B.reps hc.u.repsV hc.Q.reps hf.x.repsV hf.P.reps
    refine ⟨{ f with x := x', P := P' }, c', ?_, frame_xP h5 h6, h4⟩
    unfold RegularKalman.control
    rw [h1]; rfl

theorem kcorrect_safe (bld : Build) {f : RegularKalman n T} {o : RegularObservation n m T} (hn : 0 < n) (hm : 0 < m)
    (hf : f.Valid) (ho : o.Valid) :
    Safe (ScalarPanic T) (f.correct bld o) (fun r => f.Frame r.1 ∧ o.Frame r.2) := by
  unfold RegularKalman.correct
  refine (correct_safe bld hn hm ho hf.x hf.P).bind ?_
  rintro ⟨o', x', P'⟩ ⟨h1, h2, h3⟩
  exact Safe.pure ⟨frame_xP h2 h3, h1⟩

theorem step_safe (bld : Build) {w : World n T} (hw : w.Valid) {op : Op T} (hop : op.WellFormed w) :
    Safe (ScalarPanic T) (w.step bld op) (fun w' => w'.Valid ∧ w.SameShape w') := by
  have hkf := hw.kf
  have framed : ∀ f', w.kf.Frame f' →
      ({ w with kf := f' } : World n T).Valid ∧ w.SameShape { w with kf := f' } := fun f' hF =>
    ⟨⟨hw.states, hF.valid hkf, hw.ctl, hw.obs⟩, hF.x.1, congrArg (fun M : Mat n n T => M.data.length) hF.A, hF.P.1,
      congrArg (fun M : Mat n n T => M.data.length) hF.Q, rfl, rfl⟩
  cases op with
  | predict =>
    obtain ⟨f', h1, _, _, h4⟩ := predict_any hw.states hkf hkf.x.repsV hkf.A.reps hkf.P.reps hkf.Q.reps
    simp only [World.step, h1, res_bind_ok]
    exact Safe.pure (framed f' h4)
  | predictTuned lambda =>
    cases hr : MDT.recip (lambda * lambda) with
    | error e =>
      simp only [World.step, predictTuned_error hw.states hkf lambda hr]
      exact Or.inl ⟨e, rfl, _, Or.inl hr⟩
    | ok φ =>
      obtain ⟨f', h1, _, _, h4⟩ :=
        predictTuned_any hw.states hkf lambda hr hkf.x.repsV hkf.A.reps hkf.P.reps hkf.Q.reps
      simp only [World.step, h1, res_bind_ok]
      exact Safe.pure (framed f' h4)
  | control i =>
    have hi : w.ctl[i]? = some w.ctl[i] := List.getElem?_eq_getElem hop
    obtain ⟨l, c⟩ := w.ctl[i]
    have hc := hw.ctl _ (List.mem_of_getElem? hi)
    obtain ⟨f', c', h1, h2, h3⟩ := control_safe hw.states hkf hc
    simp only [World.step, hi, h1, res_bind_ok]
    refine Safe.pure ⟨⟨hw.states, h2.valid hkf, valid_set_ctl hw (h3.valid hc), hw.obs⟩, ?_⟩
    exact ⟨h2.x.1, (framed f' h2).2.A, h2.P.1, (framed f' h2).2.Q, map_set_same hi h3.shape, rfl⟩
  | correct i =>
    have hi : w.obs[i]? = some w.obs[i] := List.getElem?_eq_getElem hop
    obtain ⟨m, o⟩ := w.obs[i]
    have ho := hw.obs _ (List.mem_of_getElem? hi)
    simp only [World.step, hi]
    refine (kcorrect_safe bld hw.states ho.1 hkf ho.2).bind ?_
    rintro ⟨f', o'⟩ ⟨h2, h3⟩
    refine Safe.pure ⟨⟨hw.states, h2.valid hkf, hw.ctl, valid_set_obs hw ⟨ho.1, h3.valid ho.2⟩⟩, ?_⟩
    exact ⟨h2.x.1, (framed f' h2).2.A, h2.P.1, (framed f' h2).2.Q, rfl, map_set_same hi h3.shape⟩
  | setX v =>
    simp only [World.step, copyFromSlice_ok hop, res_bind_ok]
    exact Safe.pure ⟨⟨hw.states, ⟨hkf.x.trans_eq hop.symm, hkf.A, hkf.P, hkf.Q, hkf.predictedX, hkf.tempP⟩, hw.ctl, hw.obs⟩,
      hop, rfl, rfl, rfl, rfl, rfl⟩
  | setA v =>
    simp only [World.step, copyFromSlice_ok hop, res_bind_ok]
    exact Safe.pure ⟨⟨hw.states, ⟨hkf.x, hkf.A.trans_eq hop.symm, hkf.P, hkf.Q, hkf.predictedX, hkf.tempP⟩, hw.ctl, hw.obs⟩,
      rfl, hop, rfl, rfl, rfl, rfl⟩
  | setP v =>
    simp only [World.step, copyFromSlice_ok hop, res_bind_ok]
    exact Safe.pure ⟨⟨hw.states, ⟨hkf.x, hkf.A, hkf.P.trans_eq hop.symm, hkf.Q, hkf.predictedX, hkf.tempP⟩, hw.ctl, hw.obs⟩,
      rfl, rfl, hop, rfl, rfl, rfl⟩
  | setQ v =>
    simp only [World.step, copyFromSlice_ok hop, res_bind_ok]
    exact Safe.pure ⟨⟨hw.states, ⟨hkf.x, hkf.A, hkf.P, hkf.Q.trans_eq hop.symm, hkf.predictedX, hkf.tempP⟩, hw.ctl, hw.obs⟩,
      rfl, rfl, rfl, hop, rfl, rfl⟩
  | setU i v =>
    obtain ⟨⟨l, c⟩, hi, hl⟩ := map_len_some hop
    have hc := hw.ctl _ (List.mem_of_getElem? hi)
    simp only [World.step, World.withCtl, hi, copyFromSlice_ok hl, res_bind_ok, pure_bind]
    refine Safe.pure ⟨⟨hw.states, hkf, valid_set_ctl hw ⟨hc.B, hc.u.trans_eq hl.symm, hc.Q, hc.tempBQ⟩, hw.obs⟩,
      rfl, rfl, rfl, rfl, map_set_same hi ?_, rfl⟩
    simp only [ctlShape, hl]
  | setB i v =>
    obtain ⟨⟨l, c⟩, hi, hl⟩ := map_len_some hop
    have hc := hw.ctl _ (List.mem_of_getElem? hi)
    simp only [World.step, World.withCtl, hi, copyFromSlice_ok hl, res_bind_ok, pure_bind]
    refine Safe.pure ⟨⟨hw.states, hkf, valid_set_ctl hw ⟨hc.B.trans_eq hl.symm, hc.u, hc.Q, hc.tempBQ⟩, hw.obs⟩,
      rfl, rfl, rfl, rfl, map_set_same hi ?_, rfl⟩
    simp only [ctlShape, hl]
  | setQc i v =>
    obtain ⟨⟨l, c⟩, hi, hl⟩ := map_len_some hop
    have hc := hw.ctl _ (List.mem_of_getElem? hi)
    simp only [World.step, World.withCtl, hi, copyFromSlice_ok hl, res_bind_ok, pure_bind]
    refine Safe.pure ⟨⟨hw.states, hkf, valid_set_ctl hw ⟨hc.B, hc.u, hc.Q.trans_eq hl.symm, hc.tempBQ⟩, hw.obs⟩,
      rfl, rfl, rfl, rfl, map_set_same hi ?_, rfl⟩
    simp only [ctlShape, hl]
  | setZ i v =>
    obtain ⟨⟨m, o⟩, hi, hl⟩ := map_len_some hop
    have ho := hw.obs _ (List.mem_of_getElem? hi)
    simp only [World.step, World.withObs, hi, copyFromSlice_ok hl, res_bind_ok, pure_bind]
    refine Safe.pure ⟨⟨hw.states, hkf, hw.ctl, valid_set_obs hw ⟨ho.1, ho.2.H, ho.2.z.trans_eq hl.symm, ho.2.R, ho.2.y, ho.2.S, ho.2.K,
      ho.2.tempSInv, ho.2.tempHP, ho.2.tempPHt, ho.2.tempKHP⟩⟩, rfl, rfl, rfl, rfl, rfl, map_set_same hi ?_⟩
    simp only [obsShape, hl]
  | setH i v =>
    obtain ⟨⟨m, o⟩, hi, hl⟩ := map_len_some hop
    have ho := hw.obs _ (List.mem_of_getElem? hi)
    simp only [World.step, World.withObs, hi, copyFromSlice_ok hl, res_bind_ok, pure_bind]
    refine Safe.pure ⟨⟨hw.states, hkf, hw.ctl, valid_set_obs hw ⟨ho.1, ho.2.H.trans_eq hl.symm, ho.2.z, ho.2.R, ho.2.y, ho.2.S, ho.2.K,
      ho.2.tempSInv, ho.2.tempHP, ho.2.tempPHt, ho.2.tempKHP⟩⟩, rfl, rfl, rfl, rfl, rfl, map_set_same hi ?_⟩
    simp only [obsShape, hl]
  | setR i v =>
    obtain ⟨⟨m, o⟩, hi, hl⟩ := map_len_some hop
    have ho := hw.obs _ (List.mem_of_getElem? hi)
    simp only [World.step, World.withObs, hi, copyFromSlice_ok hl, res_bind_ok, pure_bind]
    refine Safe.pure ⟨⟨hw.states, hkf, hw.ctl, valid_set_obs hw ⟨ho.1, ho.2.H, ho.2.z, ho.2.R.trans_eq hl.symm, ho.2.y, ho.2.S, ho.2.K,
      ho.2.tempSInv, ho.2.tempHP, ho.2.tempPHt, ho.2.tempKHP⟩⟩, rfl, rfl, rfl, rfl, rfl, map_set_same hi ?_⟩
    simp only [obsShape, hl]

theorem run_safe (bld : Build) {w : World n T} (hw : w.Valid) {ops : List (Op T)} (hops : ∀ op ∈ ops, op.WellFormed w) :
    Safe (ScalarPanic T) (w.run bld ops) (fun w' => w'.Valid ∧ w.SameShape w') := by
  induction ops generalizing w with
  | nil => exact Safe.ok ⟨hw, World.SameShape.refl w⟩
  | cons op ops ih =>
    unfold World.run
    refine (step_safe bld hw (hops op (by simp))).bind ?_
    rintro w' ⟨h1, h2⟩
    exact (ih h1 fun op' h => (hops op' (by simp [h])).congr h2).mono fun w'' h => ⟨h.1, h2.trans h.2⟩

end Safe

/-! ## Refinement of the textbook filter -/

theorem forall₂_get {α β : Type} {Q : α → β → Prop} {s : List α} {t : List β} (h : List.Forall₂ Q s t) {i : Nat} {a : α}
    (hi : s[i]? = some a) : ∃ b, t[i]? = some b ∧ Q a b := by
  induction h generalizing i with
  | nil => simp at hi
  | cons hab _ ih =>
    cases i with
    | zero => simp at hi; subst hi; exact ⟨_, by simp, hab⟩
    | succ i => simpa using ih (by simpa using hi)

theorem forall₂_set {α β : Type} {Q : α → β → Prop} {s : List α} {t : List β} (h : List.Forall₂ Q s t) (i : Nat) {a : α}
    {b : β} (hab : Q a b) : List.Forall₂ Q (s.set i a) (t.set i b) := by
  induction h generalizing i with
  | nil => simp
  | cons hab' hs ih =>
    cases i with
    | zero => exact .cons hab hs
    | succ i => exact .cons hab' (ih i)

theorem forall₂_set_left {α β : Type} {Q : α → β → Prop} {s : List α} {t : List β} (h : List.Forall₂ Q s t) {i : Nat}
    {a : α} {b : β} (hi : t[i]? = some b) (hab : Q a b) : List.Forall₂ Q (s.set i a) t := by
  have := forall₂_set h i hab
  have e : t.set i b = t := by
    obtain ⟨hlt, he⟩ := List.getElem?_eq_some_iff.mp hi
    rw [← he]; exact List.set_getElem_self hlt
  rwa [e] at this

theorem World.Reps.valid {w : World n T} {s : Spec.State n T} (h : w.Reps s) : w.Valid := by
  refine ⟨h.states, h.kf.valid, fun c hc => ?_, fun o ho => ?_⟩
  · obtain ⟨i, hi⟩ := List.mem_iff_getElem?.mp hc
    obtain ⟨d, _, hd⟩ := forall₂_get h.ctl hi
    cases hd with | mk hd => exact hd.valid
  · obtain ⟨i, hi⟩ := List.mem_iff_getElem?.mp ho
    obtain ⟨d, _, hd⟩ := forall₂_get h.obs hi
    cases hd with | mk hm hd => exact ⟨hm, hd.valid⟩

theorem reps_matOf [Zero T] {v : List T} (h : R * C ≤ v.length) : (⟨v⟩ : Mat R C T).Reps (Spec.matOf v) := by
  intro i j
  have : (i : Nat) * C + j < v.length := lt_of_lt_of_le (idx_lt i.2 j.2) h
  simp [Spec.matOf, this]

theorem repsV_vecOf [Zero T] {v : List T} (h : n * 1 ≤ v.length) : (⟨v⟩ : Mat n 1 T).RepsV (Spec.vecOf v) := by
  intro i
  have : (i : Nat) < v.length := by omega
  simp [Spec.vecOf, this]

section Refine
variable [MDT ℝ] [ExactReal]

theorem refines_of {bld : Build} {w w' : World n ℝ} {s s' : Spec.State n ℝ} {op : Op ℝ} (e1 : w.step bld op = .ok w')
    (e2 : s.step op = some s') (r : w'.Reps s') :
    ∃ w' s', w.step bld op = .ok w' ∧ s.step op = some s' ∧ w'.Reps s' := ⟨w', s', e1, e2, r⟩

theorem step_refines (bld : Build) {w : World n ℝ} {s : Spec.State n ℝ} (h : w.Reps s) {op : Op ℝ}
    (hop : op.WellFormed w) (hr : s.Regular op) :
    ∃ w' s', w.step bld op = .ok w' ∧ s.step op = some s' ∧ w'.Reps s' ∧ w.SameShape w' := by
  suffices hh : ∃ w' s', w.step bld op = .ok w' ∧ s.step op = some s' ∧ w'.Reps s' by
    obtain ⟨w', s', h1, h2, h3⟩ := hh
    rcases step_safe bld h.valid hop with ⟨e, he, _⟩ | ⟨w'', h4, h5⟩
    · rw [h1] at he; cases he
    · rw [h1] at h4; cases h4
      exact ⟨w', s', h1, h2, h3, h5.2⟩
  have hv := h.valid
  have hk := h.kf
  cases op with
  | predict =>
    obtain ⟨f', h1, h2, _⟩ := predict_exact h.states hk
    apply refines_of
    case e1 =>
      simp only [World.step, h1, res_bind_ok]
      rfl
    case e2 =>
      rfl
    case r => exact ⟨h.states, h2, h.ctl, h.obs⟩
  | predictTuned lambda =>
    obtain ⟨f', h1, h2, _⟩ := predictTuned_exact h.states lambda hr hk
    apply refines_of
    case e1 =>
      simp only [World.step, h1, res_bind_ok]
      rfl
    case e2 =>
      rfl
    case r => exact ⟨h.states, h2, h.ctl, h.obs⟩
  | control i =>
    have hi : w.ctl[i]? = some w.ctl[i] := List.getElem?_eq_getElem hop
    obtain ⟨d, hd, hcd⟩ := forall₂_get h.ctl hi
    revert hi hcd
    generalize w.ctl[i] = c
    intro hi hcd
    cases hcd with | @mk l c d hc =>
    obtain ⟨f', c', h1, h2, _, _, h5⟩ := control_exact hk hc
    apply refines_of
    case e1 =>
      simp only [World.step, hi, h1, res_bind_ok]
      rfl
    case e2 =>
      simp only [Spec.State.step, hd]
      rfl
    case r => exact ⟨h.states, h2, forall₂_set_left h.ctl hd (.mk h5), h.obs⟩
  | correct i =>
    have hi : w.obs[i]? = some w.obs[i] := List.getElem?_eq_getElem hop
    obtain ⟨d, hd, hcd⟩ := forall₂_get h.obs hi
    revert hi hcd
    generalize w.obs[i] = c
    intro hi hcd
    cases hcd with | @mk m o p hm ho =>
    obtain ⟨f', o', h1, h2, _, _, h5, _⟩ := kcorrect_exact bld h.states hm hk ho (hr _ hd)
    apply refines_of
    case e1 =>
      simp only [World.step, hi, h1, res_bind_ok]
      rfl
    case e2 =>
      simp only [Spec.State.step, hd]
      rfl
    case r => exact ⟨h.states, h2, h.ctl, forall₂_set_left h.obs hd (.mk hm h5)⟩
  | setX v =>
    apply refines_of
    case e1 =>
      simp only [World.step, copyFromSlice_ok hop, res_bind_ok]
      rfl
    case e2 =>
      rfl
    case r => exact ⟨h.states,
      ⟨repsV_vecOf (hv.kf.x.trans_eq hop.symm), hk.A, hk.P, hk.Q, hk.predictedX, hk.tempP⟩, h.ctl, h.obs⟩
  | setA v =>
    apply refines_of
    case e1 =>
      simp only [World.step, copyFromSlice_ok hop, res_bind_ok]
      rfl
    case e2 =>
      rfl
    case r => exact ⟨h.states,
      ⟨hk.x, reps_matOf (hv.kf.A.trans_eq hop.symm), hk.P, hk.Q, hk.predictedX, hk.tempP⟩, h.ctl, h.obs⟩
  | setP v =>
    apply refines_of
    case e1 =>
      simp only [World.step, copyFromSlice_ok hop, res_bind_ok]
      rfl
    case e2 =>
      rfl
    case r => exact ⟨h.states,
      ⟨hk.x, hk.A, reps_matOf (hv.kf.P.trans_eq hop.symm), hk.Q, hk.predictedX, hk.tempP⟩, h.ctl, h.obs⟩
  | setQ v =>
    apply refines_of
    case e1 =>
      simp only [World.step, copyFromSlice_ok hop, res_bind_ok]
      rfl
    case e2 =>
      rfl
    case r => exact ⟨h.states,
      ⟨hk.x, hk.A, hk.P, reps_matOf (hv.kf.Q.trans_eq hop.symm), hk.predictedX, hk.tempP⟩, h.ctl, h.obs⟩
  | setU i v =>
    obtain ⟨c, hi, hl⟩ := map_len_some hop
    obtain ⟨d, hd, hcd⟩ := forall₂_get h.ctl hi
    cases hcd with | @mk l c d hc =>
    apply refines_of
    case e1 =>
      simp only [World.step, World.withCtl, hi, copyFromSlice_ok hl, res_bind_ok, pure_bind]
      rfl
    case e2 =>
      simp only [Spec.State.step, hd]
      rfl
    case r => exact ⟨h.states, hk,
      forall₂_set h.ctl i (.mk ⟨hc.B, repsV_vecOf (hc.u.valid.trans_eq hl.symm), hc.Q, hc.tempBQ⟩), h.obs⟩
  | setB i v =>
    obtain ⟨c, hi, hl⟩ := map_len_some hop
    obtain ⟨d, hd, hcd⟩ := forall₂_get h.ctl hi
    cases hcd with | @mk l c d hc =>
    apply refines_of
    case e1 =>
      simp only [World.step, World.withCtl, hi, copyFromSlice_ok hl, res_bind_ok, pure_bind]
      rfl
    case e2 =>
      simp only [Spec.State.step, hd]
      rfl
    case r => exact ⟨h.states, hk,
      forall₂_set h.ctl i (.mk ⟨reps_matOf (hc.B.valid.trans_eq hl.symm), hc.u, hc.Q, hc.tempBQ⟩), h.obs⟩
  | setQc i v =>
    obtain ⟨c, hi, hl⟩ := map_len_some hop
    obtain ⟨d, hd, hcd⟩ := forall₂_get h.ctl hi
    cases hcd with | @mk l c d hc =>
    apply refines_of
    case e1 =>
      simp only [World.step, World.withCtl, hi, copyFromSlice_ok hl, res_bind_ok, pure_bind]
      rfl
    case e2 =>
      simp only [Spec.State.step, hd]
      rfl
    case r => exact ⟨h.states, hk,
      forall₂_set h.ctl i (.mk ⟨hc.B, hc.u, reps_matOf (hc.Q.valid.trans_eq hl.symm), hc.tempBQ⟩), h.obs⟩
  | setZ i v =>
    obtain ⟨c, hi, hl⟩ := map_len_some hop
    obtain ⟨d, hd, hcd⟩ := forall₂_get h.obs hi
    cases hcd with | @mk m o p hm ho =>
    apply refines_of
    case e1 =>
      simp only [World.step, World.withObs, hi, copyFromSlice_ok hl, res_bind_ok, pure_bind]
      rfl
    case e2 =>
      simp only [Spec.State.step, hd]
      rfl
    case r => exact ⟨h.states, hk, h.ctl,
      forall₂_set h.obs i (.mk hm ⟨ho.H, repsV_vecOf (ho.z.valid.trans_eq hl.symm), ho.R, ho.y, ho.S, ho.K, ho.tempSInv,
        ho.tempHP, ho.tempPHt, ho.tempKHP⟩)⟩
  | setH i v =>
    obtain ⟨c, hi, hl⟩ := map_len_some hop
    obtain ⟨d, hd, hcd⟩ := forall₂_get h.obs hi
    cases hcd with | @mk m o p hm ho =>
    apply refines_of
    case e1 =>
      simp only [World.step, World.withObs, hi, copyFromSlice_ok hl, res_bind_ok, pure_bind]
      rfl
    case e2 =>
      simp only [Spec.State.step, hd]
      rfl
    case r => exact ⟨h.states, hk, h.ctl,
      forall₂_set h.obs i (.mk hm ⟨reps_matOf (ho.H.valid.trans_eq hl.symm), ho.z, ho.R, ho.y, ho.S, ho.K, ho.tempSInv,
        ho.tempHP, ho.tempPHt, ho.tempKHP⟩)⟩
  | setR i v =>
    obtain ⟨c, hi, hl⟩ := map_len_some hop
    obtain ⟨d, hd, hcd⟩ := forall₂_get h.obs hi
    cases hcd with | @mk m o p hm ho =>
    apply refines_of
    case e1 =>
      simp only [World.step, World.withObs, hi, copyFromSlice_ok hl, res_bind_ok, pure_bind]
      rfl
    case e2 =>
      simp only [Spec.State.step, hd]
      rfl
    case r => exact ⟨h.states, hk, h.ctl,
      forall₂_set h.obs i (.mk hm ⟨ho.H, ho.z, reps_matOf (ho.R.valid.trans_eq hl.symm), ho.y, ho.S, ho.K, ho.tempSInv,
        ho.tempHP, ho.tempPHt, ho.tempKHP⟩)⟩

theorem run_refines (bld : Build) {w : World n ℝ} {s : Spec.State n ℝ} (h : w.Reps s) {ops : List (Op ℝ)}
    (hops : ∀ op ∈ ops, op.WellFormed w) (hr : s.RegularRun ops) :
    ∃ w' s', w.run bld ops = .ok w' ∧ s.run ops = some s' ∧ w'.Reps s' ∧ w.SameShape w' := by
  induction ops generalizing w s with
  | nil => exact ⟨w, s, rfl, rfl, h, World.SameShape.refl w⟩
  | cons op ops ih =>
    obtain ⟨w1, s1, h1, h2, h3, h4⟩ := step_refines bld h (hops op (by simp)) hr.1
    obtain ⟨w2, s2, h5, h6, h7, h8⟩ := ih h3 (fun op' h => (hops op' (by simp [h])).congr h4) (hr.2 s1 h2)
    refine ⟨w2, s2, ?_, ?_, h7, h4.trans h8⟩
    · simp only [World.run, h1, res_bind_ok, h5]
    · simp only [Spec.State.run, h2, Option.bind_some, h6]

end Refine

/-! ## Invariants of the textbook filter -/

/-- Dimensions of the objects never change. -/
theorem spec_step_dims [Field T] {s s' : Spec.State n T} {op : Op T} (h : s.step op = some s') :
    s'.ctl.map Sigma.fst = s.ctl.map Sigma.fst ∧ s'.obs.map Sigma.fst = s.obs.map Sigma.fst := by
  have aux : ∀ {α : Type} {o : Option α} {f : α → Spec.State n T}, o.map f = some s' → ∃ a, o = some a ∧ f a = s' := by
    intro α o f h
    cases o with
    | none => cases h
    | some a => exact ⟨a, rfl, Option.some.inj h⟩
  cases op with
  | predict => cases h; exact ⟨rfl, rfl⟩
  | predictTuned => cases h; exact ⟨rfl, rfl⟩
  | setX => cases h; exact ⟨rfl, rfl⟩
  | setA => cases h; exact ⟨rfl, rfl⟩
  | setP => cases h; exact ⟨rfl, rfl⟩
  | setQ => cases h; exact ⟨rfl, rfl⟩
  | control i => obtain ⟨c, _, rfl⟩ := aux h; exact ⟨rfl, rfl⟩
  | correct i => obtain ⟨c, _, rfl⟩ := aux h; exact ⟨rfl, rfl⟩
  | setU i v => obtain ⟨c, hc, rfl⟩ := aux h; exact ⟨map_set_same hc rfl, rfl⟩
  | setB i v => obtain ⟨c, hc, rfl⟩ := aux h; exact ⟨map_set_same hc rfl, rfl⟩
  | setQc i v => obtain ⟨c, hc, rfl⟩ := aux h; exact ⟨map_set_same hc rfl, rfl⟩
  | setZ i v => obtain ⟨c, hc, rfl⟩ := aux h; exact ⟨rfl, map_set_same hc rfl⟩
  | setH i v => obtain ⟨c, hc, rfl⟩ := aux h; exact ⟨rfl, map_set_same hc rfl⟩
  | setR i v => obtain ⟨c, hc, rfl⟩ := aux h; exact ⟨rfl, map_set_same hc rfl⟩

theorem covData_congr {G G' : ∀ {k : Nat}, Matrix (Fin k) (Fin k) ℝ → Prop} {s s' : Spec.State n ℝ} {op op' : Op ℝ}
    (h : s.step op = some s') (hd : s.CovData G G' op') : s'.CovData G G' op' := by
  obtain ⟨h1, h2⟩ := spec_step_dims h
  cases op' <;> simp only [Spec.State.CovData] at hd ⊢
  case setP => exact hd
  case setQ => exact hd
  case setQc => rw [h1]; exact hd
  case setR => rw [h2]; exact hd

theorem mem_set_imp {α : Type} {Q : α → Prop} {s : List α} {i : Nat} {b : α} (h : ∀ a ∈ s, Q a) (hb : Q b) :
    ∀ a ∈ s.set i b, Q a := by
  intro a ha
  rcases List.mem_or_eq_of_mem_set ha with h' | rfl
  · exact h a h'
  · exact hb

/-- Closure conditions that make `Cov G G'` an invariant. -/
structure CovClosed (G G' : ∀ {k : Nat}, Matrix (Fin k) (Fin k) ℝ → Prop) : Prop where
  predP : ∀ {n : Nat} {A P Q : Matrix (Fin n) (Fin n) ℝ}, G P → G Q → G (Spec.predP A P Q)
  predPTuned : ∀ {n : Nat} {A P Q : Matrix (Fin n) (Fin n) ℝ} (lambda : ℝ), G P → G Q →
    G (Spec.predPTuned lambda A P Q)
  ctlP : ∀ {n l : Nat} {B : Matrix (Fin n) (Fin l) ℝ} {P Q}, G P → G Q → G (Spec.ctlP B Q P)
  corrP : ∀ {n m : Nat} {H : Matrix (Fin m) (Fin n) ℝ} {P R}, G P → G' R → (Spec.innovCov H P R).PosDef →
    G (Spec.corrP H P R)

theorem step_cov_inv {G G' : ∀ {k : Nat}, Matrix (Fin k) (Fin k) ℝ → Prop} (hG : CovClosed G G') {s s' : Spec.State n ℝ}
    {op : Op ℝ} (h : s.step op = some s') (hs : s.Cov G G') (hd : s.CovData G G' op) (hr : s.Regular op) :
    s'.Cov G G' := by
  have aux : ∀ {α : Type} {o : Option α} {f : α → Spec.State n ℝ}, o.map f = some s' → ∃ a, o = some a ∧ f a = s' := by
    intro α o f h
    cases o with
    | none => cases h
    | some a => exact ⟨a, rfl, Option.some.inj h⟩
  cases op with
  | predict => cases h; exact ⟨hG.predP hs.P hs.Q, hs.Q, hs.ctl, hs.obs⟩
  | predictTuned => cases h; exact ⟨hG.predPTuned _ hs.P hs.Q, hs.Q, hs.ctl, hs.obs⟩
  | setX => cases h; exact ⟨hs.P, hs.Q, hs.ctl, hs.obs⟩
  | setA => cases h; exact ⟨hs.P, hs.Q, hs.ctl, hs.obs⟩
  | setP => cases h; exact ⟨hd, hs.Q, hs.ctl, hs.obs⟩
  | setQ => cases h; exact ⟨hs.P, hd, hs.ctl, hs.obs⟩
  | control i =>
    obtain ⟨c, hc, rfl⟩ := aux h
    exact ⟨hG.ctlP hs.P (hs.ctl c (List.mem_of_getElem? hc)), hs.Q, hs.ctl, hs.obs⟩
  | correct i =>
    obtain ⟨c, hc, rfl⟩ := aux h
    exact ⟨hG.corrP hs.P (hs.obs c (List.mem_of_getElem? hc)) (hr c hc), hs.Q, hs.ctl, hs.obs⟩
  | setU i v =>
    obtain ⟨c, hc, rfl⟩ := aux h
    exact ⟨hs.P, hs.Q, mem_set_imp hs.ctl (hs.ctl c (List.mem_of_getElem? hc)), hs.obs⟩
  | setB i v =>
    obtain ⟨c, hc, rfl⟩ := aux h
    exact ⟨hs.P, hs.Q, mem_set_imp hs.ctl (hs.ctl c (List.mem_of_getElem? hc)), hs.obs⟩
  | setQc i v =>
    obtain ⟨c, hc, rfl⟩ := aux h
    exact ⟨hs.P, hs.Q, mem_set_imp hs.ctl (hd c.1 (by simp [hc])), hs.obs⟩
  | setZ i v =>
    obtain ⟨c, hc, rfl⟩ := aux h
    exact ⟨hs.P, hs.Q, hs.ctl, mem_set_imp hs.obs (hs.obs c (List.mem_of_getElem? hc))⟩
  | setH i v =>
    obtain ⟨c, hc, rfl⟩ := aux h
    exact ⟨hs.P, hs.Q, hs.ctl, mem_set_imp hs.obs (hs.obs c (List.mem_of_getElem? hc))⟩
  | setR i v =>
    obtain ⟨c, hc, rfl⟩ := aux h
    exact ⟨hs.P, hs.Q, hs.ctl, mem_set_imp hs.obs (hd c.1 (by simp [hc]))⟩

theorem run_cov_inv {G G' : ∀ {k : Nat}, Matrix (Fin k) (Fin k) ℝ → Prop} (hG : CovClosed G G') {s s' : Spec.State n ℝ}
    {ops : List (Op ℝ)} (h : s.run ops = some s') (hs : s.Cov G G') (hd : ∀ op ∈ ops, s.CovData G G' op)
    (hr : s.RegularRun ops) : s'.Cov G G' := by
  induction ops generalizing s with
  | nil => cases h; exact hs
  | cons op ops ih =>
    simp only [Spec.State.run] at h
    cases h1 : s.step op with
    | none => rw [h1] at h; cases h
    | some s1 =>
      rw [h1] at h
      exact ih h (step_cov_inv hG h1 hs (hd op (by simp)) hr.1) (fun o ho => covData_congr h1 (hd o (by simp [ho])))
        (hr.2 s1 h1)

theorem symm_closed : CovClosed Matrix.IsSymm Matrix.IsSymm :=
  ⟨fun hP hQ => predP_symm hP hQ, fun lambda hP hQ => predPTuned_symm lambda hP hQ, fun hP hQ => ctlP_symm hP hQ,
    fun hP hR hS => corrP_symm hP hR (pd_det hS)⟩

theorem psd_closed : CovClosed Matrix.PosSemidef Matrix.PosDef :=
  ⟨fun hP hQ => predP_psd hP hQ, fun lambda hP hQ => predPTuned_psd lambda hP hQ, fun hP hQ => ctlP_psd hP hQ,
    fun hP hR hS => corrP_psd hP hR.posSemidef (pd_det hS)⟩

theorem psd_regular {s : Spec.State n ℝ} {op : Op ℝ} (hs : s.Psd) (hl : op.NonzeroLambda) : s.Regular op := by
  cases op with
  | predictTuned => exact hl
  | correct i => exact fun o ho => innovCov_pd hs.P (hs.obs o (List.mem_of_getElem? ho))
  | _ => trivial

theorem psd_regularRun {s : Spec.State n ℝ} {ops : List (Op ℝ)} (hs : s.Psd) (hl : ∀ op ∈ ops, op.NonzeroLambda)
    (hd : ∀ op ∈ ops, s.PsdData op) : s.RegularRun ops := by
  induction ops generalizing s with
  | nil => trivial
  | cons op ops ih =>
    have hr := psd_regular hs (hl op (by simp))
    exact ⟨hr, fun s' h => ih (step_cov_inv psd_closed h hs (hd op (by simp)) hr) (fun o ho => hl o (by simp [ho]))
      (fun o ho => covData_congr h (hd o (by simp [ho])))⟩

end Minikalman
