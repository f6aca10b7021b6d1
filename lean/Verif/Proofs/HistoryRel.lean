import Verif.Proofs.History

/-! # Pairs and triples of histories: helper lemmas -/

set_option linter.unusedSectionVars false

namespace Minikalman

open Matrix

variable {T : Type} {R C n l m : Nat}

theorem agree_matrices {a b : Mat R C T} (ha : a.Agree b) {X} (h : a.Reps X) : b.Reps X := ha.reps h

section Any
variable [Zero T] [One T] [Add T] [Sub T] [Mul T] [Neg T] [MDT T]

theorem control_cov {f g : RegularKalman n T} {c d : Control n l T} (hn : 0 < n) (hf : f.Valid) (hg : g.Valid)
    (hc : c.Valid) (hd : d.Valid) (hB : c.B.Agree d.B) (hQ : c.Q.Agree d.Q) (hP : f.P.Agree g.P) :
    ∃ f' c' g' d', f.control c = .ok (f', c') ∧ g.control d = .ok (g', d') ∧ f.Frame f' ∧ c.Frame c' ∧ g.Frame g' ∧
      d.Frame d' ∧ f'.P.Agree g'.P := by
  by_cases h0 : l = 0
  · refine ⟨f, c, g, d, ?_, ?_, .refl f, .refl c, .refl g, .refl d, hP⟩
    · unfold RegularKalman.control
      rw [control_empty (c := c) (Or.inl h0) f.x f.P]; rfl
    · unfold RegularKalman.control
      rw [control_empty (c := d) (Or.inl h0) g.x g.P]; rfl
  · obtain ⟨c', x', P', h1, _, h3, h4, h5, h6⟩ :=
      control_any hn (by omega) hc hc.B.reps hc.u.repsV hc.Q.reps hf.x.repsV hf.P.reps
    obtain ⟨d', y', Q', k1, _, k3, k4, k5, k6⟩ :=
      control_any hn (by omega) hd (hB.reps hc.B.reps) hd.u.repsV (hQ.reps hc.Q.reps) hg.x.repsV (hP.reps hf.P.reps)
    refine ⟨{ f with x := x', P := P' }, c', { g with x := y', P := Q' }, d', ?_, ?_, frame_xP h5 h6, h4,
      frame_xP k5 k6, k4, h3.agree k3⟩
    · unfold RegularKalman.control
      rw [h1]; rfl
    · unfold RegularKalman.control
      rw [k1]; rfl

theorem kcorrect_cov (bld : Build) {f g : RegularKalman n T} {o p : RegularObservation n m T} (hn : 0 < n) (hm : 0 < m)
    (hf : f.Valid) (hg : g.Valid) (ho : o.Valid) (hp : p.Valid) (hH : o.H.Agree p.H) (hR : o.R.Agree p.R)
    (hP : f.P.Agree g.P) :
    Rel2 (f.correct bld o) (g.correct bld p) (fun a b => f.Frame a.1 ∧ g.Frame b.1 ∧ o.Frame a.2 ∧ p.Frame b.2 ∧
      a.1.P.Agree b.1.P ∧ a.2.K.Agree b.2.K ∧ a.2.S.Agree b.2.S) := by
  unfold RegularKalman.correct
  refine (correct_rel bld hn hm ho hp hf.P hH hR hP ho.H.reps hf.x.repsV ho.z.repsV hg.x.repsV hp.z.repsV).bind ?_
  rintro ⟨o', x', P'⟩ ⟨p', y', Q'⟩ ⟨h1, h2, h3, h4, h5, h6, h7, h8, _, _, _, _, _, _, K, k1, k2, _⟩
  exact Rel2.pure ⟨frame_xP h3 h5, frame_xP h4 h6, h1, h2, h7, k1.agree k2, h8⟩

/-- Result of a pair of steps. -/
theorem rel2_of_ok {α β : Type} {a : Res α} {b : Res β} {x : α} {y : β} {Q : α → β → Prop} (ha : a = .ok x)
    (hb : b = .ok y) (h : Q x y) : Rel2 a b Q := Or.inr ⟨x, y, ha, hb, h⟩

theorem agree_slice (v : List T) : (⟨v⟩ : Mat R C T).Agree ⟨v⟩ := .refl _

theorem ctlCov_get {w w' : World n T} (h : w.CovEq w') {i : Nat} {c : (l : Nat) × Control n l T}
    (hi : w.ctl[i]? = some c) : ∃ d, w'.ctl[i]? = some d ∧ CtlCovEq c d := forall₂_get h.ctl hi

theorem step_cov (bld : Build) {w w' : World n T} (hw : w.Valid) (hw' : w'.Valid) (h : w.CovEq w') {op op' : Op T}
    (hs : op.SameUpToData op') (hop : op.WellFormed w) (hop' : op'.WellFormed w') :
    Rel2 (w.step bld op) (w'.step bld op') (fun a b => a.CovEq b) := by
  have hk := hw.kf
  have hk' := hw'.kf
  have framed : ∀ f g, w.kf.Frame f → w'.kf.Frame g → f.P.Agree g.P →
      f.A.Agree g.A ∧ f.P.Agree g.P ∧ f.Q.Agree g.Q := by
    intro f g hf hg hP
    refine ⟨?_, hP, ?_⟩
    · rw [hf.A, hg.A]; exact h.A
    · rw [hf.Q, hg.Q]; exact h.Q
  cases hs with
  | setX v v' =>
    apply rel2_of_ok
    · simp only [World.step, copyFromSlice_ok hop, res_bind_ok]; rfl
    · simp only [World.step, copyFromSlice_ok hop', res_bind_ok]; rfl
    · exact ⟨h.A, h.P, h.Q, h.ctl, h.obs⟩
  | setU i v v' =>
    obtain ⟨c, hi, hl⟩ := map_len_some hop
    obtain ⟨d, hi', hl'⟩ := map_len_some hop'
    obtain ⟨d', hd', hcd⟩ := forall₂_get h.ctl hi
    obtain rfl : d = d' := by rw [hi'] at hd'; exact Option.some.inj hd'
    cases hcd with | @mk l c d hB hQ =>
    apply rel2_of_ok
    · simp only [World.step, World.withCtl, hi, copyFromSlice_ok hl, res_bind_ok, pure_bind]; rfl
    · simp only [World.step, World.withCtl, hi', copyFromSlice_ok hl', res_bind_ok, pure_bind]; rfl
    · exact ⟨h.A, h.P, h.Q, forall₂_set h.ctl i (.mk hB hQ), h.obs⟩
  | setZ i v v' =>
    obtain ⟨c, hi, hl⟩ := map_len_some hop
    obtain ⟨d, hi', hl'⟩ := map_len_some hop'
    obtain ⟨d', hd', hcd⟩ := forall₂_get h.obs hi
    obtain rfl : d = d' := by rw [hi'] at hd'; exact Option.some.inj hd'
    cases hcd with | @mk m o p hH hR =>
    apply rel2_of_ok
    · simp only [World.step, World.withObs, hi, copyFromSlice_ok hl, res_bind_ok, pure_bind]; rfl
    · simp only [World.step, World.withObs, hi', copyFromSlice_ok hl', res_bind_ok, pure_bind]; rfl
    · exact ⟨h.A, h.P, h.Q, h.ctl, forall₂_set h.obs i (.mk hH hR)⟩
  | same =>
    cases op with
    | predict =>
      obtain ⟨f, h1, _, h3, h4⟩ := predict_any hw.states hk hk.x.repsV hk.A.reps hk.P.reps hk.Q.reps
      obtain ⟨g, k1, _, k3, k4⟩ := predict_any hw.states hk' hk'.x.repsV (h.A.reps hk.A.reps) (h.P.reps hk.P.reps)
        (h.Q.reps hk.Q.reps)
      obtain ⟨a1, a2, a3⟩ := framed f g h4 k4 (h3.agree k3)
      apply rel2_of_ok
      · simp only [World.step, h1, res_bind_ok]; rfl
      · simp only [World.step, k1, res_bind_ok]; rfl
      · exact ⟨a1, a2, a3, h.ctl, h.obs⟩
    | predictTuned lambda =>
      cases hr : MDT.recip (lambda * lambda) with
      | error e =>
        simp only [World.step, predictTuned_error hw.states hk lambda hr,
          predictTuned_error hw.states hk' lambda hr]
        exact Or.inl ⟨e, rfl, rfl⟩
      | ok φ =>
        obtain ⟨f, h1, _, h3, h4⟩ :=
          predictTuned_any hw.states hk lambda hr hk.x.repsV hk.A.reps hk.P.reps hk.Q.reps
        obtain ⟨g, k1, _, k3, k4⟩ := predictTuned_any hw.states hk' lambda hr hk'.x.repsV (h.A.reps hk.A.reps)
          (h.P.reps hk.P.reps) (h.Q.reps hk.Q.reps)
        obtain ⟨a1, a2, a3⟩ := framed f g h4 k4 (h3.agree k3)
        apply rel2_of_ok
        · simp only [World.step, h1, res_bind_ok]; rfl
        · simp only [World.step, k1, res_bind_ok]; rfl
        · exact ⟨a1, a2, a3, h.ctl, h.obs⟩
    | control i =>
      have hi : w.ctl[i]? = some w.ctl[i] := List.getElem?_eq_getElem hop
      generalize w.ctl[i] = c at hi
      obtain ⟨d, hd, hcd⟩ := forall₂_get h.ctl hi
      have hcv := hw.ctl _ (List.mem_of_getElem? hi)
      have hdv := hw'.ctl _ (List.mem_of_getElem? hd)
      cases hcd with | @mk l c d hB hQ =>
      obtain ⟨f, c', g, d', e1, e2, f1, f2, f3, f4, f5⟩ := control_cov hw.states hk hk' hcv hdv hB hQ h.P
      obtain ⟨a1, a2, a3⟩ := framed f g f1 f3 f5
      apply rel2_of_ok
      · simp only [World.step, hi, e1, res_bind_ok]; rfl
      · simp only [World.step, hd, e2, res_bind_ok]; rfl
      · refine ⟨a1, a2, a3, forall₂_set h.ctl i (.mk ?_ ?_), h.obs⟩
        · rw [f2.B, f4.B]; exact hB
        · rw [f2.Q, f4.Q]; exact hQ
    | correct i =>
      have hi : w.obs[i]? = some w.obs[i] := List.getElem?_eq_getElem hop
      generalize w.obs[i] = c at hi
      obtain ⟨d, hd, hcd⟩ := forall₂_get h.obs hi
      have hov := hw.obs _ (List.mem_of_getElem? hi)
      have hpv := hw'.obs _ (List.mem_of_getElem? hd)
      cases hcd with | @mk m o p hH hR =>
      simp only [World.step, hi, hd]
      refine (kcorrect_cov bld hw.states hov.1 hk hk' hov.2 hpv.2 hH hR h.P).bind ?_
      rintro ⟨f, o'⟩ ⟨g, p'⟩ ⟨f1, f2, f3, f4, f5, _, _⟩
      obtain ⟨a1, a2, a3⟩ := framed f g f1 f2 f5
      refine Rel2.pure ⟨a1, a2, a3, h.ctl, forall₂_set h.obs i (.mk ?_ ?_)⟩
      · rw [f3.H, f4.H]; exact hH
      · rw [f3.R, f4.R]; exact hR
    | setX v =>
      apply rel2_of_ok
      · simp only [World.step, copyFromSlice_ok hop, res_bind_ok]; rfl
      · simp only [World.step, copyFromSlice_ok hop', res_bind_ok]; rfl
      · exact ⟨h.A, h.P, h.Q, h.ctl, h.obs⟩
    | setA v =>
      apply rel2_of_ok
      · simp only [World.step, copyFromSlice_ok hop, res_bind_ok]; rfl
      · simp only [World.step, copyFromSlice_ok hop', res_bind_ok]; rfl
      · exact ⟨agree_slice v, h.P, h.Q, h.ctl, h.obs⟩
    | setP v =>
      apply rel2_of_ok
      · simp only [World.step, copyFromSlice_ok hop, res_bind_ok]; rfl
      · simp only [World.step, copyFromSlice_ok hop', res_bind_ok]; rfl
      · exact ⟨h.A, agree_slice v, h.Q, h.ctl, h.obs⟩
    | setQ v =>
      apply rel2_of_ok
      · simp only [World.step, copyFromSlice_ok hop, res_bind_ok]; rfl
      · simp only [World.step, copyFromSlice_ok hop', res_bind_ok]; rfl
      · exact ⟨h.A, h.P, agree_slice v, h.ctl, h.obs⟩
    | setU i v =>
      obtain ⟨c, hi, hl⟩ := map_len_some hop
      obtain ⟨d, hi', hl'⟩ := map_len_some hop'
      obtain ⟨d', hd', hcd⟩ := forall₂_get h.ctl hi
      obtain rfl : d = d' := by rw [hi'] at hd'; exact Option.some.inj hd'
      cases hcd with | @mk l c d hB hQ =>
      apply rel2_of_ok
      · simp only [World.step, World.withCtl, hi, copyFromSlice_ok hl, res_bind_ok, pure_bind]; rfl
      · simp only [World.step, World.withCtl, hi', copyFromSlice_ok hl', res_bind_ok, pure_bind]; rfl
      · exact ⟨h.A, h.P, h.Q, forall₂_set h.ctl i (.mk hB hQ), h.obs⟩
    | setB i v =>
      obtain ⟨c, hi, hl⟩ := map_len_some hop
      obtain ⟨d, hi', hl'⟩ := map_len_some hop'
      obtain ⟨d', hd', hcd⟩ := forall₂_get h.ctl hi
      obtain rfl : d = d' := by rw [hi'] at hd'; exact Option.some.inj hd'
      cases hcd with | @mk l c d hB hQ =>
      apply rel2_of_ok
      · simp only [World.step, World.withCtl, hi, copyFromSlice_ok hl, res_bind_ok, pure_bind]; rfl
      · simp only [World.step, World.withCtl, hi', copyFromSlice_ok hl', res_bind_ok, pure_bind]; rfl
      · exact ⟨h.A, h.P, h.Q, forall₂_set h.ctl i (.mk (agree_slice v) hQ), h.obs⟩
    | setQc i v =>
      obtain ⟨c, hi, hl⟩ := map_len_some hop
      obtain ⟨d, hi', hl'⟩ := map_len_some hop'
      obtain ⟨d', hd', hcd⟩ := forall₂_get h.ctl hi
      obtain rfl : d = d' := by rw [hi'] at hd'; exact Option.some.inj hd'
      cases hcd with | @mk l c d hB hQ =>
      apply rel2_of_ok
      · simp only [World.step, World.withCtl, hi, copyFromSlice_ok hl, res_bind_ok, pure_bind]; rfl
      · simp only [World.step, World.withCtl, hi', copyFromSlice_ok hl', res_bind_ok, pure_bind]; rfl
      · exact ⟨h.A, h.P, h.Q, forall₂_set h.ctl i (.mk hB (agree_slice v)), h.obs⟩
    | setZ i v =>
      obtain ⟨c, hi, hl⟩ := map_len_some hop
      obtain ⟨d, hi', hl'⟩ := map_len_some hop'
      obtain ⟨d', hd', hcd⟩ := forall₂_get h.obs hi
      obtain rfl : d = d' := by rw [hi'] at hd'; exact Option.some.inj hd'
      cases hcd with | @mk m o p hH hR =>
      apply rel2_of_ok
      · simp only [World.step, World.withObs, hi, copyFromSlice_ok hl, res_bind_ok, pure_bind]; rfl
      · simp only [World.step, World.withObs, hi', copyFromSlice_ok hl', res_bind_ok, pure_bind]; rfl
      · exact ⟨h.A, h.P, h.Q, h.ctl, forall₂_set h.obs i (.mk hH hR)⟩
    | setH i v =>
      obtain ⟨c, hi, hl⟩ := map_len_some hop
      obtain ⟨d, hi', hl'⟩ := map_len_some hop'
      obtain ⟨d', hd', hcd⟩ := forall₂_get h.obs hi
      obtain rfl : d = d' := by rw [hi'] at hd'; exact Option.some.inj hd'
      cases hcd with | @mk m o p hH hR =>
      apply rel2_of_ok
      · simp only [World.step, World.withObs, hi, copyFromSlice_ok hl, res_bind_ok, pure_bind]; rfl
      · simp only [World.step, World.withObs, hi', copyFromSlice_ok hl', res_bind_ok, pure_bind]; rfl
      · exact ⟨h.A, h.P, h.Q, h.ctl, forall₂_set h.obs i (.mk (agree_slice v) hR)⟩
    | setR i v =>
      obtain ⟨c, hi, hl⟩ := map_len_some hop
      obtain ⟨d, hi', hl'⟩ := map_len_some hop'
      obtain ⟨d', hd', hcd⟩ := forall₂_get h.obs hi
      obtain rfl : d = d' := by rw [hi'] at hd'; exact Option.some.inj hd'
      cases hcd with | @mk m o p hH hR =>
      apply rel2_of_ok
      · simp only [World.step, World.withObs, hi, copyFromSlice_ok hl, res_bind_ok, pure_bind]; rfl
      · simp only [World.step, World.withObs, hi', copyFromSlice_ok hl', res_bind_ok, pure_bind]; rfl
      · exact ⟨h.A, h.P, h.Q, h.ctl, forall₂_set h.obs i (.mk hH (agree_slice v))⟩

/-- Facts about a successful step. -/
theorem step_ok {bld : Build} {w w' : World n T} (hw : w.Valid) {op : Op T} (hop : op.WellFormed w)
    (h : w.step bld op = .ok w') : w'.Valid ∧ w.SameShape w' := by
  rcases step_safe bld hw hop with ⟨e, he, _⟩ | ⟨w'', h4, h5⟩
  · rw [h] at he; cases he
  · rw [h] at h4; cases h4; exact h5

theorem run_cov (bld : Build) {w w' : World n T} (hw : w.Valid) (hw' : w'.Valid) (h : w.CovEq w') {ops ops' : List (Op T)}
    (hs : List.Forall₂ Op.SameUpToData ops ops') (hops : ∀ op ∈ ops, op.WellFormed w)
    (hops' : ∀ op ∈ ops', op.WellFormed w') :
    Rel2 (w.run bld ops) (w'.run bld ops') (fun a b => a.CovEq b) := by
  induction hs generalizing w w' with
  | nil => exact Rel2.ok h
  | @cons op op' ops ops' hoo _ ih =>
    unfold World.run
    rcases step_cov bld hw hw' h hoo (hops op (by simp)) (hops' op' (by simp)) with ⟨e, e1, e2⟩ | ⟨a, b, e1, e2, hab⟩
    · rw [e1, e2]; exact Or.inl ⟨e, rfl, rfl⟩
    · obtain ⟨v1, s1⟩ := step_ok hw (hops op (by simp)) e1
      obtain ⟨v2, s2⟩ := step_ok hw' (hops' op' (by simp)) e2
      rw [e1, e2]
      exact ih v1 v2 hab (fun o ho => (hops o (by simp [ho])).congr s1) (fun o ho => (hops' o (by simp [ho])).congr s2)

end Any

/-! ## Superposition -/

theorem forall₃_get {α β γ : Type} {Q : α → β → γ → Prop} {s t u} (h : Forall₃ Q s t u) {i : Nat} {a b c}
    (ha : s[i]? = some a) (hb : t[i]? = some b) (hc : u[i]? = some c) : Q a b c := by
  induction h generalizing i with
  | nil => simp at ha
  | cons h0 _ ih =>
    cases i with
    | zero => simp at ha hb hc; subst ha hb hc; exact h0
    | succ i => exact ih (by simpa using ha) (by simpa using hb) (by simpa using hc)

theorem forall₃_set {α β γ : Type} {Q : α → β → γ → Prop} {s t u} (h : Forall₃ Q s t u) (i : Nat) {a b c}
    (h1 : Q a b c) : Forall₃ Q (s.set i a) (t.set i b) (u.set i c) := by
  induction h generalizing i with
  | nil => exact .nil
  | cons h0 hs ih =>
    cases i with
    | zero => exact .cons h1 hs
    | succ i => exact .cons h0 (ih i)

theorem forall₃_len {α β γ : Type} {Q : α → β → γ → Prop} {s t u} (h : Forall₃ Q s t u) {i : Nat} {a}
    (ha : s[i]? = some a) : ∃ b c, t[i]? = some b ∧ u[i]? = some c ∧ Q a b c := by
  induction h generalizing i with
  | nil => simp at ha
  | cons h0 _ ih =>
    cases i with
    | zero => simp at ha; subst ha; exact ⟨_, _, by simp, by simp, h0⟩
    | succ i => simpa using ih (by simpa using ha)

section Comb
variable [CommRing T] [MDT T]

theorem comb_slice {p q : T} {v v' : List T} (h1 : n * 1 ≤ v.length) (h2 : n * 1 ≤ v'.length) :
    Mat.Comb p q (⟨v⟩ : Mat n 1 T) ⟨v'⟩ ⟨v.zipWith (fun a b => p * a + q * b) v'⟩ := by
  refine ⟨_, _, repsV_vecOf h1, repsV_vecOf h2, fun i => ?_⟩
  have h3 : (i : Nat) < v.length := by omega
  have h4 : (i : Nat) < v'.length := by omega
  simp [Spec.vecOf, h3, h4]

theorem mulVec_comb {p q : T} (A : Matrix (Fin m) (Fin n) T) (X Y : Fin n → T) :
    A *ᵥ (p • X + q • Y) = p • (A *ᵥ X) + q • (A *ᵥ Y) := by
  rw [Matrix.mulVec_add, Matrix.mulVec_smul, Matrix.mulVec_smul]

theorem Mat.Valid.exReps {M : Mat R C T} (h : M.Valid) : ∃ A : Matrix (Fin R) (Fin C) T, M.Reps A := ⟨_, h.reps⟩

theorem RegularKalman.Valid.exReps {f : RegularKalman n T} (h : f.Valid) {X} (hx : f.x.RepsV X) :
    ∃ A P Q, f.Reps X A P Q :=
  ⟨_, _, _, hx, h.A.reps, h.P.reps, h.Q.reps, h.predictedX, h.tempP⟩

theorem step_comb (bld : Build) {p q : T} {w₁ w₂ w₃ v₁ v₂ v₃ : World n T} (h₁ : w₁.Valid) (h₂ : w₂.Valid)
    (h₃ : w₃.Valid) (c₁ : w₃.CovEq w₁) (c₂ : w₃.CovEq w₂) (h : World.Comb p q w₁ w₂ w₃) {op₁ op₂ op₃ : Op T}
    (hs : Op.Comb p q op₁ op₂ op₃) (g₁ : op₁.WellFormed w₁) (g₂ : op₂.WellFormed w₂) (g₃ : op₃.WellFormed w₃)
    (e₁ : w₁.step bld op₁ = .ok v₁) (e₂ : w₂.step bld op₂ = .ok v₂) (e₃ : w₃.step bld op₃ = .ok v₃) :
    World.Comb p q v₁ v₂ v₃ := by
  obtain ⟨X, Y, hX, hY, hZ⟩ := h.x
  have k₁ := h₁.kf
  have k₂ := h₂.kf
  have k₃ := h₃.kf
  obtain ⟨A, hA⟩ := k₃.A.exReps
  obtain ⟨P, hP⟩ := k₃.P.exReps
  obtain ⟨Q, hQ⟩ := k₃.Q.exReps
  cases hs with
  | predict =>
    obtain ⟨f₁, a1, b1, _⟩ := predict_any h₁.states k₁ hX (c₁.A.reps hA) (c₁.P.reps hP) (c₁.Q.reps hQ)
    obtain ⟨f₂, a2, b2, _⟩ := predict_any h₁.states k₂ hY (c₂.A.reps hA) (c₂.P.reps hP) (c₂.Q.reps hQ)
    obtain ⟨f₃, a3, b3, _⟩ := predict_any h₁.states k₃ hZ hA hP hQ
    simp only [World.step, a1, a2, a3, res_bind_ok] at e₁ e₂ e₃
    cases e₁; cases e₂; cases e₃
    rw [mulVecSeq_eq_mulVec] at b1 b2 b3
    rw [mulVec_comb] at b3
    exact ⟨⟨_, _, b1, b2, b3⟩, h.ctl, h.obs⟩
  | predictTuned lambda =>
    cases hr : MDT.recip (lambda * lambda) with
    | error e =>
      simp only [World.step, predictTuned_error h₁.states k₁ lambda hr] at e₁
      cases e₁
    | ok φ =>
      obtain ⟨f₁, a1, b1, _⟩ := predictTuned_any h₁.states k₁ lambda hr hX (c₁.A.reps hA) (c₁.P.reps hP) (c₁.Q.reps hQ)
      obtain ⟨f₂, a2, b2, _⟩ := predictTuned_any h₁.states k₂ lambda hr hY (c₂.A.reps hA) (c₂.P.reps hP) (c₂.Q.reps hQ)
      obtain ⟨f₃, a3, b3, _⟩ := predictTuned_any h₁.states k₃ lambda hr hZ hA hP hQ
      simp only [World.step, a1, a2, a3, res_bind_ok] at e₁ e₂ e₃
      cases e₁; cases e₂; cases e₃
      rw [mulVecSeq_eq_mulVec] at b1 b2 b3
      rw [mulVec_comb] at b3
      exact ⟨⟨_, _, b1, b2, b3⟩, h.ctl, h.obs⟩
  | control i =>
    have hi : w₁.ctl[i]? = some w₁.ctl[i] := List.getElem?_eq_getElem g₁
    generalize w₁.ctl[i] = c at hi
    obtain ⟨d, f, hd, hf, hcomb⟩ := forall₃_len h.ctl hi
    obtain ⟨_, hd', hcov1⟩ := forall₂_get c₁.ctl hf
    rw [hi] at hd'; cases hd'
    obtain ⟨_, hd', hcov2⟩ := forall₂_get c₂.ctl hf
    rw [hd] at hd'; cases hd'
    have hv1 := h₁.ctl _ (List.mem_of_getElem? hi)
    have hv2 := h₂.ctl _ (List.mem_of_getElem? hd)
    have hv3 := h₃.ctl _ (List.mem_of_getElem? hf)
    cases hcomb with | @mk l a b c hu =>
    cases hcov1 with | mk hB1 hQ1 =>
    cases hcov2 with | mk hB2 hQ2 =>
    obtain ⟨U, V, hU, hV, hW⟩ := id hu
    obtain ⟨B, hB⟩ := hv3.B.exReps
    obtain ⟨Qc, hQc⟩ := hv3.Q.exReps
    obtain ⟨_, _, _, r1⟩ := k₁.exReps hX
    obtain ⟨_, _, _, r2⟩ := k₂.exReps hY
    obtain ⟨_, _, _, r3⟩ := k₃.exReps hZ
    obtain ⟨f1, d1, s1, t1, _, u1, _⟩ := control_exact r1 ⟨hB1.reps hB, hU, hQ1.reps hQc, hv1.tempBQ⟩
    obtain ⟨f2, d2, s2, t2, _, u2, _⟩ := control_exact r2 ⟨hB2.reps hB, hV, hQ2.reps hQc, hv2.tempBQ⟩
    obtain ⟨f3, d3, s3, t3, _, u3, _⟩ := control_exact r3 ⟨hB, hW, hQc, hv3.tempBQ⟩
    simp only [World.step, hi, hd, hf, s1, s2, s3, res_bind_ok] at e₁ e₂ e₃
    cases e₁; cases e₂; cases e₃
    refine ⟨⟨_, _, t1.x, t2.x, ?_⟩, forall₃_set h.ctl i (.mk ?_), h.obs⟩
    · convert t3.x using 1
      simp only [Spec.ctlX, mulVec_comb, smul_add]
      abel
    · rw [u1.u, u2.u, u3.u]; exact hu
  | correct i =>
    have hi : w₁.obs[i]? = some w₁.obs[i] := List.getElem?_eq_getElem g₁
    generalize w₁.obs[i] = c at hi
    obtain ⟨d, f, hd, hf, hcomb⟩ := forall₃_len h.obs hi
    obtain ⟨_, hd', hcov1⟩ := forall₂_get c₁.obs hf
    rw [hi] at hd'; cases hd'
    obtain ⟨_, hd', hcov2⟩ := forall₂_get c₂.obs hf
    rw [hd] at hd'; cases hd'
    have hv1 := h₁.obs _ (List.mem_of_getElem? hi)
    have hv2 := h₂.obs _ (List.mem_of_getElem? hd)
    have hv3 := h₃.obs _ (List.mem_of_getElem? hf)
    cases hcomb with | @mk m a b c hz =>
    cases hcov1 with | mk hH1 hR1 =>
    cases hcov2 with | mk hH2 hR2 =>
    obtain ⟨U, V, hU, hV, hW⟩ := id hz
    obtain ⟨H, hH⟩ := hv3.2.H.exReps
    have r1 := correct_rel bld h₁.states hv1.1 hv3.2 hv1.2 k₃.P hH1 hR1 c₁.P hH hZ hW hX hU
    have r2 := correct_rel bld h₁.states hv1.1 hv3.2 hv2.2 k₃.P hH2 hR2 c₂.P hH hZ hW hY hV
    simp only [World.step, hi, hd, hf, RegularKalman.correct] at e₁ e₂ e₃
    rcases r1 with ⟨e, r, _⟩ | ⟨⟨o3, x3, P3⟩, ⟨o1, x1, P1⟩, s3, s1, f3, f1, _, _, _, _, _, _, _, _, _, _, _, _, K, k3, k1, t3, t1⟩
    · rw [r] at e₃; cases e₃
    rcases r2 with ⟨e, r, _⟩ | ⟨⟨o3', x3', P3'⟩, ⟨o2, x2, P2⟩, s3', s2, _, f2, _, _, _, _, _, _, _, _, _, _, _, _, K', k3', k2, _, t2⟩
    · rw [r] at e₃; cases e₃
    rw [s3] at s3'; cases s3'
    obtain rfl := k3.unique k3'
    rw [s1] at e₁; rw [s2] at e₂; rw [s3] at e₃
    cases e₁; cases e₂; cases e₃
    simp only [mulVecSeq_eq_mulVec] at t1 t2 t3
    refine ⟨⟨_, _, t1, t2, ?_⟩, h.ctl, forall₃_set h.obs i (.mk ?_)⟩
    · convert t3 using 1
      simp only [smul_add, Matrix.mulVec_sub, Matrix.mulVec_add, smul_sub, Matrix.mulVec_smul]
      abel
    · rw [f1.z, f2.z, f3.z]; exact hz
  | setA v =>
    simp only [World.step, copyFromSlice_ok g₁, copyFromSlice_ok g₂, copyFromSlice_ok g₃, res_bind_ok] at e₁ e₂ e₃
    cases e₁; cases e₂; cases e₃
    exact ⟨h.x, h.ctl, h.obs⟩
  | setP v =>
    simp only [World.step, copyFromSlice_ok g₁, copyFromSlice_ok g₂, copyFromSlice_ok g₃, res_bind_ok] at e₁ e₂ e₃
    cases e₁; cases e₂; cases e₃
    exact ⟨h.x, h.ctl, h.obs⟩
  | setQ v =>
    simp only [World.step, copyFromSlice_ok g₁, copyFromSlice_ok g₂, copyFromSlice_ok g₃, res_bind_ok] at e₁ e₂ e₃
    cases e₁; cases e₂; cases e₃
    exact ⟨h.x, h.ctl, h.obs⟩
  | setX v v' =>
    simp only [World.step, copyFromSlice_ok g₁, copyFromSlice_ok g₂, copyFromSlice_ok g₃, res_bind_ok] at e₁ e₂ e₃
    cases e₁; cases e₂; cases e₃
    exact ⟨comb_slice (k₁.x.trans_eq g₁.symm) (k₂.x.trans_eq g₂.symm), h.ctl, h.obs⟩
  | setB i v =>
    obtain ⟨c, hi, hl⟩ := map_len_some g₁
    obtain ⟨d, hd, hl'⟩ := map_len_some g₂
    obtain ⟨f, hf, hl''⟩ := map_len_some g₃
    have hc := forall₃_get h.ctl hi hd hf
    cases hc with | @mk l a b c hu =>
    simp only [World.step, World.withCtl, hi, hd, hf, copyFromSlice_ok hl, copyFromSlice_ok hl', copyFromSlice_ok hl'',
      res_bind_ok, pure_bind] at e₁ e₂ e₃
    cases e₁; cases e₂; cases e₃
    exact ⟨h.x, forall₃_set h.ctl i (.mk hu), h.obs⟩
  | setQc i v =>
    obtain ⟨c, hi, hl⟩ := map_len_some g₁
    obtain ⟨d, hd, hl'⟩ := map_len_some g₂
    obtain ⟨f, hf, hl''⟩ := map_len_some g₃
    have hc := forall₃_get h.ctl hi hd hf
    cases hc with | @mk l a b c hu =>
    simp only [World.step, World.withCtl, hi, hd, hf, copyFromSlice_ok hl, copyFromSlice_ok hl', copyFromSlice_ok hl'',
      res_bind_ok, pure_bind] at e₁ e₂ e₃
    cases e₁; cases e₂; cases e₃
    exact ⟨h.x, forall₃_set h.ctl i (.mk hu), h.obs⟩
  | setU i v v' =>
    obtain ⟨c, hi, hl⟩ := map_len_some g₁
    obtain ⟨d, hd, hl'⟩ := map_len_some g₂
    obtain ⟨f, hf, hl''⟩ := map_len_some g₃
    have hv1 := h₁.ctl _ (List.mem_of_getElem? hi)
    have hv2 := h₂.ctl _ (List.mem_of_getElem? hd)
    have hc := forall₃_get h.ctl hi hd hf
    cases hc with | @mk l a b c hu =>
    simp only [World.step, World.withCtl, hi, hd, hf, copyFromSlice_ok hl, copyFromSlice_ok hl', copyFromSlice_ok hl'',
      res_bind_ok, pure_bind] at e₁ e₂ e₃
    cases e₁; cases e₂; cases e₃
    exact ⟨h.x, forall₃_set h.ctl i (.mk (comb_slice (hv1.u.trans_eq hl.symm) (hv2.u.trans_eq hl'.symm))), h.obs⟩
  | setH i v =>
    obtain ⟨c, hi, hl⟩ := map_len_some g₁
    obtain ⟨d, hd, hl'⟩ := map_len_some g₂
    obtain ⟨f, hf, hl''⟩ := map_len_some g₃
    have hc := forall₃_get h.obs hi hd hf
    cases hc with | @mk l a b c hu =>
    simp only [World.step, World.withObs, hi, hd, hf, copyFromSlice_ok hl, copyFromSlice_ok hl', copyFromSlice_ok hl'',
      res_bind_ok, pure_bind] at e₁ e₂ e₃
    cases e₁; cases e₂; cases e₃
    exact ⟨h.x, h.ctl, forall₃_set h.obs i (.mk hu)⟩
  | setR i v =>
    obtain ⟨c, hi, hl⟩ := map_len_some g₁
    obtain ⟨d, hd, hl'⟩ := map_len_some g₂
    obtain ⟨f, hf, hl''⟩ := map_len_some g₃
    have hc := forall₃_get h.obs hi hd hf
    cases hc with | @mk l a b c hu =>
    simp only [World.step, World.withObs, hi, hd, hf, copyFromSlice_ok hl, copyFromSlice_ok hl', copyFromSlice_ok hl'',
      res_bind_ok, pure_bind] at e₁ e₂ e₃
    cases e₁; cases e₂; cases e₃
    exact ⟨h.x, h.ctl, forall₃_set h.obs i (.mk hu)⟩
  | setZ i v v' =>
    obtain ⟨c, hi, hl⟩ := map_len_some g₁
    obtain ⟨d, hd, hl'⟩ := map_len_some g₂
    obtain ⟨f, hf, hl''⟩ := map_len_some g₃
    have hv1 := h₁.obs _ (List.mem_of_getElem? hi)
    have hv2 := h₂.obs _ (List.mem_of_getElem? hd)
    have hc := forall₃_get h.obs hi hd hf
    cases hc with | @mk l a b c hu =>
    simp only [World.step, World.withObs, hi, hd, hf, copyFromSlice_ok hl, copyFromSlice_ok hl', copyFromSlice_ok hl'',
      res_bind_ok, pure_bind] at e₁ e₂ e₃
    cases e₁; cases e₂; cases e₃
    exact ⟨h.x, h.ctl, forall₃_set h.obs i (.mk (comb_slice (hv1.2.z.trans_eq hl.symm) (hv2.2.z.trans_eq hl'.symm)))⟩

theorem Op.Comb.cov {p q : T} {op₁ op₂ op₃ : Op T} (h : Op.Comb p q op₁ op₂ op₃) :
    op₃.SameUpToData op₁ ∧ op₃.SameUpToData op₂ := by
  cases h <;> constructor <;> constructor

theorem run_comb (bld : Build) {p q : T} {w₁ w₂ w₃ : World n T} (h₁ : w₁.Valid) (h₂ : w₂.Valid)
    (h₃ : w₃.Valid) (c₁ : w₃.CovEq w₁) (c₂ : w₃.CovEq w₂) (h : World.Comb p q w₁ w₂ w₃) {ops₁ ops₂ ops₃ : List (Op T)}
    (hs : Forall₃ (Op.Comb p q) ops₁ ops₂ ops₃) (g₁ : ∀ op ∈ ops₁, op.WellFormed w₁) (g₂ : ∀ op ∈ ops₂, op.WellFormed w₂)
    (g₃ : ∀ op ∈ ops₃, op.WellFormed w₃) :
    (∃ e, w₁.run bld ops₁ = .error e ∧ w₂.run bld ops₂ = .error e ∧ w₃.run bld ops₃ = .error e) ∨
    ∃ v₁ v₂ v₃, w₁.run bld ops₁ = .ok v₁ ∧ w₂.run bld ops₂ = .ok v₂ ∧ w₃.run bld ops₃ = .ok v₃ ∧
      World.Comb p q v₁ v₂ v₃ := by
  induction hs generalizing w₁ w₂ w₃ with
  | nil => exact Or.inr ⟨_, _, _, rfl, rfl, rfl, h⟩
  | @cons op₁ op₂ op₃ ops₁ ops₂ ops₃ hoo _ ih =>
    have a₁ := g₁ op₁ (by simp)
    have a₂ := g₂ op₂ (by simp)
    have a₃ := g₃ op₃ (by simp)
    simp only [World.run]
    rcases step_cov bld h₃ h₁ c₁ hoo.cov.1 a₃ a₁ with ⟨e, e3, e1⟩ | ⟨v₃, v₁, e3, e1, d1⟩
    · rcases step_cov bld h₃ h₂ c₂ hoo.cov.2 a₃ a₂ with ⟨e', e3', e2⟩ | ⟨_, _, e3', _, _⟩
      · rw [e3] at e3'; cases e3'
        rw [e1, e2, e3]; exact Or.inl ⟨e, rfl, rfl, rfl⟩
      · rw [e3] at e3'; cases e3'
    · rcases step_cov bld h₃ h₂ c₂ hoo.cov.2 a₃ a₂ with ⟨e', e3', e2⟩ | ⟨v₃', v₂, e3', e2, d2⟩
      · rw [e3] at e3'; cases e3'
      · rw [e3] at e3'; cases e3'
        have hc := step_comb bld h₁ h₂ h₃ c₁ c₂ h hoo a₁ a₂ a₃ e1 e2 e3
        obtain ⟨b1, s1⟩ := step_ok h₁ a₁ e1
        obtain ⟨b2, s2⟩ := step_ok h₂ a₂ e2
        obtain ⟨b3, s3⟩ := step_ok h₃ a₃ e3
        rw [e1, e2, e3]
        exact ih b1 b2 b3 d1 d2 hc (fun o ho => (g₁ o (by simp [ho])).congr s1)
          (fun o ho => (g₂ o (by simp [ho])).congr s2) (fun o ho => (g₃ o (by simp [ho])).congr s3)

end Comb
end Minikalman
