import Verif.Spec.Aliasing
import Verif.Proofs.HistoryRel

/-!
# Lemmas about shared temporaries
-/

set_option linter.unusedSectionVars false

namespace Minikalman

variable {T : Type} {R C R' C' n l m : Nat}

theorem Memory.get_put (h : Memory T) (r r' : Nat) (a : Mat R C T) :
    ((h.put r a).get r' : Mat R' C' T) = if r' = r then ⟨a.data⟩ else h.get r' := by
  unfold Memory.get Memory.put
  split_ifs <;> rfl

theorem Memory.get_put_same (h : Memory T) (r : Nat) (a : Mat R C T) : ((h.put r a).get r : Mat R C T) = a := by
  rw [Memory.get_put, if_pos rfl]

theorem Memory.get_put_ne (h : Memory T) {r r' : Nat} (hr : r' ≠ r) (a : Mat R C T) :
    ((h.put r a).get r' : Mat R' C' T) = h.get r' := by
  rw [Memory.get_put, if_neg hr]

/-- All regions keep their lengths. -/
def Memory.SameLen (h h' : Memory T) : Prop := ∀ k, (h' k).length = (h k).length

theorem Memory.SameLen.trans {h h' h'' : Memory T} (a : h.SameLen h') (b : h'.SameLen h'') : h.SameLen h'' :=
  fun k => (b k).trans (a k)

theorem Memory.put_sameLen {h : Memory T} {r : Nat} {a : Mat R C T} (hl : (h.get r : Mat R C T).SameTail a) :
    h.SameLen (h.put r a) := by
  intro k
  unfold Memory.put
  split_ifs with hk
  · subst hk; exact hl.1
  · rfl

theorem Memory.SameLen.valid {h h' : Memory T} (hl : h.SameLen h') {r : Nat} (hv : R * C ≤ (h r).length) :
    (h'.get r : Mat R C T).Valid := by
  show R * C ≤ (h' r).length
  rw [hl r]; exact hv

section AnyArith
variable [Zero T] [One T] [Add T] [Sub T] [Mul T] [Neg T] [MDT T]

theorem updateShared_rel (bld : Build) {o : RegularObservation n m T} {rg : TempRegions} {h : Memory T} {x : Mat n 1 T}
    {P : Mat n n T} (hm : 0 < m) (ho : o.Valid) (hx : x.Valid) (hP : P.Valid) (hc : rg.Contract) (hf : rg.Fits n m h) :
    Rel2 (o.updateWithInnovation bld x P) (o.updateShared bld rg h x P) (fun a b =>
      a.1.y = b.1.y ∧ a.1.S = b.1.S ∧ a.1.K = b.1.K ∧ b.1.H = o.H ∧ b.1.z = o.z ∧ b.1.R = o.R ∧ a.2.1 = b.2.2.1 ∧
      a.2.2 = b.2.2.2 ∧ (∀ k, k ≠ rg.sInv → k ≠ rg.hp → k ≠ rg.pht → k ≠ rg.khp → b.2.1 k = h k) ∧ h.SameLen b.2.1) := by
  have l0 : h.SameLen h := fun _ => rfl
  obtain ⟨hp, h1, h2, h3⟩ := Mat.mult_reps ho.H.reps hP.reps ho.tempHP
  obtain ⟨hp', h1', h2', h3'⟩ := Mat.mult_reps ho.H.reps hP.reps (l0.valid hf.hp)
  have l1 : h.SameLen (h.put rg.hp hp') := Memory.put_sameLen h3'
  obtain ⟨s, h4, h5, h6⟩ := Mat.multTransb_reps h2 ho.H.reps ho.S
  obtain ⟨s', h4', h5', h6'⟩ := Mat.multTransb_reps h2' ho.H.reps ho.S
  obtain rfl := Mat.ext_of_reps h5 h5' h6 h6'
  obtain ⟨s2, h7, h8, h9⟩ := Mat.addInplaceA_reps h5 ho.R.reps
  unfold RegularObservation.updateWithInnovation RegularObservation.updateShared
  simp only [h1, h4, h7, h1', Memory.get_put_same, h4', res_bind_ok]
  rcases chol_safe bld hm h8.valid with ⟨e, he, _⟩ | ⟨⟨L, b⟩, he, ht⟩
  · rw [he]; exact Or.inl ⟨e, rfl, rfl⟩
  have hLv : L.Valid := ht.le h8.valid
  simp only [he, res_bind_ok]
  refine (invert_rel hm hLv hLv ho.tempSInv (l1.valid hf.sInv) (fun r c hr hc => rfl)).bind ?_
  rintro si si' ⟨hsi, hsi', hsic⟩
  have hsv : si.Valid := hsi.le ho.tempSInv
  have hsv' : si'.Valid := hsi'.le (l1.valid hf.sInv)
  have hsag := Mat.agree_of_cl hsv hsv' hsic
  have l2 := l1.trans (Memory.put_sameLen hsi')
  obtain ⟨pht, h10, h11, h12⟩ := Mat.multTransb_reps hP.reps ho.H.reps ho.tempPHt
  obtain ⟨pht', h10', h11', h12'⟩ := Mat.multTransb_reps hP.reps ho.H.reps (l2.valid hf.pht)
  have l3 := l2.trans (Memory.put_sameLen h12')
  obtain ⟨k, k1, k2, k3⟩ := Mat.mult_reps h11 hsv.reps ho.K
  obtain ⟨k', k1', k2', k3'⟩ := Mat.mult_reps h11' (hsag.reps hsv.reps) ho.K
  obtain rfl := Mat.ext_of_reps k2 k2' k3 k3'
  obtain ⟨xn, x1, x2, x3⟩ := Mat.multaddRowvector_reps hm k2 ho.y.repsV hx.repsV
  obtain ⟨hq, h13, h14, h15⟩ := Mat.mult_reps ho.H.reps hP.reps (h3.valid ho.tempHP)
  obtain ⟨hq', h13', h14', h15'⟩ := Mat.mult_reps ho.H.reps hP.reps (l3.valid hf.hp)
  have l4 := l3.trans (Memory.put_sameLen h15')
  obtain ⟨khp, q1, q2, q3⟩ := Mat.mult_reps k2 h14 ho.tempKHP
  obtain ⟨khp', q1', q2', q3'⟩ := Mat.mult_reps k2 h14' (l4.valid hf.khp)
  have l5 := l4.trans (Memory.put_sameLen q3')
  obtain ⟨pn, p1, p2, p3⟩ := Mat.subInplaceA_reps hP.reps q2
  obtain ⟨pn', p1', p2', p3'⟩ := Mat.subInplaceA_reps hP.reps q2'
  obtain rfl := Mat.ext_of_reps p2 p2' p3 p3'
  simp only [h10, k1, x1, h13, q1, p1, res_bind_ok, h10', Memory.get_put_same, Memory.get_put_ne _ hc.sInv_pht, k1', h13',
    if_neg hc.hp_khp, q1', p1']
  refine Rel2.pure ⟨rfl, rfl, rfl, rfl, rfl, rfl, rfl, rfl, ?_, l5⟩
  intro j a b c d
  simp only [Memory.put, if_neg a, if_neg b, if_neg c, if_neg d]

theorem correctShared_rel (bld : Build) {o : RegularObservation n m T} {rg : TempRegions} {h : Memory T} {x : Mat n 1 T}
    {P : Mat n n T} (hn : 0 < n) (hm : 0 < m) (ho : o.Valid) (hx : x.Valid) (hP : P.Valid) (hc : rg.Contract)
    (hf : rg.Fits n m h) :
    Rel2 (o.correct bld x P) (o.correctShared bld rg h x P) (fun a b =>
      a.1.y = b.1.y ∧ a.1.S = b.1.S ∧ a.1.K = b.1.K ∧ b.1.H = o.H ∧ b.1.z = o.z ∧ b.1.R = o.R ∧ a.2.1 = b.2.2.1 ∧
      a.2.2 = b.2.2.2 ∧ (∀ k, k ≠ rg.sInv → k ≠ rg.hp → k ≠ rg.pht → k ≠ rg.khp → b.2.1 k = h k) ∧ h.SameLen b.2.1) := by
  obtain ⟨y1, y2, h1, h2, h3, h4⟩ := innovation_any hn ho ho.H.reps ho.z.repsV hx.repsV
  unfold RegularObservation.correct RegularObservation.correctShared
  simp only [h1, h2, res_bind_ok]
  exact updateShared_rel bld (o := { o with y := y2 }) hm (obs_with_y_valid ho h4) hx hP hc hf

/-! ## Histories -/

theorem World.InputsEq.shape {w w' : World n T} (h : w.InputsEq w') : w.SameShape w' := by
  refine ⟨by rw [h.x], by rw [h.A], by rw [h.P], by rw [h.Q], ?_, ?_⟩
  · have := h.ctl
    generalize w.ctl = s at this
    generalize w'.ctl = t at this
    induction this with
    | nil => rfl
    | cons a _ ih => cases a with | mk a b c => simp [ih, ctlShape, a, b, c]
  · have := h.obs
    generalize w.obs = s at this
    generalize w'.obs = t at this
    induction this with
    | nil => rfl
    | cons a _ ih => cases a with | mk a b c => simp [ih, obsShape, a, b, c]

theorem World.InputsEq.refl (w : World n T) : w.InputsEq w :=
  ⟨rfl, rfl, rfl, rfl, List.forall₂_same.mpr fun _ _ => .mk rfl rfl rfl, List.forall₂_same.mpr fun _ _ => .mk rfl rfl rfl⟩

theorem World.InputsEq.trans {w w' w'' : World n T} (h : w.InputsEq w') (h' : w'.InputsEq w'') : w.InputsEq w'' := by
  refine ⟨h.x.trans h'.x, h.A.trans h'.A, h.P.trans h'.P, h.Q.trans h'.Q, ?_, ?_⟩
  · have := h.ctl; have k := h'.ctl
    generalize w.ctl = s at *; generalize w'.ctl = t at *; generalize w''.ctl = u at *
    clear h h'
    induction this generalizing u with
    | nil => cases k; exact .nil
    | cons a _ ih =>
      cases k with | cons b k =>
      refine .cons ?_ (ih _ k)
      cases a with | mk a1 a2 a3 =>
      cases b with | mk b1 b2 b3 => exact .mk (a1.trans b1) (a2.trans b2) (a3.trans b3)
  · have := h.obs; have k := h'.obs
    generalize w.obs = s at *; generalize w'.obs = t at *; generalize w''.obs = u at *
    clear h h'
    induction this generalizing u with
    | nil => cases k; exact .nil
    | cons a _ ih =>
      cases k with | cons b k =>
      refine .cons ?_ (ih _ k)
      cases a with | mk a1 a2 a3 =>
      cases b with | mk b1 b2 b3 => exact .mk (a1.trans b1) (a2.trans b2) (a3.trans b3)

theorem reps_eq {a b : Mat R C T} (h : a = b) {A : Matrix (Fin R) (Fin C) T} (ha : a.Reps A) : b.Reps A := h ▸ ha

theorem repsV_eq {a b : Mat n 1 T} (h : a = b) {v : Fin n → T} (ha : a.RepsV v) : b.RepsV v := h ▸ ha

theorem control_inputs {f g : RegularKalman n T} {c d : Control n l T} (hn : 0 < n) (hf : f.Valid)
    (hc : c.Valid) (hd : d.Valid) (hB : c.B = d.B) (hu : c.u = d.u) (hQ : c.Q = d.Q) (hx : f.x = g.x) (hP : f.P = g.P) :
    ∃ f' c' g' d', f.control c = .ok (f', c') ∧ g.control d = .ok (g', d') ∧ c.Frame c' ∧ d.Frame d' ∧ f'.x = g'.x ∧
      f'.P = g'.P ∧ f'.A = f.A ∧ f'.Q = f.Q ∧ g'.A = g.A ∧ g'.Q = g.Q := by
  by_cases h0 : l = 0
  · refine ⟨f, c, g, d, ?_, ?_, .refl c, .refl d, hx, hP, rfl, rfl, rfl, rfl⟩
    · unfold RegularKalman.control
      rw [control_empty (c := c) (Or.inl h0) f.x f.P]; rfl
    · unfold RegularKalman.control
      rw [control_empty (c := d) (Or.inl h0) g.x g.P]; rfl
  · obtain ⟨c', x', P', h1, h2, h3, h4, h5, h6⟩ :=
      control_any hn (by omega) hc hc.B.reps hc.u.repsV hc.Q.reps hf.x.repsV hf.P.reps
    obtain ⟨d', y', Q', k1, k2, k3, k4, k5, k6⟩ :=
      control_any hn (by omega) hd (reps_eq hB hc.B.reps) (repsV_eq hu hc.u.repsV) (reps_eq hQ hc.Q.reps) (repsV_eq hx hf.x.repsV)
        (reps_eq hP hf.P.reps)
    refine ⟨{ f with x := x', P := P' }, c', { g with x := y', P := Q' }, d', ?_, ?_, h4, k4,
      Mat.ext_of_repsV h2 k2 h5 (hx ▸ k5), Mat.ext_of_reps h3 k3 h6 (hP ▸ k6), rfl, rfl, rfl, rfl⟩
    · unfold RegularKalman.control
      rw [h1]; rfl
    · unfold RegularKalman.control
      rw [k1]; rfl

theorem kcorrect_inputs (bld : Build) {f g : RegularKalman n T} {o p : RegularObservation n m T} (hn : 0 < n) (hm : 0 < m)
    (hf : f.Valid) (ho : o.Valid) (hp : p.Valid) (hH : o.H = p.H) (hz : o.z = p.z) (hR : o.R = p.R)
    (hx : f.x = g.x) (hP : f.P = g.P) :
    Rel2 (f.correct bld o) (g.correct bld p) (fun a b => o.Frame a.2 ∧ p.Frame b.2 ∧ a.1.x = b.1.x ∧ a.1.P = b.1.P ∧
      a.1.A = f.A ∧ a.1.Q = f.Q ∧ b.1.A = g.A ∧ b.1.Q = g.Q) := by
  unfold RegularKalman.correct
  refine (correct_rel bld hn hm ho hp hf.P (hH ▸ .refl _) (hR ▸ .refl _) (hP ▸ .refl _) ho.H.reps hf.x.repsV ho.z.repsV
    (repsV_eq hx hf.x.repsV) (repsV_eq hz ho.z.repsV)).bind ?_
  rintro ⟨o', x', P'⟩ ⟨p', y', Q'⟩ ⟨h1, h2, h3, h4, h5, h6, h7, _, _, _, _, _, _, _, K, _, _, k3, k4⟩
  have hPv : P'.Valid := h5.valid hf.P
  exact Rel2.pure ⟨h1, h2, Mat.ext_of_repsV k3 k4 h3 (hx ▸ h4),
    Mat.ext_of_reps hPv.reps (h7.reps hPv.reps) h5 (hP ▸ h6), rfl, rfl, rfl, rfl⟩

theorem step_inputs (bld : Build) {w w' : World n T} (hw : w.Valid) (hw' : w'.Valid) (h : w.InputsEq w') {op : Op T}
    (hop : op.WellFormed w) : Rel2 (w.step bld op) (w'.step bld op) (fun a b => a.InputsEq b) := by
  have hk := hw.kf
  have hk' := hw'.kf
  have hop' := hop.congr h.shape
  cases op with
  | predict =>
    obtain ⟨f, h1, h2, h3, h4⟩ := predict_any hw.states hk hk.x.repsV hk.A.reps hk.P.reps hk.Q.reps
    obtain ⟨g, k1, k2, k3, k4⟩ := predict_any hw.states hk' (repsV_eq h.x hk.x.repsV) (reps_eq h.A hk.A.reps) (reps_eq h.P hk.P.reps)
      (reps_eq h.Q hk.Q.reps)
    apply rel2_of_ok
    · simp only [World.step, h1, res_bind_ok]; rfl
    · simp only [World.step, k1, res_bind_ok]; rfl
    · exact ⟨Mat.ext_of_repsV h2 k2 h4.x (h.x ▸ k4.x), (h4.A.trans h.A).trans k4.A.symm,
        Mat.ext_of_reps h3 k3 h4.P (h.P ▸ k4.P), (h4.Q.trans h.Q).trans k4.Q.symm, h.ctl, h.obs⟩
  | predictTuned lambda =>
    cases hr : MDT.recip (lambda * lambda) with
    | error e =>
      simp only [World.step, predictTuned_error hw.states hk lambda hr,
        predictTuned_error hw.states hk' lambda hr]
      exact Or.inl ⟨e, rfl, rfl⟩
    | ok φ =>
      obtain ⟨f, h1, h2, h3, h4⟩ :=
        predictTuned_any hw.states hk lambda hr hk.x.repsV hk.A.reps hk.P.reps hk.Q.reps
      obtain ⟨g, k1, k2, k3, k4⟩ := predictTuned_any hw.states hk' lambda hr (repsV_eq h.x hk.x.repsV) (reps_eq h.A hk.A.reps)
        (reps_eq h.P hk.P.reps) (reps_eq h.Q hk.Q.reps)
      apply rel2_of_ok
      · simp only [World.step, h1, res_bind_ok]; rfl
      · simp only [World.step, k1, res_bind_ok]; rfl
      · exact ⟨Mat.ext_of_repsV h2 k2 h4.x (h.x ▸ k4.x), (h4.A.trans h.A).trans k4.A.symm,
          Mat.ext_of_reps h3 k3 h4.P (h.P ▸ k4.P), (h4.Q.trans h.Q).trans k4.Q.symm, h.ctl, h.obs⟩
  | control i =>
    have hi : w.ctl[i]? = some w.ctl[i] := List.getElem?_eq_getElem hop
    generalize w.ctl[i] = c at hi
    obtain ⟨d, hd, hcd⟩ := forall₂_get h.ctl hi
    have hcv := hw.ctl _ (List.mem_of_getElem? hi)
    have hdv := hw'.ctl _ (List.mem_of_getElem? hd)
    cases hcd with | @mk l c d hB hu hQ =>
    obtain ⟨f, c', g, d', e1, e2, f1, f2, f3, f4, f5, f6, f7, f8⟩ :=
      control_inputs hw.states hk hcv hdv hB hu hQ h.x h.P
    apply rel2_of_ok
    · simp only [World.step, hi, e1, res_bind_ok]; rfl
    · simp only [World.step, hd, e2, res_bind_ok]; rfl
    · exact ⟨f3, (f5.trans h.A).trans f7.symm, f4, (f6.trans h.Q).trans f8.symm,
        forall₂_set h.ctl i (.mk ((f1.B.trans hB).trans f2.B.symm) ((f1.u.trans hu).trans f2.u.symm)
          ((f1.Q.trans hQ).trans f2.Q.symm)), h.obs⟩
  | correct i =>
    have hi : w.obs[i]? = some w.obs[i] := List.getElem?_eq_getElem hop
    generalize w.obs[i] = c at hi
    obtain ⟨d, hd, hcd⟩ := forall₂_get h.obs hi
    have hov := hw.obs _ (List.mem_of_getElem? hi)
    have hpv := hw'.obs _ (List.mem_of_getElem? hd)
    cases hcd with | @mk m o p hH hz hR =>
    simp only [World.step, hi, hd]
    refine (kcorrect_inputs bld hw.states hov.1 hk hov.2 hpv.2 hH hz hR h.x h.P).bind ?_
    rintro ⟨f, o'⟩ ⟨g, p'⟩ ⟨f1, f2, f3, f4, f5, f6, f7, f8⟩
    exact Rel2.pure ⟨f3, (f5.trans h.A).trans f7.symm, f4, (f6.trans h.Q).trans f8.symm, h.ctl,
      forall₂_set h.obs i (.mk ((f1.H.trans hH).trans f2.H.symm) ((f1.z.trans hz).trans f2.z.symm)
        ((f1.R.trans hR).trans f2.R.symm))⟩
  | setX v =>
    apply rel2_of_ok
    · simp only [World.step, copyFromSlice_ok hop, res_bind_ok]; rfl
    · simp only [World.step, copyFromSlice_ok hop', res_bind_ok]; rfl
    · exact ⟨rfl, h.A, h.P, h.Q, h.ctl, h.obs⟩
  | setA v =>
    apply rel2_of_ok
    · simp only [World.step, copyFromSlice_ok hop, res_bind_ok]; rfl
    · simp only [World.step, copyFromSlice_ok hop', res_bind_ok]; rfl
    · exact ⟨h.x, rfl, h.P, h.Q, h.ctl, h.obs⟩
  | setP v =>
    apply rel2_of_ok
    · simp only [World.step, copyFromSlice_ok hop, res_bind_ok]; rfl
    · simp only [World.step, copyFromSlice_ok hop', res_bind_ok]; rfl
    · exact ⟨h.x, h.A, rfl, h.Q, h.ctl, h.obs⟩
  | setQ v =>
    apply rel2_of_ok
    · simp only [World.step, copyFromSlice_ok hop, res_bind_ok]; rfl
    · simp only [World.step, copyFromSlice_ok hop', res_bind_ok]; rfl
    · exact ⟨h.x, h.A, h.P, rfl, h.ctl, h.obs⟩
  | setU i v =>
    obtain ⟨c, hi, hl⟩ := map_len_some hop
    obtain ⟨d, hi', hl'⟩ := map_len_some hop'
    obtain ⟨d', hd', hcd⟩ := forall₂_get h.ctl hi
    obtain rfl : d = d' := by rw [hi'] at hd'; exact Option.some.inj hd'
    cases hcd with | mk hB hu hQ =>
    apply rel2_of_ok
    · simp only [World.step, World.withCtl, hi, copyFromSlice_ok hl, res_bind_ok, pure_bind]; rfl
    · simp only [World.step, World.withCtl, hi', copyFromSlice_ok hl', res_bind_ok, pure_bind]; rfl
    · exact ⟨h.x, h.A, h.P, h.Q, forall₂_set h.ctl i (.mk hB rfl hQ), h.obs⟩
  | setB i v =>
    obtain ⟨c, hi, hl⟩ := map_len_some hop
    obtain ⟨d, hi', hl'⟩ := map_len_some hop'
    obtain ⟨d', hd', hcd⟩ := forall₂_get h.ctl hi
    obtain rfl : d = d' := by rw [hi'] at hd'; exact Option.some.inj hd'
    cases hcd with | mk hB hu hQ =>
    apply rel2_of_ok
    · simp only [World.step, World.withCtl, hi, copyFromSlice_ok hl, res_bind_ok, pure_bind]; rfl
    · simp only [World.step, World.withCtl, hi', copyFromSlice_ok hl', res_bind_ok, pure_bind]; rfl
    · exact ⟨h.x, h.A, h.P, h.Q, forall₂_set h.ctl i (.mk rfl hu hQ), h.obs⟩
  | setQc i v =>
    obtain ⟨c, hi, hl⟩ := map_len_some hop
    obtain ⟨d, hi', hl'⟩ := map_len_some hop'
    obtain ⟨d', hd', hcd⟩ := forall₂_get h.ctl hi
    obtain rfl : d = d' := by rw [hi'] at hd'; exact Option.some.inj hd'
    cases hcd with | mk hB hu hQ =>
    apply rel2_of_ok
    · simp only [World.step, World.withCtl, hi, copyFromSlice_ok hl, res_bind_ok, pure_bind]; rfl
    · simp only [World.step, World.withCtl, hi', copyFromSlice_ok hl', res_bind_ok, pure_bind]; rfl
    · exact ⟨h.x, h.A, h.P, h.Q, forall₂_set h.ctl i (.mk hB hu rfl), h.obs⟩
  | setZ i v =>
    obtain ⟨c, hi, hl⟩ := map_len_some hop
    obtain ⟨d, hi', hl'⟩ := map_len_some hop'
    obtain ⟨d', hd', hcd⟩ := forall₂_get h.obs hi
    obtain rfl : d = d' := by rw [hi'] at hd'; exact Option.some.inj hd'
    cases hcd with | mk hH hz hR =>
    apply rel2_of_ok
    · simp only [World.step, World.withObs, hi, copyFromSlice_ok hl, res_bind_ok, pure_bind]; rfl
    · simp only [World.step, World.withObs, hi', copyFromSlice_ok hl', res_bind_ok, pure_bind]; rfl
    · exact ⟨h.x, h.A, h.P, h.Q, h.ctl, forall₂_set h.obs i (.mk hH rfl hR)⟩
  | setH i v =>
    obtain ⟨c, hi, hl⟩ := map_len_some hop
    obtain ⟨d, hi', hl'⟩ := map_len_some hop'
    obtain ⟨d', hd', hcd⟩ := forall₂_get h.obs hi
    obtain rfl : d = d' := by rw [hi'] at hd'; exact Option.some.inj hd'
    cases hcd with | mk hH hz hR =>
    apply rel2_of_ok
    · simp only [World.step, World.withObs, hi, copyFromSlice_ok hl, res_bind_ok, pure_bind]; rfl
    · simp only [World.step, World.withObs, hi', copyFromSlice_ok hl', res_bind_ok, pure_bind]; rfl
    · exact ⟨h.x, h.A, h.P, h.Q, h.ctl, forall₂_set h.obs i (.mk rfl hz hR)⟩
  | setR i v =>
    obtain ⟨c, hi, hl⟩ := map_len_some hop
    obtain ⟨d, hi', hl'⟩ := map_len_some hop'
    obtain ⟨d', hd', hcd⟩ := forall₂_get h.obs hi
    obtain rfl : d = d' := by rw [hi'] at hd'; exact Option.some.inj hd'
    cases hcd with | mk hH hz hR =>
    apply rel2_of_ok
    · simp only [World.step, World.withObs, hi, copyFromSlice_ok hl, res_bind_ok, pure_bind]; rfl
    · simp only [World.step, World.withObs, hi', copyFromSlice_ok hl', res_bind_ok, pure_bind]; rfl
    · exact ⟨h.x, h.A, h.P, h.Q, h.ctl, forall₂_set h.obs i (.mk hH hz rfl)⟩

theorem run_scribbled (bld : Build) {scribble : Nat → World n T → World n T} (hsc : OnlyTemporaries scribble) (k : Nat)
    {w w' : World n T} (hw : w.Valid) (hw' : w'.Valid) (h : w.InputsEq w') {ops : List (Op T)}
    (hops : ∀ op ∈ ops, op.WellFormed w) :
    Rel2 (w.run bld ops) (w'.runScribbled bld scribble k ops) (fun a b => a.InputsEq b) := by
  induction ops generalizing w w' k with
  | nil => exact Rel2.ok h
  | cons op ops ih =>
    unfold World.run World.runScribbled
    have h2 := h.trans (hsc k w').1
    have hv2 := (hsc k w').2 hw'
    have ho := hops op (by simp)
    rcases step_inputs bld hw hv2 h2 ho with ⟨e, e1, e2⟩ | ⟨a, b, e1, e2, hab⟩
    · rw [e1, e2]; exact Or.inl ⟨e, rfl, rfl⟩
    · obtain ⟨v1, s1⟩ := step_ok hw ho e1
      obtain ⟨v2, s2⟩ := step_ok hv2 (ho.congr h2.shape) e2
      rw [e1, e2]
      exact ih _ v1 v2 hab (fun o ho => (hops o (by simp [ho])).congr s1)

end AnyArith
end Minikalman
