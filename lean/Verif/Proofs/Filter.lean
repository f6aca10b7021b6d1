import Verif.Spec.Filter
import Verif.Proofs.Safety

/-! # Filter steps in any arithmetic -/

set_option linter.unusedSectionVars false

namespace Minikalman

variable {T : Type} {R C n l m : Nat}

theorem Mat.Agree.refl (a : Mat R C T) : a.Agree a := fun _ _ => rfl
theorem Mat.Agree.symm {a b : Mat R C T} (h : a.Agree b) : b.Agree a := fun i j => (h i j).symm
theorem Mat.Agree.trans {a b c : Mat R C T} (h : a.Agree b) (h' : b.Agree c) : a.Agree c :=
  fun i j => (h i j).trans (h' i j)
theorem Mat.Agree.reps {a b : Mat R C T} {A} (h : a.Agree b) (ha : a.Reps A) : b.Reps A :=
  fun i j => (h i j).symm.trans (ha i j)
theorem Mat.Reps.agree {a b : Mat R C T} {A} (ha : a.Reps A) (hb : b.Reps A) : a.Agree b :=
  fun i j => (ha i j).trans (hb i j).symm
theorem Mat.RepsV.agree {a b : Mat n 1 T} {v} (ha : a.RepsV v) (hb : b.RepsV v) : a.Agree b :=
  (Mat.repsV_iff.mp ha).agree (Mat.repsV_iff.mp hb)
theorem Mat.Agree.repsV {a b : Mat n 1 T} {v} (h : a.Agree b) (ha : a.RepsV v) : b.RepsV v :=
  Mat.repsV_iff.mpr (h.reps (Mat.repsV_iff.mp ha))

theorem Mat.Agree.cl [Zero T] {a b : Mat n n T} (h : a.Agree b) {r c : Nat} (hr : r < n) (hc : c < n) :
    cl n a.data r c = cl n b.data r c := by
  unfold Minikalman.cl
  rw [h ⟨r, hr⟩ ⟨c, hc⟩]

theorem Mat.agree_of_cl [Zero T] {a b : Mat n n T} (ha : a.Valid) (hb : b.Valid)
    (h : ∀ r c, r < n → c < n → Minikalman.cl n a.data r c = Minikalman.cl n b.data r c) : a.Agree b := by
  intro i j
  rw [getElem?_cl ha i.2 j.2, getElem?_cl hb i.2 j.2, h i j i.2 j.2]

theorem RegularKalman.Frame.valid {f f' : RegularKalman n T} (h : f.Frame f') (hf : f.Valid) : f'.Valid :=
  ⟨h.x.valid hf.x, h.A ▸ hf.A, h.P.valid hf.P, h.Q ▸ hf.Q, h.predictedX.valid hf.predictedX, h.tempP.valid hf.tempP⟩

theorem Control.Frame.valid {c c' : Control n l T} (h : c.Frame c') (hc : c.Valid) : c'.Valid :=
  ⟨h.B ▸ hc.B, h.u ▸ hc.u, h.Q ▸ hc.Q, h.tempBQ.valid hc.tempBQ⟩

theorem RegularObservation.Frame.valid {o o' : RegularObservation n m T} (h : o.Frame o') (ho : o.Valid) : o'.Valid :=
  ⟨h.H ▸ ho.H, h.z ▸ ho.z, h.R ▸ ho.R, h.y.valid ho.y, h.S.valid ho.S, h.K.valid ho.K,
    h.tempSInv.valid ho.tempSInv, h.tempHP.valid ho.tempHP, h.tempPHt.valid ho.tempPHt, h.tempKHP.valid ho.tempKHP⟩

section AnyArith
variable [Zero T] [One T] [Add T] [Sub T] [Mul T] [Neg T] [MDT T]

/-! ## Prediction -/

theorem predictX_any {f : RegularKalman n T} (hn : 0 < n) (hf : f.Valid) {X A} (hX : f.x.RepsV X) (hA : f.A.Reps A) :
    ∃ f', f.predictX = .ok f' ∧ f'.x.RepsV (Spec.mulVecSeq A X) ∧ f'.predictedX.RepsV (Spec.mulVecSeq A X) ∧
      f'.P = f.P ∧ f.Frame f' := by
  obtain ⟨px, h1, h2, h3⟩ := Mat.multRowvector_reps hn hA hX hf.predictedX
  obtain ⟨x', h4, h5, h6⟩ := Mat.copyTo_repsV hn h2 hf.x
  refine ⟨{ f with x := x', predictedX := px }, ?_, h5, h2, rfl, rfl, rfl, h6, Mat.SameTail.refl _, h3,
    Mat.SameTail.refl _⟩
  unfold RegularKalman.predictX
  rw [h1, res_bind_ok, h4]; rfl

theorem predictP_any {f : RegularKalman n T} (hf : f.Valid) {A P Q} (hA : f.A.Reps A) (hP : f.P.Reps P)
    (hQ : f.Q.Reps Q) :
    ∃ f', f.predictP = .ok f' ∧ f'.P.Reps (Spec.mulSeq (Spec.mulSeq A P) A.transpose + Q) ∧ f'.x = f.x ∧
      f'.predictedX = f.predictedX ∧ f'.tempP.Reps (Spec.mulSeq A P) ∧ f.Frame f' := by
  obtain ⟨tp, h1, h2, h3⟩ := Mat.mult_reps hA hP hf.tempP
  obtain ⟨p1, h4, h5, h6⟩ := Mat.multTransb_reps h2 hA hf.P
  obtain ⟨p2, h7, h8, h9⟩ := Mat.addInplaceB_reps hQ h5
  refine ⟨{ f with P := p2, tempP := tp }, ?_, h8, rfl, rfl, h2, rfl, rfl, Mat.SameTail.refl _, h6.trans h9,
    Mat.SameTail.refl _, h3⟩
  unfold RegularKalman.predictP
  simp only [h1, h4, h7, res_bind_ok]; rfl

theorem predictPTuned_any {f : RegularKalman n T} (hf : f.Valid) {A P Q} (lambda : T) {φ : T}
    (hφ : MDT.recip (lambda * lambda) = .ok φ) (hA : f.A.Reps A) (hP : f.P.Reps P)
    (hQ : f.Q.Reps Q) :
    ∃ f', f.predictPTuned lambda = .ok f' ∧
      f'.P.Reps (Matrix.of (fun i j => Spec.mulSeq (Spec.mulSeq A P) A.transpose i j * φ) + Q) ∧ f'.x = f.x ∧
      f'.predictedX = f.predictedX ∧ f'.tempP.Reps (Spec.mulSeq A P) ∧ f.Frame f' := by
  obtain ⟨tp, h1, h2, h3⟩ := Mat.mult_reps hA hP hf.tempP
  obtain ⟨p1, h4, h5, h6⟩ := Mat.multscaleTransb_reps φ h2 hA hf.P
  obtain ⟨p2, h7, h8, h9⟩ := Mat.addInplaceB_reps hQ h5
  refine ⟨{ f with P := p2, tempP := tp }, ?_, h8, rfl, rfl, h2, rfl, rfl, Mat.SameTail.refl _, h6.trans h9,
    Mat.SameTail.refl _, h3⟩
  unfold RegularKalman.predictPTuned
  simp only [hφ, h1, h4, h7, res_bind_ok]; rfl

theorem RegularKalman.Frame.trans {f g h : RegularKalman n T} (h1 : f.Frame g) (h2 : g.Frame h) : f.Frame h :=
  ⟨h2.A.trans h1.A, h2.Q.trans h1.Q, h1.x.trans h2.x, h1.P.trans h2.P, h1.predictedX.trans h2.predictedX,
    h1.tempP.trans h2.tempP⟩

theorem predict_any {f : RegularKalman n T} (hn : 0 < n) (hf : f.Valid) {X A P Q} (hX : f.x.RepsV X)
    (hA : f.A.Reps A) (hP : f.P.Reps P) (hQ : f.Q.Reps Q) :
    ∃ f', f.predict = .ok f' ∧ f'.x.RepsV (Spec.mulVecSeq A X) ∧
      f'.P.Reps (Spec.mulSeq (Spec.mulSeq A P) A.transpose + Q) ∧ f.Frame f' := by
  obtain ⟨g, h1, h2, _, h3, h4⟩ := predictX_any hn hf hX hA
  obtain ⟨f', h5, h6, h7, _, _, h8⟩ := predictP_any (f := g) (h4.valid hf) (h4.A ▸ hA) (h3 ▸ hP) (h4.Q ▸ hQ)
  refine ⟨f', ?_, h7 ▸ h2, h6, h4.trans h8⟩
  unfold RegularKalman.predict
  rw [h1, res_bind_ok, h5]

theorem predictTuned_any {f : RegularKalman n T} (hn : 0 < n) (hf : f.Valid) (lambda : T) {φ : T}
    (hφ : MDT.recip (lambda * lambda) = .ok φ) {X A P Q} (hX : f.x.RepsV X)
    (hA : f.A.Reps A) (hP : f.P.Reps P) (hQ : f.Q.Reps Q) :
    ∃ f', f.predictTuned lambda = .ok f' ∧ f'.x.RepsV (Spec.mulVecSeq A X) ∧
      f'.P.Reps (Matrix.of (fun i j => Spec.mulSeq (Spec.mulSeq A P) A.transpose i j * φ) + Q) ∧ f.Frame f' := by
  obtain ⟨g, h1, h2, _, h3, h4⟩ := predictX_any hn hf hX hA
  obtain ⟨f', h5, h6, h7, _, _, h8⟩ :=
    predictPTuned_any (f := g) (h4.valid hf) lambda hφ (h4.A ▸ hA) (h3 ▸ hP) (h4.Q ▸ hQ)
  refine ⟨f', ?_, h7 ▸ h2, h6, h4.trans h8⟩
  unfold RegularKalman.predictTuned
  rw [h1, res_bind_ok, h5]

theorem predictTuned_error {f : RegularKalman n T} (hn : 0 < n) (hf : f.Valid) (lambda : T) {e : Panic}
    (hφ : MDT.recip (lambda * lambda) = .error e) : f.predictTuned lambda = .error e := by
  obtain ⟨g, h1, _⟩ := predictX_any hn hf hf.x.repsV hf.A.reps
  unfold RegularKalman.predictTuned
  rw [h1, res_bind_ok]
  unfold RegularKalman.predictPTuned
  rw [hφ]; rfl

/-! ## Controls -/

theorem control_empty {c : Control n l T} (hl : l = 0 ∨ n = 0) (x : Mat n 1 T) (P : Mat n n T) :
    c.applyControl x P = .ok (c, x, P) := by
  unfold Control.applyControl
  rcases hl with rfl | rfl <;> simp [Mat.isEmpty] <;> rfl

theorem control_any {c : Control n l T} {x : Mat n 1 T} {P : Mat n n T} (hn : 0 < n) (hl : 0 < l) (hc : c.Valid)
    {B U Q X PP} (hB : c.B.Reps B) (hU : c.u.RepsV U) (hQ : c.Q.Reps Q) (hX : x.RepsV X) (hP : P.Reps PP) :
    ∃ c' x' P', c.applyControl x P = .ok (c', x', P') ∧ x'.RepsV (X + Spec.mulVecSeq B U) ∧
      P'.Reps (PP + Spec.mulSeq (Spec.mulSeq B Q) B.transpose) ∧ c.Frame c' ∧ x.SameTail x' ∧ P.SameTail P' := by
  obtain ⟨x', h1, h2, h3⟩ := Mat.multaddRowvector_reps hl hB hU hX
  obtain ⟨t, h4, h5, h6⟩ := Mat.mult_reps hB hQ hc.tempBQ
  obtain ⟨P', h7, h8, h9⟩ := Mat.multaddTransb_reps h5 hB hP
  refine ⟨{ c with tempBQ := t }, x', P', ?_, h2, h8, ⟨rfl, rfl, rfl, h6⟩, h3, h9⟩
  unfold Control.applyControl
  have e : (c.u.isEmpty || c.B.isEmpty) = false := by
    simp [Mat.isEmpty]; omega
  rw [e]
  simp only [h1, h4, h7, res_bind_ok, Bool.false_eq_true, if_false]; rfl

/-! ## Observations -/

/-- Two runs of the measurement update with the same `H`, `R`, `P` matrices and arbitrary states, innovations and
temporaries. -/
theorem update_rel (bld : Build) {o o' : RegularObservation n m T} {x x' : Mat n 1 T} {P P' : Mat n n T}
    (hm : 0 < m) (ho : o.Valid) (ho' : o'.Valid)
    (hPv : P.Valid) (hH : o.H.Agree o'.H) (hR : o.R.Agree o'.R) (hP : P.Agree P')
    {X Y X' Y'} (hX : x.RepsV X) (hY : o.y.RepsV Y) (hX' : x'.RepsV X') (hY' : o'.y.RepsV Y') :
    Rel2 (o.updateWithInnovation bld x P) (o'.updateWithInnovation bld x' P') (fun a b =>
      o.Frame a.1 ∧ o'.Frame b.1 ∧ a.1.y = o.y ∧ b.1.y = o'.y ∧ x.SameTail a.2.1 ∧ x'.SameTail b.2.1 ∧
      P.SameTail a.2.2 ∧ P'.SameTail b.2.2 ∧ a.2.2.Agree b.2.2 ∧ a.1.S.Agree b.1.S ∧
      a.1.tempSInv.Agree b.1.tempSInv ∧ a.1.tempHP.Agree b.1.tempHP ∧
      a.1.tempPHt.Agree b.1.tempPHt ∧ a.1.tempKHP.Agree b.1.tempKHP ∧
      ∃ K, a.1.K.Reps K ∧ b.1.K.Reps K ∧ a.2.1.RepsV (X + Spec.mulVecSeq K Y) ∧
        b.2.1.RepsV (X' + Spec.mulVecSeq K Y')) := by
  have hHr := ho.H.reps
  have hHr' := hH.reps hHr
  have hRr := ho.R.reps
  have hRr' := hR.reps hRr
  have hPr := hPv.reps
  have hPr' := hP.reps hPr
  obtain ⟨hp, h1, h2, h3⟩ := Mat.mult_reps hHr hPr ho.tempHP
  obtain ⟨hp', h1', h2', h3'⟩ := Mat.mult_reps hHr' hPr' ho'.tempHP
  obtain ⟨s, h4, h5, h6⟩ := Mat.multTransb_reps h2 hHr ho.S
  obtain ⟨s', h4', h5', h6'⟩ := Mat.multTransb_reps h2' hHr' ho'.S
  obtain ⟨s2, h7, h8, h9⟩ := Mat.addInplaceA_reps h5 hRr
  obtain ⟨s2', h7', h8', h9'⟩ := Mat.addInplaceA_reps h5' hRr'
  obtain ⟨pht, h10, h11, h12⟩ := Mat.multTransb_reps hPr hHr ho.tempPHt
  obtain ⟨pht', h10', h11', h12'⟩ := Mat.multTransb_reps hPr' hHr' ho'.tempPHt
  obtain ⟨hq, h13, h14, h15⟩ := Mat.mult_reps hHr hPr (h3.valid ho.tempHP)
  obtain ⟨hq', h13', h14', h15'⟩ := Mat.mult_reps hHr' hPr' (h3'.valid ho'.tempHP)
  unfold RegularObservation.updateWithInnovation
  simp only [h1, h4, h7, h1', h4', h7', res_bind_ok]
  have hag := h8.agree h8'
  refine (chol_rel 1 bld h8.valid h8'.valid (fun r c hr hc _ => hag.cl hr hc)).bind ?_
  rintro ⟨L, b⟩ ⟨L', b'⟩ ⟨ht, ht', _, hL⟩
  have hLv : L.Valid := ht.le h8.valid
  have hLv' : L'.Valid := ht'.le h8'.valid
  have hLag := Mat.agree_of_cl hLv hLv' (hL (Or.inr rfl))
  have htS : o.S.SameTail L := (h6.trans h9).trans ht
  have htS' : o'.S.SameTail L' := (h6'.trans h9').trans ht'
  refine (invert_rel hm hLv hLv' ho.tempSInv ho'.tempSInv (fun r c hr hc => hLag.cl hr (by omega))).bind ?_
  rintro si si' ⟨hsi, hsi', hsic⟩
  have hsv : si.Valid := hsi.le ho.tempSInv
  have hsv' : si'.Valid := hsi'.le ho'.tempSInv
  have hsag := Mat.agree_of_cl hsv hsv' hsic
  obtain ⟨k, k1, k2, k3⟩ := Mat.mult_reps h11 hsv.reps ho.K
  obtain ⟨k', k1', k2', k3'⟩ := Mat.mult_reps h11' (hsag.reps hsv.reps) ho'.K
  obtain ⟨xn, x1, x2, x3⟩ := Mat.multaddRowvector_reps hm k2 hY hX
  obtain ⟨xn', x1', x2', x3'⟩ := Mat.multaddRowvector_reps hm k2' hY' hX'
  obtain ⟨khp, q1, q2, q3⟩ := Mat.mult_reps k2 h14 ho.tempKHP
  obtain ⟨khp', q1', q2', q3'⟩ := Mat.mult_reps k2' h14' ho'.tempKHP
  obtain ⟨pn, p1, p2, p3⟩ := Mat.subInplaceA_reps hPr q2
  obtain ⟨pn', p1', p2', p3'⟩ := Mat.subInplaceA_reps hPr' q2'
  simp only [h10, h10', k1, k1', x1, x1', h13, h13', q1, q1', p1, p1', res_bind_ok]
  exact Rel2.pure ⟨⟨rfl, rfl, rfl, Mat.SameTail.refl _, htS, k3, hsi, h3.trans h15, h12, q3⟩,
    ⟨rfl, rfl, rfl, Mat.SameTail.refl _, htS', k3', hsi', h3'.trans h15', h12', q3'⟩, rfl, rfl, x3, x3', p3, p3',
    p2.agree p2', hLag, hsag, h14.agree h14', h11.agree h11', q2.agree q2', _, k2, k2', x2, x2'⟩

theorem innovation_any {o : RegularObservation n m T} {x : Mat n 1 T} (hn : 0 < n) (ho : o.Valid) {H Z X}
    (hH : o.H.Reps H) (hZ : o.z.RepsV Z) (hX : x.RepsV X) :
    ∃ y1 y2, o.H.multRowvector x o.y = .ok y1 ∧ o.z.subInplaceB y1 = .ok y2 ∧
      y2.RepsV (Z - Spec.mulVecSeq H X) ∧ o.y.SameTail y2 := by
  obtain ⟨y1, h1, h2, h3⟩ := Mat.multRowvector_reps hn hH hX ho.y
  obtain ⟨y2, h4, h5, h6⟩ := Mat.subInplaceB_repsV hZ h2
  exact ⟨y1, y2, h1, h4, h5, h3.trans h6⟩

theorem obs_with_y_valid {o : RegularObservation n m T} (ho : o.Valid) {y : Mat m 1 T} (h : o.y.SameTail y) :
    ({ o with y := y } : RegularObservation n m T).Valid :=
  ⟨ho.H, ho.z, ho.R, h.valid ho.y, ho.S, ho.K, ho.tempSInv, ho.tempHP, ho.tempPHt, ho.tempKHP⟩

/-- Two runs of `correct` with the same `H`, `R`, `P` matrices and arbitrary states, measurements and temporaries. -/
theorem correct_rel (bld : Build) {o o' : RegularObservation n m T} {x x' : Mat n 1 T} {P P' : Mat n n T}
    (hn : 0 < n) (hm : 0 < m) (ho : o.Valid) (ho' : o'.Valid)
    (hPv : P.Valid) (hH : o.H.Agree o'.H) (hR : o.R.Agree o'.R) (hP : P.Agree P')
    {H X Z X' Z'} (hHr : o.H.Reps H) (hX : x.RepsV X) (hZ : o.z.RepsV Z) (hX' : x'.RepsV X') (hZ' : o'.z.RepsV Z') :
    Rel2 (o.correct bld x P) (o'.correct bld x' P') (fun a b =>
      o.Frame a.1 ∧ o'.Frame b.1 ∧ x.SameTail a.2.1 ∧ x'.SameTail b.2.1 ∧
      P.SameTail a.2.2 ∧ P'.SameTail b.2.2 ∧ a.2.2.Agree b.2.2 ∧ a.1.S.Agree b.1.S ∧
      a.1.tempSInv.Agree b.1.tempSInv ∧ a.1.tempHP.Agree b.1.tempHP ∧
      a.1.tempPHt.Agree b.1.tempPHt ∧ a.1.tempKHP.Agree b.1.tempKHP ∧
      a.1.y.RepsV (Z - Spec.mulVecSeq H X) ∧ b.1.y.RepsV (Z' - Spec.mulVecSeq H X') ∧
      ∃ K, a.1.K.Reps K ∧ b.1.K.Reps K ∧ a.2.1.RepsV (X + Spec.mulVecSeq K (Z - Spec.mulVecSeq H X)) ∧
        b.2.1.RepsV (X' + Spec.mulVecSeq K (Z' - Spec.mulVecSeq H X'))) := by
  obtain ⟨y1, y2, h1, h2, h3, h4⟩ := innovation_any hn ho hHr hZ hX
  obtain ⟨y1', y2', h1', h2', h3', h4'⟩ := innovation_any hn ho' (hH.reps hHr) hZ' hX'
  unfold RegularObservation.correct
  simp only [h1, h2, h1', h2', res_bind_ok]
  refine (update_rel bld (o := { o with y := y2 }) (o' := { o' with y := y2' }) hm (obs_with_y_valid ho h4)
    (obs_with_y_valid ho' h4') hPv hH hR hP hX h3 hX' h3').mono ?_
  rintro a b ⟨f1, f2, e1, e2, r3, r4, r5, r6, r7, r8, r9, r10, r11, r12, r13⟩
  refine ⟨⟨f1.H, f1.z, f1.R, ?_, f1.S, f1.K, f1.tempSInv, f1.tempHP, f1.tempPHt, f1.tempKHP⟩,
    ⟨f2.H, f2.z, f2.R, ?_, f2.S, f2.K, f2.tempSInv, f2.tempHP, f2.tempPHt, f2.tempKHP⟩,
    r3, r4, r5, r6, r7, r8, r9, r10, r11, r12, ?_, ?_, r13⟩
  · rw [e1]; exact h4
  · rw [e2]; exact h4'
  · rw [e1]; exact h3
  · rw [e2]; exact h3'

theorem update_safe (bld : Build) {o : RegularObservation n m T} {x : Mat n 1 T} {P : Mat n n T}
    (hm : 0 < m) (ho : o.Valid) (hx : x.Valid) (hP : P.Valid) :
    Safe (ScalarPanic T) (o.updateWithInnovation bld x P) (fun _ => True) := by
  obtain ⟨hp, h1, h2, h3⟩ := Mat.mult_reps ho.H.reps hP.reps ho.tempHP
  obtain ⟨s, h4, h5, h6⟩ := Mat.multTransb_reps h2 ho.H.reps ho.S
  obtain ⟨s2, h7, h8, h9⟩ := Mat.addInplaceA_reps h5 ho.R.reps
  obtain ⟨pht, h10, h11, h12⟩ := Mat.multTransb_reps hP.reps ho.H.reps ho.tempPHt
  obtain ⟨hq, h13, h14, h15⟩ := Mat.mult_reps ho.H.reps hP.reps (h3.valid ho.tempHP)
  unfold RegularObservation.updateWithInnovation
  simp only [h1, h4, h7, res_bind_ok]
  refine (chol_safe bld hm h8.valid).bind ?_
  rintro ⟨L, b⟩ ht
  have hLv : L.Valid := ht.le h8.valid
  refine (invert_safe hm hLv ho.tempSInv).bind fun si hsi => ?_
  have hsv : si.Valid := hsi.le ho.tempSInv
  obtain ⟨k, k1, k2, k3⟩ := Mat.mult_reps h11 hsv.reps ho.K
  obtain ⟨xn, x1, x2, x3⟩ := Mat.multaddRowvector_reps hm k2 ho.y.repsV hx.repsV
  obtain ⟨khp, q1, q2, q3⟩ := Mat.mult_reps k2 h14 ho.tempKHP
  obtain ⟨pn, p1, p2, p3⟩ := Mat.subInplaceA_reps hP.reps q2
  simp only [h10, k1, x1, h13, q1, p1, res_bind_ok]
  exact Safe.pure trivial

theorem correct_safe (bld : Build) {o : RegularObservation n m T} {x : Mat n 1 T} {P : Mat n n T}
    (hn : 0 < n) (hm : 0 < m) (ho : o.Valid) (hx : x.Valid) (hP : P.Valid) :
    Safe (ScalarPanic T) (o.correct bld x P)
      (fun r => o.Frame r.1 ∧ x.SameTail r.2.1 ∧ P.SameTail r.2.2) := by
  obtain ⟨y1, y2, h1, h2, h3, h4⟩ := innovation_any hn ho ho.H.reps ho.z.repsV hx.repsV
  have hs : Safe (ScalarPanic T) (o.correct bld x P) (fun _ => True) := by
    unfold RegularObservation.correct
    simp only [h1, h2, res_bind_ok]
    exact update_safe bld hm (obs_with_y_valid ho h4) hx hP
  rcases hs with h | ⟨r, hr, _⟩
  · exact Or.inl h
  · refine Or.inr ⟨r, hr, ?_⟩
    have := correct_rel bld hn hm ho ho hP (Mat.Agree.refl _) (Mat.Agree.refl _) (Mat.Agree.refl _)
      ho.H.reps hx.repsV ho.z.repsV hx.repsV ho.z.repsV
    rcases this with ⟨e, h, _⟩ | ⟨a, b, h, _, h1, _, h2, _, h3, _⟩
    · rw [hr] at h; cases h
    · rw [hr] at h; cases h
      exact ⟨h1, h2, h3⟩

end AnyArith
end Minikalman
