import Verif.Spec.Kalman
import Verif.Proofs.FilterExact

/-! # Whole filter steps: helper lemmas -/

set_option linter.unusedSectionVars false

namespace Minikalman

open Matrix

variable {T : Type} {n l m : Nat}

theorem RegularKalman.Reps.valid {f : RegularKalman n T} {x A P Q} (h : f.Reps x A P Q) : f.Valid :=
  ⟨h.x.valid, h.A.valid, h.P.valid, h.Q.valid, h.predictedX, h.tempP⟩

theorem Control.Reps.valid {c : Control n l T} {B u Q} (h : c.Reps B u Q) : c.Valid :=
  ⟨h.B.valid, h.u.valid, h.Q.valid, h.tempBQ⟩

theorem RegularObservation.Reps.valid {o : RegularObservation n m T} {H z R} (h : o.Reps H z R) : o.Valid :=
  ⟨h.H.valid, h.z.valid, h.R.valid, h.y, h.S, h.K, h.tempSInv, h.tempHP, h.tempPHt, h.tempKHP⟩

theorem RegularKalman.Valid.reps [Zero T] {f : RegularKalman n T} (h : f.Valid) :
    f.Reps (fun i => f.x.cell i 0) (fun i j => f.A.cell i j) (fun i j => f.P.cell i j) (fun i j => f.Q.cell i j) :=
  ⟨h.x.repsV, h.A.reps, h.P.reps, h.Q.reps, h.predictedX, h.tempP⟩

theorem RegularKalman.Frame.reps {f f' : RegularKalman n T} {x A P Q} (h : f.Frame f') (hf : f.Reps x A P Q) {x' P'}
    (hx : f'.x.RepsV x') (hP : f'.P.Reps P') : f'.Reps x' A P' Q :=
  ⟨hx, h.A ▸ hf.A, hP, h.Q ▸ hf.Q, h.predictedX.valid hf.predictedX, h.tempP.valid hf.tempP⟩

theorem Control.Frame.reps {c c' : Control n l T} {B u Q} (h : c.Frame c') (hc : c.Reps B u Q) : c'.Reps B u Q :=
  ⟨h.B ▸ hc.B, h.u ▸ hc.u, h.Q ▸ hc.Q, h.tempBQ.valid hc.tempBQ⟩

theorem RegularObservation.Frame.reps {o o' : RegularObservation n m T} {H z R} (h : o.Frame o') (ho : o.Reps H z R) :
    o'.Reps H z R :=
  ⟨h.H ▸ ho.H, h.z ▸ ho.z, h.R ▸ ho.R, h.y.valid ho.y, h.S.valid ho.S, h.K.valid ho.K,
    h.tempSInv.valid ho.tempSInv, h.tempHP.valid ho.tempHP, h.tempPHt.valid ho.tempPHt, h.tempKHP.valid ho.tempKHP⟩

theorem RegularKalman.Frame.refl (f : RegularKalman n T) : f.Frame f :=
  ⟨rfl, rfl, Mat.SameTail.refl _, Mat.SameTail.refl _, Mat.SameTail.refl _, Mat.SameTail.refl _⟩

theorem Control.Frame.refl (c : Control n l T) : c.Frame c := ⟨rfl, rfl, rfl, Mat.SameTail.refl _⟩

theorem frame_xP {f : RegularKalman n T} {x P} (hx : f.x.SameTail x) (hP : f.P.SameTail P) :
    f.Frame { f with x := x, P := P } :=
  ⟨rfl, rfl, hx, hP, Mat.SameTail.refl _, Mat.SameTail.refl _⟩

theorem predict_exact [CommRing T] [MDT T] {f : RegularKalman n T} {x A P Q} (hn : 0 < n) (hf : f.Reps x A P Q) :
    ∃ f', f.predict = .ok f' ∧ f'.Reps (A *ᵥ x) A (Spec.predP A P Q) Q ∧ f.Frame f' := by
  obtain ⟨f', h1, h2, h3, h4⟩ := predict_any hn hf.valid hf.x hf.A hf.P hf.Q
  rw [mulVecSeq_eq_mulVec] at h2
  rw [mulSeq_eq_mul, mulSeq_eq_mul] at h3
  exact ⟨f', h1, h4.reps hf h2 h3, h4⟩

theorem predictTuned_exact [Field T] [MDT T] [ExactField T] {f : RegularKalman n T} {x A P Q} (hn : 0 < n)
    (lambda : T) (hl : lambda ≠ 0) (hf : f.Reps x A P Q) :
    ∃ f', f.predictTuned lambda = .ok f' ∧ f'.Reps (A *ᵥ x) A (Spec.predPTuned lambda A P Q) Q ∧ f.Frame f' := by
  obtain ⟨f', h1, h2, h3, h4⟩ := predictTuned_any hn hf.valid lambda
    (ExactField.recip_eq _ (mul_ne_zero hl hl)) hf.x hf.A hf.P hf.Q
  rw [mulVecSeq_eq_mulVec] at h2
  rw [mulSeq_eq_mul, mulSeq_eq_mul] at h3
  refine ⟨f', h1, h4.reps hf h2 ?_, h4⟩
  convert h3 using 1
  ext i j
  simp [Spec.predPTuned, pow_two, mul_comm]

theorem control_exact [CommRing T] [MDT T] {f : RegularKalman n T} {c : Control n l T} {x A P Q B u Qc}
    (hf : f.Reps x A P Q) (hc : c.Reps B u Qc) :
    ∃ f' c', f.control c = .ok (f', c') ∧ f'.Reps (Spec.ctlX B u x) A (Spec.ctlP B Qc P) Q ∧ f.Frame f' ∧
      c.Frame c' ∧ c'.Reps B u Qc := by
  by_cases h0 : l = 0 ∨ n = 0
  · have h1 := control_empty (c := c) h0 f.x f.P
    refine ⟨f, c, ?_, ?_, RegularKalman.Frame.refl f, Control.Frame.refl c, hc⟩
    · unfold RegularKalman.control
      rw [h1]; rfl
    · rcases h0 with rfl | rfl
      · have e1 : Spec.ctlX B u x = x := by ext i; simp [Spec.ctlX]
        have e2 : Spec.ctlP B Qc P = P := by ext i j; simp [Spec.ctlP]
        rw [e1, e2]; exact hf
      · have e1 : Spec.ctlX B u x = x := by ext i; exact i.elim0
        have e2 : Spec.ctlP B Qc P = P := by ext i; exact i.elim0
        rw [e1, e2]; exact hf
  · obtain ⟨c', x', P', h1, h2, h3, h4, h5, h6⟩ := control_any (by omega) (by omega) hc.valid hc.B hc.u hc.Q hf.x hf.P
    rw [mulVecSeq_eq_mulVec] at h2
    rw [mulSeq_eq_mul, mulSeq_eq_mul] at h3
    refine ⟨{ f with x := x', P := P' }, c', ?_, (frame_xP h5 h6).reps hf h2 h3, frame_xP h5 h6, h4, h4.reps hc⟩
    unfold RegularKalman.control
    rw [h1]; rfl

theorem kcorrect_exact [MDT ℝ] [ExactReal] (bld : Build) {f : RegularKalman n ℝ} {o : RegularObservation n m ℝ}
    {x A P Q H z R} (hn : 0 < n) (hm : 0 < m) (hf : f.Reps x A P Q) (ho : o.Reps H z R)
    (hS : (Spec.innovCov H P R).PosDef) :
    ∃ f' o', f.correct bld o = .ok (f', o') ∧ f'.Reps (Spec.corrX H P R x z) A (Spec.corrP H P R) Q ∧ f.Frame f' ∧
      o.Frame o' ∧ o'.Reps H z R ∧ o'.K.Reps (Spec.gain H P R) := by
  obtain ⟨o', x', P', h1, h2, h3, h4, h5, _, h7, h8, _, _, _, h9, h10⟩ :=
    correct_exact bld hn hm ho.valid ho.H ho.R hf.P hf.x ho.z hS
  refine ⟨{ f with x := x', P := P' }, o', ?_, (frame_xP h3 h4).reps hf h9 ?_, frame_xP h3 h4, h2, h2.reps ho, h8⟩
  · unfold RegularKalman.correct
    rw [h1]; rfl
  · rw [Spec.corrP, Matrix.mul_assoc]; exact h10

/-- Cases for a bind to succeed. -/
theorem bind_ok {α β : Type} {m : Res α} {f : α → Res β} {b : β} (h : (m >>= f) = .ok b) :
    ∃ a, m = .ok a ∧ f a = .ok b := by
  cases m with
  | error e => cases h
  | ok a => exact ⟨a, rfl, h⟩

end Minikalman
