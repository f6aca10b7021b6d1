import Verif.Spec.Poison
import Verif.Proofs.RoundingCorrect
import Verif.Proofs.History

/-!
# Numbers that are not finite do not disappear
-/

set_option linter.unusedSectionVars false

namespace Minikalman

open Matrix

variable {T : Type} [Zero T] [One T] [Add T] [Sub T] [Mul T] [Neg T] [MDT T] {n m l : Nat}

namespace Rounded

theorem mulSeq_fin (ra : Rounded T) {R C U : Nat} {A : Matrix (Fin R) (Fin C) T} {B : Matrix (Fin C) (Fin U) T} {i j}
    (h : ra.fin (Spec.mulSeq A B i j)) (k : Fin C) : ra.fin (A i k) ∧ ra.fin (B k j) := (ra.mulSeq_bound h).1 k

theorem mulVecSeq_fin (ra : Rounded T) {R C : Nat} {A : Matrix (Fin R) (Fin C) T} {x : Fin C → T} {i}
    (h : ra.fin (Spec.mulVecSeq A x i)) (k : Fin C) : ra.fin (A i k) ∧ ra.fin (x k) := (ra.mulVecSeq_bound h).1 k

theorem add_fin (ra : Rounded T) {a b : T} (h : ra.fin (a + b)) : ra.fin a ∧ ra.fin b :=
  ⟨(ra.add_err a b h).1, (ra.add_err a b h).2.1⟩

theorem sub_fin (ra : Rounded T) {a b : T} (h : ra.fin (a - b)) : ra.fin a ∧ ra.fin b :=
  ⟨(ra.sub_err a b h).1, (ra.sub_err a b h).2.1⟩

theorem mul_fin (ra : Rounded T) {a b : T} (h : ra.fin (a * b)) : ra.fin a ∧ ra.fin b :=
  ⟨(ra.mul_err a b h).1, (ra.mul_err a b h).2.1⟩

theorem sandwich_fin (ra : Rounded T) {A : Matrix (Fin m) (Fin n) T} {P : Matrix (Fin n) (Fin n) T} {i j}
    (h : ra.fin (Spec.mulSeq (Spec.mulSeq A P) Aᵀ i j)) (k k' : Fin n) :
    ra.fin (A i k) ∧ ra.fin (A j k) ∧ ra.fin (P k' k) :=
  have h1 := ra.mulSeq_fin h k
  ⟨(ra.mulSeq_fin (ra.mulSeq_fin h k').1 k).1, h1.2, (ra.mulSeq_fin h1.1 k').2⟩

end Rounded

/-- The results of a correction, in any arithmetic. -/
theorem correct_any (bld : Build) {f f' : RegularKalman n T} {o o' : RegularObservation n m T} (hn : 0 < n) (hm : 0 < m)
    (ho : o.Valid) {H R : Matrix _ _ T} {P X Z} (hH : o.H.Reps H) (hR : o.R.Reps R) (hz : o.z.RepsV Z)
    (hP : f.P.Reps P) (hX : f.x.RepsV X) (h : f.correct bld o = .ok (f', o')) :
    ∃ W : Matrix (Fin m) (Fin m) T,
      f'.x.RepsV (X + Spec.mulVecSeq (Spec.mulSeq (Spec.mulSeq P Hᵀ) W) (Z - Spec.mulVecSeq H X)) ∧
      f'.P.Reps (P - Spec.mulSeq (Spec.mulSeq (Spec.mulSeq P Hᵀ) W) (Spec.mulSeq H P)) := by
  obtain ⟨y1, y2, h1, h2, h3, h4⟩ := innovation_any hn ho hH hz hX
  unfold RegularKalman.correct RegularObservation.correct at h
  simp only [h1, h2, res_bind_ok] at h
  obtain ⟨⟨o1, x1, P1⟩, hu, h⟩ := bind_ok h
  cases h
  obtain ⟨_, _, _, W, _, _, _, _, _, _, h7, h8⟩ := update_any bld (o := { o with y := y2 }) hm (obs_with_y_valid ho h4)
    hH hR hP hX h3 _ hu
  exact ⟨W, h7, h8⟩

section Steps
variable (ra : Rounded T)

theorem predict_fin {f : RegularKalman n T} {x A P Q} (hn : 0 < n) (hf : f.Reps x A P Q) :
    ∃ f' x' P', f.predict = .ok f' ∧ f'.Reps x' A P' Q ∧
      (∀ i, ra.fin (x' i) → (∀ j, ra.fin (x j)) ∧ ∀ j, ra.fin (A i j)) ∧
      (∀ i j, ra.fin (P' i j) → (∀ k l, ra.fin (P k l)) ∧ ra.fin (Q i j) ∧ ∀ k, ra.fin (A i k) ∧ ra.fin (A j k)) := by
  obtain ⟨f', h1, h2, h3, h4⟩ := predict_any hn
    ⟨hf.x.valid, hf.A.valid, hf.P.valid, hf.Q.valid, hf.predictedX, hf.tempP⟩ hf.x hf.A hf.P hf.Q
  refine ⟨f', _, _, h1, ⟨h2, h4.A ▸ hf.A, h3, h4.Q ▸ hf.Q, h4.predictedX.valid hf.predictedX, h4.tempP.valid hf.tempP⟩,
    fun i hi => ⟨fun j => (ra.mulVecSeq_fin hi j).2, fun j => (ra.mulVecSeq_fin hi j).1⟩, fun i j h => ?_⟩
  have h' := ra.add_fin h
  exact ⟨fun k l => (ra.sandwich_fin h'.1 l k).2.2, h'.2,
    fun k => ⟨(ra.sandwich_fin h'.1 k k).1, (ra.sandwich_fin h'.1 k k).2.1⟩⟩

theorem predictTuned_fin {f f' : RegularKalman n T} {lambda : T} {x A P Q} (hn : 0 < n) (hf : f.Reps x A P Q)
    (h : f.predictTuned lambda = .ok f') :
    ∃ x' P', f'.Reps x' A P' Q ∧
      (∀ i, ra.fin (x' i) → (∀ j, ra.fin (x j)) ∧ ∀ j, ra.fin (A i j)) ∧
      (∀ i j, ra.fin (P' i j) → (∀ k l, ra.fin (P k l)) ∧ ra.fin (Q i j) ∧ ∀ k, ra.fin (A i k) ∧ ra.fin (A j k)) := by
  have hv : f.Valid := ⟨hf.x.valid, hf.A.valid, hf.P.valid, hf.Q.valid, hf.predictedX, hf.tempP⟩
  cases hφ : MDT.recip (lambda * lambda) with
  | error e =>
    rw [predictTuned_error hn hv lambda hφ] at h; cases h
  | ok φ =>
    obtain ⟨g, h1, h2, h3, h4⟩ := predictTuned_any hn hv lambda hφ hf.x hf.A hf.P hf.Q
    rw [h] at h1; cases h1
    refine ⟨_, _, ⟨h2, h4.A ▸ hf.A, h3, h4.Q ▸ hf.Q, h4.predictedX.valid hf.predictedX, h4.tempP.valid hf.tempP⟩,
      fun i hi => ⟨fun j => (ra.mulVecSeq_fin hi j).2, fun j => (ra.mulVecSeq_fin hi j).1⟩, fun i j hij => ?_⟩
    have h' := ra.add_fin hij
    have h'' := (ra.mul_fin h'.1).1
    exact ⟨fun k l => (ra.sandwich_fin h'' l k).2.2, h'.2,
      fun k => ⟨(ra.sandwich_fin h'' k k).1, (ra.sandwich_fin h'' k k).2.1⟩⟩

theorem control_fin {f : RegularKalman n T} {c : Control n l T} {x A P Q B v Qc} (hn : 0 < n)
    (hl : 0 < l) (hf : f.Reps x A P Q) (hc : c.Reps B v Qc) :
    ∃ f' c' x' P', f.control c = .ok (f', c') ∧ f'.Reps x' A P' Q ∧
      (∀ i, ra.fin (x' i) → ra.fin (x i) ∧ (∀ k, ra.fin (B i k)) ∧ ∀ k, ra.fin (v k)) ∧
      (∀ i j, ra.fin (P' i j) → ra.fin (P i j) ∧ (∀ k, ra.fin (B i k) ∧ ra.fin (B j k)) ∧ ∀ k k', ra.fin (Qc k k')) := by
  obtain ⟨c', x', P', h1, h2, h3, h4, h5, h6⟩ := control_any hn hl
    ⟨hc.B.valid, hc.u.valid, hc.Q.valid, hc.tempBQ⟩ hc.B hc.u hc.Q hf.x hf.P
  refine ⟨{ f with x := x', P := P' }, c', _, _, ?_, ⟨h2, hf.A, h3, hf.Q, hf.predictedX, hf.tempP⟩, fun i hi => ?_,
    fun i j hij => ?_⟩
  · unfold RegularKalman.control
    rw [h1]; rfl
  · have h := ra.add_fin hi
    exact ⟨h.1, fun k => (ra.mulVecSeq_fin h.2 k).1, fun k => (ra.mulVecSeq_fin h.2 k).2⟩
  · have h := ra.add_fin hij
    exact ⟨h.1, fun k => ⟨(ra.sandwich_fin h.2 k k).1, (ra.sandwich_fin h.2 k k).2.1⟩,
      fun k k' => (ra.sandwich_fin h.2 k' k).2.2⟩

theorem correct_fin (bld : Build) {f f' : RegularKalman n T} {o o' : RegularObservation n m T}
    {x A P Q H z R} (hn : 0 < n) (hm : 0 < m) (hf : f.Reps x A P Q) (ho : o.Reps H z R)
    (h : f.correct bld o = .ok (f', o')) :
    ∃ x' P', f'.x.RepsV x' ∧ f'.P.Reps P' ∧
      (∀ i, ra.fin (x' i) → (∀ j, ra.fin (x j)) ∧ (∀ j, ra.fin (z j)) ∧ (∀ j k, ra.fin (H j k)) ∧ ∀ k, ra.fin (P i k)) ∧
      (∀ i j, ra.fin (P' i j) → ra.fin (P i j) ∧ (∀ k k', ra.fin (H k k')) ∧ ∀ k, ra.fin (P i k) ∧ ra.fin (P k j)) := by
  have hov : o.Valid := ⟨ho.H.valid, ho.z.valid, ho.R.valid, ho.y, ho.S, ho.K, ho.tempSInv, ho.tempHP, ho.tempPHt, ho.tempKHP⟩
  obtain ⟨W, h1, h2⟩ := correct_any bld hn hm hov ho.H ho.R ho.z hf.P hf.x h
  refine ⟨_, _, h1, h2, fun i hi => ?_, fun i j hij => ?_⟩
  · have h3 := ra.add_fin hi
    have h4 := ra.mulVecSeq_fin h3.2
    have h5 := fun j => ra.sub_fin (h4 j).2
    have h6 := fun j => ra.mulVecSeq_fin (h5 j).2
    refine ⟨fun j => (h6 ⟨0, hm⟩ j).2, fun j => (h5 j).1, fun j k => (h6 j k).1, fun k => ?_⟩
    exact (ra.mulSeq_fin (ra.mulSeq_fin (h4 ⟨0, hm⟩).1 ⟨0, hm⟩).1 k).1
  · have h3 := ra.sub_fin hij
    have h4 := ra.mulSeq_fin h3.2
    have h5 := fun k => ra.mulSeq_fin (h4 k).2
    refine ⟨h3.1, fun k k' => (h5 k k').1, fun k => ⟨?_, (h5 ⟨0, hm⟩ k).2⟩⟩
    exact (ra.mulSeq_fin (ra.mulSeq_fin (h4 ⟨0, hm⟩).1 ⟨0, hm⟩).1 k).1

end Steps

section Histories
variable (ra : Rounded T)

theorem withCtl_kf {w w' : World n T} {i : Nat} {g : (l : Nat) → Control n l T → Res (Control n l T)}
    (h : w.withCtl i g = .ok w') : w'.kf = w.kf := by
  unfold World.withCtl at h
  cases hc : w.ctl[i]? with
  | none => rw [hc] at h; cases h
  | some c =>
    obtain ⟨l, c⟩ := c
    simp only [hc] at h
    obtain ⟨c', _, h⟩ := bind_ok h
    cases h; rfl

theorem withObs_kf {w w' : World n T} {i : Nat} {g : (m : Nat) → RegularObservation n m T → Res (RegularObservation n m T)}
    (h : w.withObs i g = .ok w') : w'.kf = w.kf := by
  unfold World.withObs at h
  cases hc : w.obs[i]? with
  | none => rw [hc] at h; cases h
  | some c =>
    obtain ⟨l, c⟩ := c
    simp only [hc] at h
    obtain ⟨c', _, h⟩ := bind_ok h
    cases h; rfl

theorem finite_of_valid_zero {R : Nat} {M : Mat R 0 T} (h : M.Valid) : M.Finite ra :=
  ⟨_, h.reps, fun _ j => j.elim0⟩

/-- What a call that ends with a finite state, resp. covariance, started with. -/
theorem step_fin (bld : Build) {w w' : World n T} (hw : w.Valid) {op : Op T} (h : w.step bld op = .ok w') :
    (w'.kf.x.FiniteV ra → w.FiniteForState ra op) ∧ (w'.kf.P.Finite ra → w.FiniteForCovariance ra op) := by
  have hn := hw.states
  have hkf : w.kf.Reps _ _ _ _ := ⟨hw.kf.x.repsV, hw.kf.A.reps, hw.kf.P.reps, hw.kf.Q.reps, hw.kf.predictedX, hw.kf.tempP⟩
  have zero : Fin n := ⟨0, hn⟩
  cases op with
  | predict =>
    obtain ⟨f', x', P', h1, h2, h3, h4⟩ := predict_fin ra hn hkf
    simp only [World.step, h1, res_bind_ok] at h
    cases h
    constructor
    · rintro ⟨v, hv, hf⟩
      obtain rfl := h2.x.unique hv
      exact ⟨⟨_, hkf.x, (h3 zero (hf zero)).1⟩, ⟨_, hkf.A, fun i j => (h3 i (hf i)).2 j⟩⟩
    · rintro ⟨v, hv, hf⟩
      obtain rfl := h2.P.unique hv
      exact ⟨⟨_, hkf.P, (h4 zero zero (hf zero zero)).1⟩, ⟨_, hkf.A, fun i j => ((h4 i i (hf i i)).2.2 j).1⟩,
        ⟨_, hkf.Q, fun i j => (h4 i j (hf i j)).2.1⟩⟩
  | predictTuned lambda =>
    simp only [World.step] at h
    obtain ⟨f', h1, h⟩ := bind_ok h
    cases h
    obtain ⟨x', P', h2, h3, h4⟩ := predictTuned_fin ra hn hkf h1
    constructor
    · rintro ⟨v, hv, hf⟩
      obtain rfl := h2.x.unique hv
      exact ⟨⟨_, hkf.x, (h3 zero (hf zero)).1⟩, ⟨_, hkf.A, fun i j => (h3 i (hf i)).2 j⟩⟩
    · rintro ⟨v, hv, hf⟩
      obtain rfl := h2.P.unique hv
      exact ⟨⟨_, hkf.P, (h4 zero zero (hf zero zero)).1⟩, ⟨_, hkf.A, fun i j => ((h4 i i (hf i i)).2.2 j).1⟩,
        ⟨_, hkf.Q, fun i j => (h4 i j (hf i j)).2.1⟩⟩
  | control i =>
    simp only [World.step] at h
    cases hc : w.ctl[i]? with
    | none => rw [hc] at h; cases h
    | some c =>
      obtain ⟨l, c⟩ := c
      simp only [hc] at h
      obtain ⟨⟨f', c'⟩, h1, h⟩ := bind_ok h
      cases h
      have hcv : c.Valid := hw.ctl _ (List.mem_of_getElem? hc)
      have hcr : c.Reps _ _ _ := ⟨hcv.B.reps, hcv.u.repsV, hcv.Q.reps, hcv.tempBQ⟩
      rcases Nat.eq_zero_or_pos l with rfl | hl
      · have hf' : f'.x = w.kf.x ∧ f'.P = w.kf.P := by
          unfold RegularKalman.control Control.applyControl at h1
          have e : (c.u.isEmpty || c.B.isEmpty) = true := by simp [Mat.isEmpty]
          rw [e] at h1
          cases h1
          exact ⟨rfl, rfl⟩
        refine ⟨fun hx => ⟨hf'.1 ▸ hx, fun d hd => ?_⟩, fun hP => ⟨hf'.2 ▸ hP, fun d hd => ?_⟩⟩
        · rw [hc] at hd; cases hd
          exact ⟨finite_of_valid_zero ra hcv.B, _, hcv.u.repsV, fun i => i.elim0⟩
        · rw [hc] at hd; cases hd
          exact ⟨finite_of_valid_zero ra hcv.B, finite_of_valid_zero ra hcv.Q⟩
      · obtain ⟨f1, c1, x', P', g1, h2, h3, h4⟩ := control_fin ra hn hl hkf hcr
        rw [h1] at g1; cases g1
        constructor
        · rintro ⟨v, hv, hf⟩
          obtain rfl := h2.x.unique hv
          refine ⟨⟨_, hkf.x, fun i => (h3 i (hf i)).1⟩, fun d hd => ?_⟩
          rw [hc] at hd; cases hd
          exact ⟨⟨_, hcr.B, fun i j => (h3 i (hf i)).2.1 j⟩, ⟨_, hcr.u, (h3 zero (hf zero)).2.2⟩⟩
        · rintro ⟨v, hv, hf⟩
          obtain rfl := h2.P.unique hv
          refine ⟨⟨_, hkf.P, fun i j => (h4 i j (hf i j)).1⟩, fun d hd => ?_⟩
          rw [hc] at hd; cases hd
          exact ⟨⟨_, hcr.B, fun i j => ((h4 i i (hf i i)).2.1 j).1⟩, ⟨_, hcr.Q, (h4 zero zero (hf zero zero)).2.2⟩⟩
  | correct i =>
    simp only [World.step] at h
    cases hc : w.obs[i]? with
    | none => rw [hc] at h; cases h
    | some o =>
      obtain ⟨m, o⟩ := o
      simp only [hc] at h
      obtain ⟨⟨f', o'⟩, h1, h⟩ := bind_ok h
      cases h
      obtain ⟨hm, hov⟩ := hw.obs _ (List.mem_of_getElem? hc)
      change 0 < m at hm
      change o.Valid at hov
      have hor : o.Reps _ _ _ := ⟨hov.H.reps, hov.z.repsV, hov.R.reps, hov.y, hov.S, hov.K, hov.tempSInv, hov.tempHP,
        hov.tempPHt, hov.tempKHP⟩
      obtain ⟨x', P', hx, hP, h3, h4⟩ := correct_fin ra bld hn hm hkf hor h1
      constructor
      · rintro ⟨v, hv, hf⟩
        obtain rfl := hx.unique hv
        refine ⟨⟨_, hkf.x, (h3 zero (hf zero)).1⟩, ⟨_, hkf.P, fun i j => (h3 i (hf i)).2.2.2 j⟩, fun d hd => ?_⟩
        rw [hc] at hd; cases hd
        exact ⟨⟨_, hor.H, (h3 zero (hf zero)).2.2.1⟩, ⟨_, hor.z, (h3 zero (hf zero)).2.1⟩⟩
      · rintro ⟨v, hv, hf⟩
        obtain rfl := hP.unique hv
        refine ⟨⟨_, hkf.P, fun i j => (h4 i j (hf i j)).1⟩, fun d hd => ?_⟩
        rw [hc] at hd; cases hd
        exact ⟨_, hor.H, (h4 zero zero (hf zero zero)).2.1⟩
  | setX v =>
    simp only [World.step] at h
    obtain ⟨x, _, h⟩ := bind_ok h
    cases h
    exact ⟨fun _ => trivial, id⟩
  | setA v =>
    simp only [World.step] at h
    obtain ⟨x, _, h⟩ := bind_ok h
    cases h
    exact ⟨id, id⟩
  | setP v =>
    simp only [World.step] at h
    obtain ⟨x, _, h⟩ := bind_ok h
    cases h
    exact ⟨id, fun _ => trivial⟩
  | setQ v =>
    simp only [World.step] at h
    obtain ⟨x, _, h⟩ := bind_ok h
    cases h
    exact ⟨id, id⟩
  | setU i v => rw [withCtl_kf h]; exact ⟨id, id⟩
  | setB i v => rw [withCtl_kf h]; exact ⟨id, id⟩
  | setQc i v => rw [withCtl_kf h]; exact ⟨id, id⟩
  | setZ i v => rw [withObs_kf h]; exact ⟨id, id⟩
  | setH i v => rw [withObs_kf h]; exact ⟨id, id⟩
  | setR i v => rw [withObs_kf h]; exact ⟨id, id⟩

theorem finiteForState_x {w : World n T} {op : Op T} (hk : op.KeepsX) (h : w.FiniteForState ra op) : w.kf.x.FiniteV ra := by
  cases op <;> first | exact h | exact h.1 | exact hk.elim

theorem finiteForCovariance_P {w : World n T} {op : Op T} (hk : op.KeepsP) (h : w.FiniteForCovariance ra op) :
    w.kf.P.Finite ra := by
  cases op <;> first | exact h | exact h.1 | exact hk.elim

theorem run_fin (bld : Build) {w w' : World n T} (hw : w.Valid) {ops : List (Op T)} (hops : ∀ op ∈ ops, op.WellFormed w)
    (h : w.run bld ops = .ok w') :
    ((∀ op ∈ ops, op.KeepsX) → w'.kf.x.FiniteV ra → w.kf.x.FiniteV ra) ∧
    ((∀ op ∈ ops, op.KeepsP) → w'.kf.P.Finite ra → w.kf.P.Finite ra) := by
  induction ops generalizing w with
  | nil => cases h; exact ⟨fun _ => id, fun _ => id⟩
  | cons op ops ih =>
    unfold World.run at h
    obtain ⟨w1, h1, h⟩ := bind_ok h
    rcases step_safe bld hw (hops op (by simp)) with ⟨e, he, _⟩ | ⟨w2, h2, h3, h4⟩
    · rw [he] at h1; cases h1
    · rw [h1] at h2; cases h2
      have := ih h3 (fun o ho => (hops o (by simp [ho])).congr h4) h
      have hs := step_fin ra bld hw h1
      exact ⟨fun hk hx => finiteForState_x ra (hk op (by simp)) (hs.1 (this.1 (fun o ho => hk o (by simp [ho])) hx)),
        fun hk hx => finiteForCovariance_P ra (hk op (by simp)) (hs.2 (this.2 (fun o ho => hk o (by simp [ho])) hx))⟩

/-- A finite final state tells that everything was finite that has entered into it since it was last assigned. -/
theorem history_fin (bld : Build) {w w1 w' : World n T} (hw : w.Valid) {before after : List (Op T)} {op : Op T}
    (hops : ∀ o ∈ before ++ op :: after, o.WellFormed w) (h1 : w.run bld before = .ok w1)
    (h2 : w1.run bld (op :: after) = .ok w') :
    ((∀ o ∈ after, o.KeepsX) → w'.kf.x.FiniteV ra → w1.FiniteForState ra op) ∧
    ((∀ o ∈ after, o.KeepsP) → w'.kf.P.Finite ra → w1.FiniteForCovariance ra op) := by
  rcases run_safe bld hw (fun o ho => hops o (List.mem_append_left _ ho)) with ⟨e, he, _⟩ | ⟨v, hv, hv1, hs⟩
  · rw [he] at h1; cases h1
  rw [hv] at h1; cases h1
  unfold World.run at h2
  obtain ⟨w2, h3, h4⟩ := bind_ok h2
  rcases step_safe bld hv1 ((hops op (by simp)).congr hs) with ⟨e, he, _⟩ | ⟨v', h5, h6, h7⟩
  · rw [he] at h3; cases h3
  rw [h3] at h5; cases h5
  have hr := run_fin ra bld h6 (fun o ho => (hops o (by simp [ho])).congr (hs.trans h7)) h4
  have hst := step_fin ra bld hv1 h3
  exact ⟨fun hk hx => hst.1 (hr.1 hk hx), fun hk hx => hst.2 (hr.2 hk hx)⟩

end Histories
end Minikalman
