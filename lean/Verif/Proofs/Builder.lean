import Verif.Spec.Builder
import Verif.Proofs.ExtendedHistory

/-!
# Lemmas about constructors
-/

set_option linter.unusedSectionVars false

namespace Minikalman

variable {T : Type} {R C n l m : Nat}

theorem Mat.Filled.valid {v : T} {a : Mat R C T} (h : a.Filled v) : a.Valid := h.1.ge

theorem filled_replicate {k : Nat} (v : T) (h : k = R * C) : (⟨List.replicate k v⟩ : Mat R C T).Filled v := by
  subst h
  refine ⟨by simp, fun i j => ?_⟩
  rw [List.getElem?_replicate, if_pos (idx_lt i.2 j.2)]

theorem Mat.Filled.data {v : T} {a : Mat R C T} (h : a.Filled v) : a.data = List.replicate (R * C) v := by
  apply List.ext_getElem?
  intro k
  rw [List.getElem?_replicate]
  split_ifs with hk
  · have hC : 0 < C := Nat.pos_of_ne_zero (by rintro rfl; simp at hk)
    have hr : k / C < R := Nat.div_lt_of_lt_mul (by rwa [Nat.mul_comm])
    have := h.2 ⟨k / C, hr⟩ ⟨k % C, Nat.mod_lt _ hC⟩
    simpa only [Nat.div_add_mod'] using this
  · exact List.getElem?_eq_none (by rw [h.1]; omega)

theorem RegularKalman.Filled.valid {v : T} {f : RegularKalman n T} (h : f.Filled v) : f.Valid :=
  ⟨h.x.valid, h.A.valid, h.P.valid, h.Q.valid, h.predictedX.valid, h.tempP.valid⟩

theorem Control.Filled.valid {v : T} {c : Control n l T} (h : c.Filled v) : c.Valid :=
  ⟨h.B.valid, h.u.valid, h.Q.valid, h.tempBQ.valid⟩

theorem RegularObservation.Filled.valid {v : T} {o : RegularObservation n m T} (h : o.Filled v) : o.Valid :=
  ⟨h.H.valid, h.z.valid, h.R.valid, h.y.valid, h.S.valid, h.K.valid, h.tempSInv.valid, h.tempHP.valid,
    h.tempPHt.valid, h.tempKHP.valid⟩

theorem newBoxed_ok (bld : Build) {data : List T} (h : data.length = R * C) :
    newBoxed bld data = .ok (⟨data⟩ : Mat R C T) := by
  simp [newBoxed, assertUnlessNoAssert, h]

theorem newBoxed_replicate (bld : Build) (v : T) :
    newBoxed bld (List.replicate (R * C) v) = .ok (⟨List.replicate (R * C) v⟩ : Mat R C T) :=
  newBoxed_ok bld (by simp)

theorem fromSlice_replicate (bld : Build) {k : Nat} (v : T) (h : k = R * C) :
    bufferFromSlice bld (List.replicate k v) = .ok (⟨List.replicate k v⟩ : Mat R C T) := by
  subst h
  simp [bufferFromSlice, debugAssert, newRef]

section
variable [Inhabited T]

theorem buildRegularKalman_filled (bld : Build) :
    ∃ f : RegularKalman n T, buildRegularKalman bld = .ok f ∧ f.Filled default := by
  simp only [buildRegularKalman, buildStateTransition, buildEstimateCovariance, buildDirectProcessNoise, buildTempP,
      newBoxed_replicate, res_bind_ok]
  refine ⟨_, rfl, ?_⟩
  constructor <;> exact filled_replicate _ (by simp)

theorem buildExtendedKalman_filled (bld : Build) :
    ∃ f : ExtendedKalman n T, buildExtendedKalman bld = .ok f ∧ f.asRegular.Filled default := by
  simp only [buildExtendedKalman, buildStateTransition, buildEstimateCovariance, buildDirectProcessNoise, buildTempP,
      newBoxed_replicate, res_bind_ok]
  refine ⟨_, rfl, ?_⟩
  constructor <;> exact filled_replicate _ (by simp)

theorem buildControl_filled (bld : Build) :
    ∃ c : Control n l T, buildControl bld = .ok c ∧ c.Filled default := by
  simp only [buildControl, buildControlMatrix, buildControlProcessNoise, buildTempBQ, newBoxed_replicate, res_bind_ok]
  refine ⟨_, rfl, ?_⟩
  constructor <;> exact filled_replicate _ (by simp)

theorem buildRegularObservation_filled (bld : Build) :
    ∃ o : RegularObservation n m T, buildRegularObservation bld = .ok o ∧ o.Filled default := by
  simp only [buildRegularObservation, buildObservationMatrix, buildMeasurementNoise, buildInnovationCovariance,
      buildKalmanGain, buildTempSInv, buildTempHP, buildTempPHt, buildTempKHP, newBoxed_replicate, res_bind_ok]
  refine ⟨_, rfl, ?_⟩
  constructor <;> exact filled_replicate _ (by simp)

theorem buildExtendedObservation_filled (bld : Build) :
    ∃ o : ExtendedObservation n m T, buildExtendedObservation bld = .ok o ∧ o.asRegular.Filled default := by
  simp only [buildExtendedObservation, buildObservationMatrix, buildMeasurementNoise, buildInnovationCovariance,
      buildKalmanGain, buildTempSInv, buildTempHP, buildTempPHt, buildTempKHP, newBoxed_replicate, res_bind_ok]
  refine ⟨_, rfl, ?_⟩
  constructor <;> exact filled_replicate _ (by simp)

/-- A list of constructions that all succeed. -/
theorem mapM_ok {α β : Type} {g : α → Res β} {Q : α → β → Prop} (h : ∀ a, ∃ b, g a = .ok b ∧ Q a b) (s : List α) :
    ∃ t, s.mapM g = .ok t ∧ List.Forall₂ Q s t := by
  induction s with
  | nil => exact ⟨[], rfl, .nil⟩
  | cons a s ih =>
    obtain ⟨b, h1, h2⟩ := h a
    obtain ⟨t, h3, h4⟩ := ih
    exact ⟨b :: t, by simp only [List.mapM_cons, h1, h3, res_bind_ok]; rfl, .cons h2 h4⟩

theorem forall₂_map {α β γ : Type} {Q : α → β → Prop} {f : β → γ} {g : α → γ} (h : ∀ a b, Q a b → f b = g a)
    {s : List α} {t : List β} (hst : List.Forall₂ Q s t) : t.map f = s.map g := by
  induction hst with
  | nil => rfl
  | cons h1 _ ih => simp [ih, h _ _ h1]

theorem forall₂_mem {α β : Type} {Q : α → β → Prop} {G : β → Prop} (h : ∀ a b, Q a b → G b)
    {s : List α} {t : List β} (hst : List.Forall₂ Q s t) : ∀ b ∈ t, G b := by
  induction hst with
  | nil => simp
  | cons h1 _ ih => simp only [List.mem_cons, forall_eq_or_imp]; exact ⟨h _ _ h1, ih⟩

theorem buildWorld_filled (bld : Build) (ctls obs : List Nat) :
    ∃ w : World n T, buildWorld bld ctls obs = .ok w ∧ w.kf.Filled default ∧
      w.ctl.map Sigma.fst = ctls ∧ (∀ c ∈ w.ctl, c.2.Filled default) ∧
      w.obs.map Sigma.fst = obs ∧ (∀ o ∈ w.obs, o.2.Filled default) := by
  obtain ⟨f, hf, hff⟩ := buildRegularKalman_filled (T := T) (n := n) bld
  obtain ⟨cs, hc, hcc⟩ := mapM_ok (g := fun l => do
      let c ← buildControl (T := T) (n := n) (l := l) bld
      pure (⟨l, c⟩ : (l : Nat) × Control n l T)) (Q := fun l c => c.1 = l ∧ c.2.Filled default)
    (fun l => by
      obtain ⟨c, h1, h2⟩ := buildControl_filled (T := T) (n := n) (l := l) bld
      exact ⟨⟨l, c⟩, by simp only [h1, res_bind_ok]; rfl, rfl, h2⟩) ctls
  obtain ⟨os, ho, hoo⟩ := mapM_ok (g := fun m => do
      let o ← buildRegularObservation (T := T) (n := n) (m := m) bld
      pure (⟨m, o⟩ : (m : Nat) × RegularObservation n m T)) (Q := fun m o => o.1 = m ∧ o.2.Filled default)
    (fun m => by
      obtain ⟨o, h1, h2⟩ := buildRegularObservation_filled (T := T) (n := n) (m := m) bld
      exact ⟨⟨m, o⟩, by simp only [h1, res_bind_ok]; rfl, rfl, h2⟩) obs
  refine ⟨⟨f, cs, os⟩, by simp only [buildWorld, hf, hc, ho, res_bind_ok]; rfl, hff, ?_, ?_, ?_, ?_⟩
  · simpa using forall₂_map (g := id) (fun a b h => h.1) hcc
  · exact forall₂_mem (fun a b h => h.2) hcc
  · simpa using forall₂_map (g := id) (fun a b h => h.1) hoo
  · exact forall₂_mem (fun a b h => h.2) hoo

theorem buildXWorld_filled {σ : Type} (bld : Build) (obs : List Nat) (env : σ) :
    ∃ w : XWorld n T σ, buildXWorld bld obs env = .ok w ∧ w.env = env ∧ w.kf.asRegular.Filled default ∧
      w.obs.map Sigma.fst = obs ∧ (∀ o ∈ w.obs, o.2.asRegular.Filled default) := by
  obtain ⟨f, hf, hff⟩ := buildExtendedKalman_filled (T := T) (n := n) bld
  obtain ⟨os, ho, hoo⟩ := mapM_ok (g := fun m => do
      let o ← buildExtendedObservation (T := T) (n := n) (m := m) bld
      pure (⟨m, o⟩ : (m : Nat) × ExtendedObservation n m T)) (Q := fun m o => o.1 = m ∧ o.2.asRegular.Filled default)
    (fun m => by
      obtain ⟨o, h1, h2⟩ := buildExtendedObservation_filled (T := T) (n := n) (m := m) bld
      exact ⟨⟨m, o⟩, by simp only [h1, res_bind_ok]; rfl, rfl, h2⟩) obs
  refine ⟨⟨f, os, env⟩, by simp only [buildXWorld, hf, ho, res_bind_ok]; rfl, rfl, hff, ?_, ?_⟩
  · simpa using forall₂_map (g := id) (fun a b h => h.1) hoo
  · exact forall₂_mem (fun a b h => h.2) hoo

theorem buildWorld_valid (bld : Build) (hn : 0 < n) (ctls obs : List Nat) (ho : ∀ m ∈ obs, 0 < m) :
    ∃ w : World n T, buildWorld bld ctls obs = .ok w ∧ w.Valid := by
  obtain ⟨w, h1, h2, _, h4, h5, h6⟩ := buildWorld_filled (T := T) (n := n) bld ctls obs
  refine ⟨w, h1, hn, h2.valid, fun c hc => (h4 c hc).valid, fun o hoo => ⟨ho _ ?_, (h6 o hoo).valid⟩⟩
  rw [← h5]
  exact List.mem_map_of_mem hoo

theorem buildXWorld_valid {σ : Type} (bld : Build) (hn : 0 < n) (obs : List Nat) (env : σ) (ho : ∀ m ∈ obs, 0 < m) :
    ∃ w : XWorld n T σ, buildXWorld bld obs env = .ok w ∧ w.Valid := by
  obtain ⟨w, h1, _, h2, h5, h6⟩ := buildXWorld_filled (T := T) (n := n) bld obs env
  refine ⟨w, h1, ⟨hn, h2.valid, fun c hc => absurd hc List.not_mem_nil, fun o hoo => ?_⟩⟩
  obtain ⟨p, hp, rfl⟩ := List.mem_map.1 hoo
  refine ⟨ho _ ?_, (h6 p hp).valid⟩
  rw [← h5]
  exact List.mem_map_of_mem hp

end

theorem slicedKalman_filled (bld : Build) (v : T) :
    ∃ f : RegularKalman n T, slicedKalman bld v = .ok f ∧ f.Filled v := by
  simp only [slicedKalman, fromSlice_replicate bld v (R := n) (C := n) (k := sizeBuffer n 0 0 .A) rfl,
    fromSlice_replicate bld v (R := n) (C := n) (k := sizeBuffer n 0 0 .P) rfl,
    fromSlice_replicate bld v (R := n) (C := n) (k := sizeBuffer n 0 0 .Q) rfl,
    fromSlice_replicate bld v (R := n) (C := n) (k := sizeBuffer n 0 0 .tempP) rfl,
    fromSlice_replicate bld v (R := n) (C := 1) (k := sizeBuffer n 0 0 .x) rfl,
    fromSlice_replicate bld v (R := n) (C := 1) (k := sizeBuffer n 0 0 .predictedX) rfl, res_bind_ok]
  refine ⟨_, rfl, ?_⟩
  constructor <;> exact filled_replicate _ rfl

theorem slicedControl_filled (bld : Build) (v : T) :
    ∃ c : Control n l T, slicedControl bld v = .ok c ∧ c.Filled v := by
  simp only [slicedControl, fromSlice_replicate bld v (R := n) (C := l) (k := sizeBuffer n l 0 .B) rfl,
    fromSlice_replicate bld v (R := n) (C := l) (k := sizeBuffer n l 0 .tempBQ) rfl,
    fromSlice_replicate bld v (R := l) (C := l) (k := sizeBuffer n l 0 .Qc) rfl,
    fromSlice_replicate bld v (R := l) (C := 1) (k := sizeBuffer n l 0 .u) rfl, res_bind_ok]
  refine ⟨_, rfl, ?_⟩
  constructor <;> exact filled_replicate _ rfl

theorem slicedObservation_filled (bld : Build) (v : T) :
    ∃ o : RegularObservation n m T, slicedObservation bld v = .ok o ∧ o.Filled v := by
  simp only [slicedObservation, fromSlice_replicate bld v (R := m) (C := n) (k := sizeBuffer n 0 m .H) rfl,
    fromSlice_replicate bld v (R := m) (C := n) (k := sizeBuffer n 0 m .tempHP) (Nat.mul_comm _ _),
    fromSlice_replicate bld v (R := m) (C := m) (k := sizeBuffer n 0 m .R) rfl,
    fromSlice_replicate bld v (R := m) (C := m) (k := sizeBuffer n 0 m .S) rfl,
    fromSlice_replicate bld v (R := m) (C := m) (k := sizeBuffer n 0 m .tempSInv) rfl,
    fromSlice_replicate bld v (R := n) (C := m) (k := sizeBuffer n 0 m .K) rfl,
    fromSlice_replicate bld v (R := n) (C := m) (k := sizeBuffer n 0 m .tempPHt) rfl,
    fromSlice_replicate bld v (R := n) (C := n) (k := sizeBuffer n 0 m .tempKHP) rfl,
    fromSlice_replicate bld v (R := m) (C := 1) (k := sizeBuffer n 0 m .z) rfl,
    fromSlice_replicate bld v (R := m) (C := 1) (k := sizeBuffer n 0 m .y) rfl, res_bind_ok]
  refine ⟨_, rfl, ?_⟩
  constructor <;> exact filled_replicate _ (by simp [sizeBuffer, Nat.mul_comm])

theorem valid_iff_get (a : Mat R C T) :
    R * C ≤ a.data.length ↔ ∀ r c, r < R → c < C → ∃ v, a.get r c = .ok v := by
  constructor
  · intro h r c hr hc
    have : r * C + c < a.data.length := Nat.lt_of_lt_of_le (idx_lt hr hc) h
    exact ⟨_, rd_eq (List.getElem?_eq_getElem this)⟩
  · intro h
    rcases Nat.eq_zero_or_pos R with rfl | hR
    · simp
    rcases Nat.eq_zero_or_pos C with rfl | hC
    · simp
    obtain ⟨v, hv⟩ := h (R - 1) (C - 1) (by omega) (by omega)
    have h1 : (R - 1) * C + (C - 1) < a.data.length := by
      by_contra hn
      rw [Mat.get, Mat.getAt, rd, List.getElem?_eq_none (by omega)] at hv
      cases hv
    obtain ⟨k, rfl⟩ : ∃ k, R = k + 1 := ⟨R - 1, by omega⟩
    simp only [Nat.add_sub_cancel, Nat.succ_mul] at h1 ⊢
    omega

theorem rowMajor_length (A : Matrix (Fin R) (Fin C) T) : (Spec.rowMajor A).length = R * C := by
  simp [Spec.rowMajor, List.length_flatten, List.map_ofFn, Function.comp_def]

theorem flatten_ofFn_getElem? {R : Nat} (f : Fin R → List T) (hf : ∀ i, (f i).length = C) (i : Fin R) (j : Nat) (hj : j < C) :
    (List.ofFn f).flatten[(i : Nat) * C + j]? = (f i)[j]? := by
  induction R with
  | zero => exact i.elim0
  | succ R ih =>
    rw [List.ofFn_succ, List.flatten_cons]
    refine Fin.cases ?_ (fun i => ?_) i
    · rw [List.getElem?_append_left (by rw [hf]; simpa using hj)]
      simp
    · rw [List.getElem?_append_right (by rw [hf, Fin.val_succ, Nat.succ_mul]; omega), hf]
      have := ih (fun i => f i.succ) (fun i => hf _) i
      rw [← this]
      congr 1
      rw [Fin.val_succ, Nat.succ_mul]; omega

theorem rowMajor_eq_take {a : Mat R C T} {A : Matrix (Fin R) (Fin C) T} (h : a.Reps A) (hv : a.Valid) :
    a.data.take (R * C) = Spec.rowMajor A := by
  apply List.ext_getElem?
  intro k
  by_cases hk : k < R * C
  · have hC : 0 < C := Nat.pos_of_ne_zero (by rintro rfl; simp at hk)
    have hr : k / C < R := Nat.div_lt_of_lt_mul (by rwa [Nat.mul_comm])
    have h1 := h ⟨k / C, hr⟩ ⟨k % C, Nat.mod_lt _ hC⟩
    have h2 := flatten_ofFn_getElem? (fun i : Fin R => List.ofFn fun j : Fin C => A i j) (by simp) ⟨k / C, hr⟩ (k % C)
      (Nat.mod_lt _ hC)
    simp only [Nat.div_add_mod'] at h1 h2
    rw [List.getElem?_take, if_pos hk, h1, Spec.rowMajor, h2]
    simp [Nat.mod_lt _ hC]
  · rw [List.getElem?_eq_none (by simp; omega), List.getElem?_eq_none (by rw [rowMajor_length]; omega)]

end Minikalman
