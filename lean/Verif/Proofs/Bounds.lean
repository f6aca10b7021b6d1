import Verif.Proofs.Safety

/-! # A kernel that does not panic had large enough buffers -/

set_option linter.unusedSectionVars false

namespace Minikalman

variable {T : Type} {R C U N : Nat}

theorem part_rd {s : List T} {i : Nat} : Part (rd s i) (fun _ => i < s.length) := by
  intro a ha
  rw [rd_eq_iff] at ha
  obtain ⟨h, _⟩ := List.getElem?_eq_some_iff.mp ha
  exact h

theorem part_usub {a b : Nat} : Part (usub a b) (fun c => b ≤ a ∧ c = a - b) := by
  intro c hc
  unfold usub at hc
  split at hc
  · cases hc; exact ⟨‹_›, rfl⟩
  · cases hc

theorem le_mul_of_pred {R C k : Nat} (h : (R - 1) * C + C ≤ k) (hR : 0 < R) : R * C ≤ k := by
  cases R with
  | zero => omega
  | succ R => rw [Nat.succ_mul]; exact h

namespace Mat
variable [Zero T] [One T] [Add T] [Sub T] [Mul T] [Neg T]

theorem copyTo_valid {a b : Mat R C T} : Part (a.copyTo b) (fun _ => 0 < R * C ∧ a.Valid ∧ b.Valid) := by
  unfold copyTo
  refine part_usub.bind fun last hl => ?_
  refine (part_forDown (I := fun k (d : List T) => d.length = b.data.length ∧
    (k ≤ last → last < a.data.length ∧ last < b.data.length)) ⟨rfl, fun h => by omega⟩ ?_).bind fun d hd => ?_
  · intro k d hk ⟨h1, h2⟩
    refine part_rd.bind fun v hv => part_wr.mono fun d' hd' => ?_
    obtain ⟨h3, rfl⟩ := hd'
    refine ⟨by rw [List.length_set, h1], fun _ => ?_⟩
    by_cases hk' : k + 1 ≤ last
    · exact h2 hk'
    · have : k = last := by omega
      subst this; exact ⟨hv, h1 ▸ h3⟩
  · refine Part.pure ?_
    have := hd.2 (Nat.zero_le _)
    simp only [len] at hl
    unfold Valid
    omega

/-- The shape of all element-wise kernels. -/
theorem elementwise_valid {count : Nat} {body : Nat → List T → Res (List T)} {d0 : List T} (s : List T) (hc : 0 < count)
    (hb : ∀ k d, d.length = d0.length → Part (body k d) (fun d' => k < s.length ∧ k < d0.length ∧ d'.length = d0.length)) :
    Part (forDown count body d0) (fun _ => count ≤ s.length ∧ count ≤ d0.length) := by
  refine (part_forDown (I := fun k (d : List T) => d.length = d0.length ∧
    (k < count → count ≤ s.length ∧ count ≤ d0.length)) ⟨rfl, fun h => by omega⟩ ?_).mono fun d hd => hd.2 hc
  intro k d hk ⟨h1, h2⟩
  refine (hb k d h1).mono fun d' ⟨h3, h4, h5⟩ => ⟨h5, fun _ => ?_⟩
  by_cases hk' : k + 1 < count
  · exact h2 hk'
  · omega

theorem sub_valid {a b c : Mat R C T} (hpos : 0 < R * C) :
    Part (a.sub b c) (fun _ => a.Valid ∧ b.Valid ∧ c.Valid) := by
  have h : ∀ s, s = a.data ∨ s = b.data → Part (forDown a.len (fun index cdata => do
      let av ← rd a.data index
      let bv ← rd b.data index
      wr cdata index (av - bv)) c.data) (fun _ => a.len ≤ s.length ∧ a.len ≤ c.data.length) := by
    intro s hs
    refine elementwise_valid s hpos fun k d hd => ?_
    refine part_rd.bind fun _ h1 => part_rd.bind fun _ h2 => part_wr.mono ?_
    rintro _ ⟨h3, rfl⟩
    rw [List.length_set]
    rcases hs with rfl | rfl
    · exact ⟨h1, hd ▸ h3, hd⟩
    · exact ⟨h2, hd ▸ h3, hd⟩
  unfold sub
  intro r hr
  obtain ⟨d, hd, -⟩ : ∃ d, _ = Except.ok d ∧ True := by
    cases hx : forDown a.len (fun index cdata => do
      let av ← rd a.data index
      let bv ← rd b.data index
      wr cdata index (av - bv)) c.data with
    | error e => rw [hx] at hr; cases hr
    | ok d => exact ⟨d, hx, trivial⟩
  exact ⟨(h _ (Or.inl rfl) d hd).1, (h _ (Or.inr rfl) d hd).1, (h _ (Or.inl rfl) d hd).2⟩

theorem addInplaceB_valid {a b : Mat R C T} (hpos : 0 < R * C) :
    Part (a.addInplaceB b) (fun _ => a.Valid ∧ b.Valid) := by
  unfold addInplaceB
  refine (elementwise_valid a.data hpos fun k d hd => ?_).bind fun d hd => Part.pure hd
  refine part_rd.bind fun _ h1 => part_rd.bind fun _ h2 => part_wr.mono ?_
  rintro _ ⟨h3, rfl⟩
  exact ⟨h2, hd ▸ h3, by rw [List.length_set, hd]⟩

theorem subInplaceB_valid {a b : Mat R C T} (hpos : 0 < R * C) :
    Part (a.subInplaceB b) (fun _ => a.Valid ∧ b.Valid) := by
  unfold subInplaceB
  refine (elementwise_valid a.data hpos fun k d hd => ?_).bind fun d hd => Part.pure hd
  refine part_rd.bind fun _ h1 => part_rd.bind fun _ h2 => part_wr.mono ?_
  rintro _ ⟨h3, rfl⟩
  exact ⟨h1, hd ▸ h3, by rw [List.length_set, hd]⟩

theorem addInplaceA_valid {a b : Mat R C T} (hpos : 0 < R * C) :
    Part (a.addInplaceA b) (fun _ => a.Valid ∧ b.Valid) := by
  unfold addInplaceA
  refine (elementwise_valid b.data hpos fun k d hd => ?_).bind fun d hd => Part.pure hd.symm
  refine part_rd.bind fun _ h1 => part_rd.bind fun _ h2 => part_wr.mono ?_
  rintro _ ⟨h3, rfl⟩
  exact ⟨h2, hd ▸ h3, by rw [List.length_set, hd]⟩

theorem subInplaceA_valid {a b : Mat R C T} (hpos : 0 < R * C) :
    Part (a.subInplaceA b) (fun _ => a.Valid ∧ b.Valid) := by
  unfold subInplaceA
  refine (elementwise_valid b.data hpos fun k d hd => ?_).bind fun d hd => Part.pure hd.symm
  refine part_rd.bind fun _ h1 => part_rd.bind fun _ h2 => part_wr.mono ?_
  rintro _ ⟨h3, rfl⟩
  exact ⟨h2, hd ▸ h3, by rw [List.length_set, hd]⟩

theorem mult_valid {a : Mat R C T} {b : Mat C U T} {c : Mat R U T} (hR : 0 < R) (hC : 0 < C) (hU : 0 < U) :
    Part (a.mult b c) (fun _ => a.Valid ∧ b.Valid ∧ c.Valid) := by
  unfold mult
  refine (part_forDown (I := fun j (d : List T) => d.length = c.data.length ∧
    (j < U → R * C ≤ a.data.length ∧ C * U ≤ b.data.length ∧ R * U ≤ c.data.length))
    ⟨rfl, fun h => by omega⟩ ?_).bind fun d hd => Part.pure (hd.2 hU)
  intro j d hj ⟨h1, h2⟩
  refine (part_forUp (I := fun i (s : List T × Nat) => s.1.length = c.data.length ∧ s.2 = i * C ∧
    (0 < i → i * C ≤ a.data.length ∧ (C - 1) * U + j < b.data.length ∧ (i - 1) * U + j < c.data.length))
    (Nat.zero_le _) ⟨h1, by simp, fun h => by omega⟩ ?_).bind fun s hs => Part.pure ?_
  · rintro i ⟨cd, ia⟩ _ hi ⟨k1, k2, k3⟩
    simp only at k1 k2 k3
    refine (part_forUp (I := fun k (s : T × Nat) => s.2 = i * C + k ∧
      (0 < k → i * C + k ≤ a.data.length ∧ (k - 1) * U + j < b.data.length))
      (Nat.zero_le _) ⟨k2, fun h => by omega⟩ ?_).bind fun s hs => ?_
    · rintro k ⟨tot, ia'⟩ _ hk ⟨l1, l2⟩
      simp only at l1 l2
      refine part_rd.bind fun _ h3 => part_rd.bind fun _ h4 => Part.pure ⟨by simp only; omega, fun _ => ?_⟩
      exact ⟨by omega, by simpa using h4⟩
    · obtain ⟨m1, m2⟩ := hs
      have m3 := m2 hC
      refine part_wr.bind ?_
      rintro cd' ⟨n1, rfl⟩
      refine Part.pure ⟨by simp [k1], ?_, fun _ => ⟨?_, m3.2, ?_⟩⟩
      · simp only [m1]; rw [Nat.succ_mul]
      · rw [Nat.succ_mul]; exact m3.1
      · simpa [k1] using n1
  · refine ⟨hs.1, fun _ => ?_⟩
    by_cases hj' : j + 1 < U
    · exact h2 hj'
    · obtain ⟨q1, q2, q3⟩ := hs.2.2 hR
      refine ⟨q1, le_mul_of_pred (by omega) hC, le_mul_of_pred (by omega) hR⟩

theorem multRowvector_valid {a : Mat R C T} {x : Mat C 1 T} {c : Mat R 1 T} (hR : 0 < R) (hC : 0 < C) :
    Part (a.multRowvector x c) (fun _ => a.Valid ∧ x.Valid ∧ c.Valid) := by
  unfold multRowvector
  refine part_rd.bind fun b0 hb0 => ?_
  refine (part_forUp (I := fun i (s : List T × Nat) => s.1.length = c.data.length ∧ s.2 = i * C ∧
    (0 < i → i * C ≤ a.data.length ∧ C ≤ x.data.length ∧ i ≤ c.data.length))
    (Nat.zero_le _) ⟨rfl, by simp, fun h => by omega⟩ ?_).bind fun s hs => Part.pure ?_
  · rintro i ⟨cd, ia⟩ _ hi ⟨k1, k2, k3⟩
    simp only at k1 k2 k3
    refine part_rd.bind fun a0 ha0 => ?_
    refine (part_forUp (I := fun k (s : T × Nat) => s.2 = i * C + k ∧
      i * C + k ≤ a.data.length ∧ k ≤ x.data.length)
      (by omega) ⟨by simp [k2], by omega, by omega⟩ ?_).bind fun s hs => ?_
    · rintro k ⟨tot, ia'⟩ _ hk ⟨l1, l2⟩
      simp only at l1 l2
      refine part_rd.bind fun _ h3 => part_rd.bind fun _ h4 => Part.pure ⟨by simp only; omega, ?_⟩
      exact ⟨by omega, by omega⟩
    · obtain ⟨m1, m2, m3⟩ := hs
      refine part_wr.bind ?_
      rintro cd' ⟨n1, rfl⟩
      refine Part.pure ⟨by simp [k1], ?_, fun _ => ⟨?_, m3, by omega⟩⟩
      · simp only [m1]; rw [Nat.succ_mul]
      · rw [Nat.succ_mul]; exact m2
  · obtain ⟨q1, q2, q3⟩ := hs.2.2 hR
    unfold Valid
    omega

theorem multaddRowvector_valid {a : Mat R C T} {x : Mat C 1 T} {c : Mat R 1 T} (hR : 0 < R) (hC : 0 < C) :
    Part (a.multaddRowvector x c) (fun _ => a.Valid ∧ x.Valid ∧ c.Valid) := by
  unfold multaddRowvector
  refine part_rd.bind fun b0 hb0 => ?_
  refine (part_forUp (I := fun i (s : List T × Nat) => s.1.length = c.data.length ∧ s.2 = i * C ∧
    (0 < i → i * C ≤ a.data.length ∧ C ≤ x.data.length ∧ i ≤ c.data.length))
    (Nat.zero_le _) ⟨rfl, by simp, fun h => by omega⟩ ?_).bind fun s hs => Part.pure ?_
  · rintro i ⟨cd, ia⟩ _ hi ⟨k1, k2, k3⟩
    simp only at k1 k2 k3
    refine part_rd.bind fun a0 ha0 => ?_
    refine (part_forUp (I := fun k (s : T × Nat) => s.2 = i * C + k ∧
      i * C + k ≤ a.data.length ∧ k ≤ x.data.length)
      (by omega) ⟨by simp [k2], by omega, by omega⟩ ?_).bind fun s hs => ?_
    · rintro k ⟨tot, ia'⟩ _ hk ⟨l1, l2⟩
      simp only at l1 l2
      refine part_rd.bind fun _ h3 => part_rd.bind fun _ h4 => Part.pure ⟨by simp only; omega, ?_⟩
      exact ⟨by omega, by omega⟩
    · obtain ⟨m1, m2, m3⟩ := hs
      refine part_rd.bind fun _ _ => part_wr.bind ?_
      rintro cd' ⟨n1, rfl⟩
      refine Part.pure ⟨by simp [k1], ?_, fun _ => ⟨?_, m3, by omega⟩⟩
      · simp only [m1]; rw [Nat.succ_mul]
      · rw [Nat.succ_mul]; exact m2
  · obtain ⟨q1, q2, q3⟩ := hs.2.2 hR
    unfold Valid
    omega

theorem multTransb_valid {a : Mat R C T} {b : Mat U C T} {c : Mat R U T} (hR : 0 < R) (hC : 0 < C) (hU : 0 < U) :
    Part (a.multTransb b c) (fun _ => a.Valid ∧ b.Valid ∧ c.Valid) := by
  unfold multTransb
  refine (part_forUp (I := fun i (s : List T × Nat × Nat) => s.1.length = c.data.length ∧ s.2.1 = i * U ∧ s.2.2 = i * C ∧
    (0 < i → i * C ≤ a.data.length ∧ U * C ≤ b.data.length ∧ i * U ≤ c.data.length))
    (Nat.zero_le _) ⟨rfl, by simp, by simp, fun h => by omega⟩ ?_).bind fun s hs => Part.pure (hs.2.2.2 hR)
  rintro i ⟨cd, ci, as⟩ _ hi ⟨k1, k2, k3, k4⟩
  simp only at k1 k2 k3 k4
  refine (part_forUp (I := fun j (s : List T × Nat × Nat) => s.1.length = c.data.length ∧ s.2.1 = i * U + j ∧
    s.2.2 = j * C ∧ (0 < j → i * C + C ≤ a.data.length ∧ j * C ≤ b.data.length ∧ i * U + j ≤ c.data.length))
    (Nat.zero_le _) ⟨k1, k2, by simp, fun h => by omega⟩ ?_).bind fun s hs => ?_
  · rintro j ⟨cd, ci, ib⟩ _ hj ⟨l1, l2, l3, l4⟩
    simp only at l1 l2 l3 l4
    refine (part_forUp (I := fun k (s : T × Nat) => s.2 + as = j * C + k ∧
      (as < k → k ≤ a.data.length ∧ s.2 ≤ b.data.length))
      (by omega) ⟨by simp only; omega, fun h => by omega⟩ ?_).bind fun s hs => ?_
    · rintro k ⟨tot, ib'⟩ hk0 hk ⟨p1, p2⟩
      simp only at p1 p2
      refine part_rd.bind fun _ h3 => part_rd.bind fun _ h4 => Part.pure ⟨by simp only; omega, fun _ => ?_⟩
      exact ⟨by omega, by simp only; omega⟩
    · obtain ⟨m1, m2⟩ := hs
      have m3 := m2 (by omega)
      refine part_wr.bind ?_
      rintro cd' ⟨n1, rfl⟩
      have e := Nat.succ_mul j C
      refine Part.pure ⟨by simp [l1], ?_, ?_, fun _ => ⟨?_, ?_, ?_⟩⟩ <;> simp only [Nat.succ_eq_add_one] at * <;> omega
  · obtain ⟨q1, q2, q3, q4⟩ := hs
    have q5 := q4 hU
    have e1 : (i + 1) * C = i * C + C := Nat.succ_mul i C
    have e2 : (i + 1) * U = i * U + U := Nat.succ_mul i U
    exact Part.pure ⟨q1, q2.trans e2.symm, by rw [e1, ← k3], fun _ => ⟨by omega, q5.2.1, by omega⟩⟩

theorem multaddTransb_valid {a : Mat R C T} {b : Mat U C T} {c : Mat R U T} (hR : 0 < R) (hC : 0 < C) (hU : 0 < U) :
    Part (a.multaddTransb b c) (fun _ => a.Valid ∧ b.Valid ∧ c.Valid) := by
  unfold multaddTransb
  refine (part_forUp (I := fun i (s : List T × Nat × Nat) => s.1.length = c.data.length ∧ s.2.1 = i * U ∧ s.2.2 = i * C ∧
    (0 < i → i * C ≤ a.data.length ∧ U * C ≤ b.data.length ∧ i * U ≤ c.data.length))
    (Nat.zero_le _) ⟨rfl, by simp, by simp, fun h => by omega⟩ ?_).bind fun s hs => Part.pure (hs.2.2.2 hR)
  rintro i ⟨cd, ci, as⟩ _ hi ⟨k1, k2, k3, k4⟩
  simp only at k1 k2 k3 k4
  refine (part_forUp (I := fun j (s : List T × Nat × Nat) => s.1.length = c.data.length ∧ s.2.1 = i * U + j ∧
    s.2.2 = j * C ∧ (0 < j → i * C + C ≤ a.data.length ∧ j * C ≤ b.data.length ∧ i * U + j ≤ c.data.length))
    (Nat.zero_le _) ⟨k1, k2, by simp, fun h => by omega⟩ ?_).bind fun s hs => ?_
  · rintro j ⟨cd, ci, ib⟩ _ hj ⟨l1, l2, l3, l4⟩
    simp only at l1 l2 l3 l4
    refine (part_forUp (I := fun k (s : T × Nat) => s.2 + as = j * C + k ∧
      (as < k → k ≤ a.data.length ∧ s.2 ≤ b.data.length))
      (by omega) ⟨by simp only; omega, fun h => by omega⟩ ?_).bind fun s hs => ?_
    · rintro k ⟨tot, ib'⟩ hk0 hk ⟨p1, p2⟩
      simp only at p1 p2
      refine part_rd.bind fun _ h3 => part_rd.bind fun _ h4 => Part.pure ⟨by simp only; omega, fun _ => ?_⟩
      exact ⟨by omega, by simp only; omega⟩
    · obtain ⟨m1, m2⟩ := hs
      have m3 := m2 (by omega)
      refine part_rd.bind fun _ _ => part_wr.bind ?_
      rintro cd' ⟨n1, rfl⟩
      have e := Nat.succ_mul j C
      refine Part.pure ⟨by simp [l1], ?_, ?_, fun _ => ⟨?_, ?_, ?_⟩⟩ <;> simp only [Nat.succ_eq_add_one] at * <;> omega
  · obtain ⟨q1, q2, q3, q4⟩ := hs
    have q5 := q4 hU
    have e1 : (i + 1) * C = i * C + C := Nat.succ_mul i C
    have e2 : (i + 1) * U = i * U + U := Nat.succ_mul i U
    exact Part.pure ⟨q1, q2.trans e2.symm, by rw [e1, ← k3], fun _ => ⟨by omega, q5.2.1, by omega⟩⟩

theorem multscaleTransb_valid {a : Mat R C T} {b : Mat U C T} {c : Mat R U T} {scale : T} (hR : 0 < R) (hC : 0 < C) (hU : 0 < U) :
    Part (a.multscaleTransb b scale c) (fun _ => a.Valid ∧ b.Valid ∧ c.Valid) := by
  unfold multscaleTransb
  refine (part_forUp (I := fun i (s : List T × Nat × Nat) => s.1.length = c.data.length ∧ s.2.1 = i * U ∧ s.2.2 = i * C ∧
    (0 < i → i * C ≤ a.data.length ∧ U * C ≤ b.data.length ∧ i * U ≤ c.data.length))
    (Nat.zero_le _) ⟨rfl, by simp, by simp, fun h => by omega⟩ ?_).bind fun s hs => Part.pure (hs.2.2.2 hR)
  rintro i ⟨cd, ci, as⟩ _ hi ⟨k1, k2, k3, k4⟩
  simp only at k1 k2 k3 k4
  refine (part_forUp (I := fun j (s : List T × Nat × Nat) => s.1.length = c.data.length ∧ s.2.1 = i * U + j ∧
    s.2.2 = j * C ∧ (0 < j → i * C + C ≤ a.data.length ∧ j * C ≤ b.data.length ∧ i * U + j ≤ c.data.length))
    (Nat.zero_le _) ⟨k1, k2, by simp, fun h => by omega⟩ ?_).bind fun s hs => ?_
  · rintro j ⟨cd, ci, ib⟩ _ hj ⟨l1, l2, l3, l4⟩
    simp only at l1 l2 l3 l4
    refine (part_forUp (I := fun k (s : T × Nat) => s.2 + as = j * C + k ∧
      (as < k → k ≤ a.data.length ∧ s.2 ≤ b.data.length))
      (by omega) ⟨by simp only; omega, fun h => by omega⟩ ?_).bind fun s hs => ?_
    · rintro k ⟨tot, ib'⟩ hk0 hk ⟨p1, p2⟩
      simp only at p1 p2
      refine part_rd.bind fun _ h3 => part_rd.bind fun _ h4 => Part.pure ⟨by simp only; omega, fun _ => ?_⟩
      exact ⟨by omega, by simp only; omega⟩
    · obtain ⟨m1, m2⟩ := hs
      have m3 := m2 (by omega)
      refine part_wr.bind ?_
      rintro cd' ⟨n1, rfl⟩
      have e := Nat.succ_mul j C
      refine Part.pure ⟨by simp [l1], ?_, ?_, fun _ => ⟨?_, ?_, ?_⟩⟩ <;> simp only [Nat.succ_eq_add_one] at * <;> omega
  · obtain ⟨q1, q2, q3, q4⟩ := hs
    have q5 := q4 hU
    have e1 : (i + 1) * C = i * C + C := Nat.succ_mul i C
    have e2 : (i + 1) * U = i * U + U := Nat.succ_mul i U
    exact Part.pure ⟨q1, q2.trans e2.symm, by rw [e1, ← k3], fun _ => ⟨by omega, q5.2.1, by omega⟩⟩

theorem makeComatrix_valid {m : Mat N N T} (hN : 0 < N) (d o : T) : Part (m.makeComatrix d o) (fun _ => m.Valid) := by
  unfold makeComatrix
  refine (part_forUp (I := fun i (t : List T) => t.length = m.data.length ∧ (0 < i → i * N ≤ m.data.length))
    (Nat.zero_le _) ⟨rfl, fun h => by omega⟩ ?_).bind fun t ht => Part.pure (ht.2 hN)
  intro i t _ hi ⟨h1, h2⟩
  refine (part_forUp (I := fun j (t : List T) => t.length = m.data.length ∧ (0 < j → i * N + j ≤ m.data.length))
    (Nat.zero_le _) ⟨h1, fun h => by omega⟩ ?_).mono fun t ht => ⟨ht.1, fun _ => by rw [Nat.succ_mul]; exact ht.2 hN⟩
  intro j t _ hj ⟨h3, h4⟩
  refine part_wr.mono ?_
  rintro _ ⟨h5, rfl⟩
  exact ⟨by rw [List.length_set, h3], fun _ => by omega⟩

theorem setDiagonalToScalar_valid {m : Mat N N T} (hN : 0 < N) (v : T) :
    Part (m.setDiagonalToScalar v) (fun _ => m.Valid) := by
  unfold setDiagonalToScalar
  refine (part_forUp (I := fun i (t : List T) => t.length = m.data.length ∧ (0 < i → (i - 1) * N + i ≤ m.data.length))
    (Nat.zero_le _) ⟨rfl, fun h => by omega⟩ ?_).bind fun t ht => Part.pure (le_mul_of_pred (ht.2 hN) hN)
  intro i t _ hi ⟨h1, h2⟩
  refine part_wr.mono ?_
  rintro _ ⟨h5, rfl⟩
  exact ⟨by rw [List.length_set, h1], fun _ => by simp; omega⟩

theorem part_forCountR {σ ρ : Type} {n lo : Nat} {body : Nat → σ → Res (Ctl σ ρ)} {s : σ} (I : Nat → σ → Prop)
    {Q : ρ → Prop}
    (h0 : I lo s) (hstep : ∀ k s, lo ≤ k → k < lo + n → I k s →
      Part (body k s) (CtlPost (I (k + 1)) Q)) :
    Part (forCountR n lo body s) (CtlPost (I (lo + n)) Q) := by
  induction n generalizing lo s with
  | zero => exact Part.ok h0
  | succ n ih =>
    unfold forCountR
    have h1 := hstep lo s (Nat.le_refl _) (by omega) h0
    cases hb : body lo s with
    | error e => intro a ha; cases ha
    | ok c =>
      have h2 := h1 c hb
      cases c with
      | ret r => exact Part.ok h2
      | cont s' =>
        have := ih (lo := lo + 1) h2 (fun k s hk hk' => hstep k s (by omega) (by omega))
        rwa [show lo + 1 + n = lo + (n + 1) by omega] at this

theorem part_forUpR {σ ρ : Type} {lo hi : Nat} {body : Nat → σ → Res (Ctl σ ρ)} {s : σ} (I : Nat → σ → Prop)
    {Q : ρ → Prop}
    (hle : lo ≤ hi) (h0 : I lo s) (hstep : ∀ k s, lo ≤ k → k < hi → I k s →
      Part (body k s) (CtlPost (I (k + 1)) Q)) :
    Part (forUpR lo hi body s) (CtlPost (I hi) Q) := by
  have := part_forCountR (n := hi - lo) I h0 (fun k s h h' => hstep k s h (by omega))
  rwa [show lo + (hi - lo) = hi by omega] at this

theorem chol_valid [MDT T] (bld : Build) {m : Mat N N T} (hN : 0 < N) :
    Part (m.choleskyDecomposeLower bld) (fun r => r.2 = true → m.Valid) := by
  unfold choleskyDecomposeLower
  refine (Part.any _).bind fun _ _ => (Part.any _).bind fun _ _ => ?_
  refine (part_forUpR (Q := fun _ => True) (I := fun i (s : List T × T) => s.1.length = m.data.length ∧ (0 < i → i * N ≤ m.data.length))
    (Nat.zero_le _) ⟨rfl, fun h => by omega⟩ ?_).bind fun c hc => ?_
  · intro i s _ hi hs
    have e : (i + 1) * N = i * N + N := Nat.succ_mul i N
    refine (part_forUpR (Q := fun _ => True) (I := fun j (s : List T × T) => s.1.length = m.data.length ∧
      (i < j → i * N + j ≤ m.data.length)) hi.le ⟨hs.1, fun h => by omega⟩ ?_).mono fun c hc => ?_
    · intro j s hj0 hj hs
      refine part_rd.bind fun _ h1 => (Part.any _).bind fun _ _ => part_wr.bind ?_
      rintro t ⟨h2, rfl⟩
      split
      · split
        · exact Part.pure trivial
        · refine (Part.any _).bind fun _ _ => part_wr.bind ?_
          rintro t ⟨h3, rfl⟩
          refine (Part.any _).bind fun _ _ => Part.pure ⟨by simp [hs.1], fun _ => by omega⟩
      · exact Part.pure ⟨by simp [hs.1], fun _ => by omega⟩
    · cases c with
      | ret r => trivial
      | cont s => exact ⟨hc.1, fun _ => by rw [e]; exact hc.2 hi⟩
  · cases c with
    | ret t => exact Part.pure (by simp)
    | cont s => exact (Part.any _).bind fun _ _ => Part.pure fun _ => hc.2 hN

theorem invert_valid [MDT T] {m inverse : Mat N N T} :
    Part (m.invertLCholesky inverse) (fun _ => 0 < N ∧ m.Valid ∧ inverse.Valid) := by
  unfold invertLCholesky
  refine (part_forUp (I := fun i (inv : List T) => inv.length = inverse.data.length ∧
    (0 < i → (i - 1) * N + i ≤ m.data.length ∧ (i - 1) * N + i ≤ inverse.data.length))
    (Nat.zero_le _) ⟨rfl, fun h => by omega⟩ ?_).bind fun inv hinv => ?_
  · intro i inv _ hi hs
    refine part_rd.bind fun _ h1 => (Part.any _).bind fun _ _ => ?_
    refine (part_forUp (I := fun j (inv : List T) => inv.length = inverse.data.length ∧
      (0 < j → (j - 1) * N + i < inverse.data.length)) (Nat.zero_le _) ⟨hs.1, fun h => by omega⟩ ?_).mono
      fun inv hinv => ⟨hinv.1, fun _ => ?_⟩
    · intro j inv _ hj hs
      refine (Part.any _).bind fun _ _ => part_wr.mono ?_
      rintro _ ⟨h2, rfl⟩
      exact ⟨by rw [List.length_set, hs.1], fun _ => by simpa [hs.1] using h2⟩
    · have := hinv.2 (by omega)
      simp only [Nat.add_sub_cancel] at this ⊢
      omega
  · refine part_usub.bind fun last hl => (Part.any _).bind fun _ _ => Part.pure ?_
    have hN : 0 < N := by omega
    exact ⟨hN, le_mul_of_pred (hinv.2 hN).1 hN, le_mul_of_pred (hinv.2 hN).2 hN⟩

end Mat
end Minikalman
