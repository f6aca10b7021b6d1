import Verif.Proofs.Grid
import Verif.Spec.Exact

/-! # Cholesky decomposition in exact arithmetic -/

namespace Minikalman

open Finset

variable {n : Nat}

/-- Loop invariant in row `j` of column `i`. -/
structure CholInv (n : Nat) (t0 : List ℝ) (i j : Nat) (s : List ℝ × ℝ) : Prop where
  tail : TailEq n t0 s.1
  up : ∀ r c, r < c → c < n → cl n s.1 r c = cl n t0 r c
  dg : ∀ r, i ≤ r → r < n → (r = i → j = i) → cl n s.1 r r = cl n t0 r r
  col : ∀ c r, c ≤ r → r < n → (c < i ∨ (c = i ∧ r < j)) →
    cl n t0 c r = ∑ k ∈ range (c + 1), cl n s.1 r k * cl n s.1 c k
  pos : ∀ c, (c < i ∨ (c = i ∧ i < j)) → 0 < cl n s.1 c c
  div : i < j → s.2 = (cl n s.1 i i)⁻¹

/-- What is known when the decomposition gives up. -/
structure CholFail (n : Nat) (t0 : List ℝ) (t : List ℝ) : Prop where
  tail : TailEq n t0 t
  fail : ∃ i, i < n ∧ ∃ L : Nat → Nat → ℝ, (∀ c, c < i → 0 < L c c) ∧
    (∀ c r, c < i → c ≤ r → r < n → cl n t0 c r = ∑ k ∈ range (c + 1), L r k * L c k) ∧
    cl n t0 i i - ∑ k ∈ range i, L i k * L i k ≤ 0

variable [MDT ℝ] [ExactReal]

theorem chol_step {t0 : List ℝ} (h0 : n * n ≤ t0.length) {i j : Nat} (hij : i ≤ j) (hj : j < n)
    {s : List ℝ × ℝ} (hs : CholInv n t0 i j s) :
    Holds (do
      let t := s.1
      let sum ← rd t (i * n + j)
      let (sum, _) ← forUp (i * n) (i * n + i) (fun iEl (sum, jEl) => do
        let ti ← rd t iEl
        let tj ← rd t jEl
        pure (sum - ti * tj, jEl + 1)) (sum, j * n)
      let t ← wr t (j * n + i) (sum * s.2)
      if i = j then
        if MDT.le sum 0 then
          pure (Ctl.ret t)
        else do
          let elII ← MDT.squareRoot sum
          let t ← wr t (i * n + i) elII
          let divElII ← MDT.recip elII
          pure (Ctl.cont (t, divElII))
      else
        pure (Ctl.cont (t, s.2)) : Res (Ctl (List ℝ × ℝ) (List ℝ)))
      (CtlPost (CholInv n t0 i (j + 1)) (CholFail n t0)) := by
  have hi : i < n := by omega
  have hl := hs.tail.le h0
  have hsum0 : s.1[i * n + j]? = some (cl n t0 i j) := by
    rw [getElem?_cl hl hi hj]
    by_cases hE : i = j
    · subst hE; rw [hs.dg i le_rfl hi (fun _ => rfl)]
    · rw [hs.up i j (by omega) hj]
  have hloop := cholLoop (t := s.1) (i := i) (a0 := i * n) (b0 := j * n) (cl n t0 i j)
    (f := fun k => cl n s.1 i k) (g := fun k => cl n s.1 j k)
    (fun k hk => getElem?_cl hl hi (by omega)) (fun k hk => getElem?_cl hl hj (by omega))
  set sum := subTo (cl n t0 i j) (fun k => cl n s.1 i k * cl n s.1 j k) i with hsum
  have hsumE : sum = cl n t0 i j - ∑ k ∈ range i, cl n s.1 i k * cl n s.1 j k := by rw [hsum, subTo_eq]
  have hlt : j * n + i < s.1.length := lt_of_lt_of_le (idx_lt hj hi) hl
  simp only [rd_eq hsum0, res_bind_ok, hloop, wr_eq hlt]
  by_cases hE : i = j
  · subst hE
    rw [if_pos rfl]
    by_cases hle : sum ≤ 0
    · rw [if_pos ((ExactReal.le_iff _ _).mpr hle)]
      refine Holds.pure ⟨hs.tail.set hi hi _, i, hi, cl n s.1, fun c hc => hs.pos c (Or.inl hc),
        fun c r hc hcr hr => hs.col c r hcr hr (Or.inl hc), ?_⟩
      rw [← hsumE]; exact hle
    · rw [if_neg (by rw [ExactReal.le_iff]; exact hle)]
      have hpos : 0 < sum := not_le.mp hle
      have hlt' : i * n + i < (s.1.set (i * n + i) (sum * s.2)).length := by simpa using hlt
      have hsq : 0 < Real.sqrt sum := Real.sqrt_pos.mpr hpos
      simp only [ExactReal.sqrt_eq _ hpos, res_bind_ok, wr_eq hlt', ExactReal.recip_eq _ hsq.ne', List.set_set]
      have hne : ∀ r c, c < n → ¬ (r = i ∧ c = i) → cl n (s.1.set (i * n + i) √sum) r c = cl n s.1 r c :=
        fun r c hc h => cl_set_ne hl hi hi hc (fun h' => h ⟨h'.1.symm, h'.2.symm⟩) _
      refine Holds.pure ⟨hs.tail.set hi hi _, ?_, ?_, ?_, ?_, ?_⟩
      · intro r c hrc hc
        rw [hne r c hc (by omega)]; exact hs.up r c hrc hc
      · intro r hr hrn h
        have : r ≠ i := fun e => by have := h e; omega
        rw [hne r r hrn (by omega)]
        exact hs.dg r hr hrn (fun e => absurd e this)
      · intro c r hcr hr hc
        rcases hc with hc | ⟨rfl, hc⟩
        · rw [hs.col c r hcr hr (Or.inl hc)]
          refine sum_congr rfl fun k hk => ?_
          have := mem_range.mp hk
          rw [hne r k (by omega) (by omega), hne c k (by omega) (by omega)]
        · have : r = c := by omega
          subst this
          rw [sum_range_succ, cl_set_self hl hi hi, Real.mul_self_sqrt hpos.le]
          rw [sum_congr rfl (g := fun k => cl n s.1 r k * cl n s.1 r k) fun k hk => by
            have := mem_range.mp hk
            simp only
            rw [hne r k (by omega) (by omega)]]
          rw [hsumE]; ring
      · intro c hc
        by_cases hci : c = i
        · subst hci; simp only; rw [cl_set_self hl hi hi]; exact hsq
        · rw [hne c c (by omega) (by omega)]
          exact hs.pos c (Or.inl (by omega))
      · intro _
        simp only; rw [cl_set_self hl hi hi]
  · rw [if_neg hE]
    have hlt2 : i < j := by omega
    have hne : ∀ r c, c < n → ¬ (r = j ∧ c = i) → cl n (s.1.set (j * n + i) (sum * s.2)) r c = cl n s.1 r c :=
      fun r c hc h => cl_set_ne hl hj hi hc (fun h' => h ⟨h'.1.symm, h'.2.symm⟩) _
    refine Holds.pure ⟨hs.tail.set hj hi _, ?_, ?_, ?_, ?_, ?_⟩
    · intro r c hrc hc
      rw [hne r c hc (by omega)]; exact hs.up r c hrc hc
    · intro r hr hrn h
      rw [hne r r hrn (by omega)]
      exact hs.dg r hr hrn (fun e => by have := h e; omega)
    · intro c r hcr hr hc
      by_cases hnew : c = i ∧ r = j
      · obtain ⟨rfl, rfl⟩ := hnew
        rw [sum_range_succ, cl_set_self hl hj hi, hne c c hi (by omega)]
        rw [sum_congr rfl (g := fun k => cl n s.1 c k * cl n s.1 r k) fun k hk => by
            have := mem_range.mp hk
            simp only
            rw [hne r k (by omega) (by omega), hne c k (by omega) (by omega), mul_comm]]
        rw [hs.div hlt2, mul_assoc, inv_mul_cancel₀ (hs.pos c (Or.inr ⟨rfl, hlt2⟩)).ne', mul_one, hsumE]; ring
      · rw [hs.col c r hcr hr (by omega)]
        refine sum_congr rfl fun k hk => ?_
        have := mem_range.mp hk
        rw [hne r k (by omega) (by omega), hne c k (by omega) (by omega)]
    · intro c hc
      rw [hne c c (by omega) (by omega)]
      exact hs.pos c (by omega)
    · intro _
      simp only
      rw [hne i i hi (by omega)]; exact hs.div hlt2

theorem chol_loops {t0 : List ℝ} (h0 : n * n ≤ t0.length) :
    Holds (forUpR 0 n (fun i (s : List ℝ × ℝ) =>
    forUpR i n (fun j (s : List ℝ × ℝ) => do
      let t := s.1
      let sum ← rd t (i * n + j)
      let (sum, _) ← forUp (i * n) (i * n + i) (fun iEl (sum, jEl) => do
        let ti ← rd t iEl
        let tj ← rd t jEl
        pure (sum - ti * tj, jEl + 1)) (sum, j * n)
      let t ← wr t (j * n + i) (sum * s.2)
      if i = j then
        if MDT.le sum 0 then
          pure (Ctl.ret t)
        else do
          let elII ← MDT.squareRoot sum
          let t ← wr t (i * n + i) elII
          let divElII ← MDT.recip elII
          pure (Ctl.cont (t, divElII))
      else
        pure (Ctl.cont (t, s.2))) s) (t0, (0 : ℝ)))
      (CtlPost (CholInv n t0 n n) (CholFail n t0)) := by
  refine forUpR_inv (I := fun i s => CholInv n t0 i i s) (CholFail n t0) (Nat.zero_le _) ?_ ?_
  · exact ⟨TailEq.refl _, fun _ _ _ _ => rfl, fun _ _ _ _ => rfl, fun c r _ _ h => by omega,
      fun c h => by omega, fun h => by omega⟩
  · intro i s _ hi hs
    refine (forUpR_inv (I := fun j s => CholInv n t0 i j s) (CholFail n t0) hi.le hs ?_).mono ?_
    · intro j s hij hj hs
      exact chol_step h0 hij hj hs
    · intro c hc
      cases c with
      | ret r => exact hc
      | cont s =>
        refine ⟨hc.tail, hc.up, fun r hr hrn h => ?_, fun c r hcr hr h => ?_, fun c h => ?_, fun h => by omega⟩
        · exact hc.dg r (by omega) hrn (fun e => by omega)
        · exact hc.col c r hcr hr (by omega)
        · exact hc.pos c (by omega)

omit [MDT ℝ] [ExactReal] in
/-- Zeroing of the strict upper triangle (any element type). -/
theorem zeroUpper {T : Type} [Zero T] {t0 : List T} (h0 : n * n ≤ t0.length) :
    Holds (forUp 0 n (fun i t => forUp (i + 1) n (fun j t => wr t (i * n + j) (0 : T)) t) t0)
      (fun t => TailEq n t0 t ∧ ∀ r c, r < n → c < n → cl n t r c = if r < c then 0 else cl n t0 r c) := by
  refine (forUp_inv (I := fun i t => TailEq n t0 t ∧ ∀ r c, r < n → c < n →
    cl n t r c = if r < c ∧ r < i then 0 else cl n t0 r c) (Nat.zero_le _) ?_ ?_).mono ?_
  · exact ⟨TailEq.refl _, fun r c _ _ => by simp⟩
  · intro i t _ hi ht
    refine (forUp_inv (I := fun j t => TailEq n t0 t ∧ ∀ r c, r < n → c < n →
      cl n t r c = if r < c ∧ (r < i ∨ (r = i ∧ c < j)) then 0 else cl n t0 r c) (by omega) ?_ ?_).mono ?_
    · refine ⟨ht.1, fun r c hr hc => ?_⟩
      rw [ht.2 r c hr hc]
      congr 1
      exact propext ⟨fun h => ⟨h.1, Or.inl h.2⟩, fun h => ⟨h.1, by omega⟩⟩
    · intro j t hij hj ht
      rw [wr_eq (lt_of_lt_of_le (idx_lt hi hj) (ht.1.le h0))]
      refine Holds.ok ⟨ht.1.set hi hj _, fun r c hr hc => ?_⟩
      rw [cl_set (ht.1.le h0) hi hj hc, ht.2 r c hr hc]
      by_cases h1 : i = r ∧ j = c
      · rw [if_pos h1, if_pos (by omega)]
      · rw [if_neg h1]
        congr 1
        exact propext ⟨fun h => by omega, fun h => by omega⟩
    · rintro t ⟨ht1, ht2⟩
      refine ⟨ht1, fun r c hr hc => ?_⟩
      rw [ht2 r c hr hc]
      congr 1
      exact propext ⟨fun h => by omega, fun h => by omega⟩
  · rintro t ⟨ht1, ht2⟩
    refine ⟨ht1, fun r c hr hc => ?_⟩
    rw [ht2 r c hr hc]
    congr 1
    exact propext ⟨fun h => by omega, fun h => by omega⟩

theorem chol_exact (bld : Build) {m : Mat n n ℝ} (hn : 0 < n) (hm : m.Valid) :
    Holds (m.choleskyDecomposeLower bld) (fun r => TailEq n m.data r.1.data ∧
      (r.2 = true → (∀ a b, a < b → b < n → cl n r.1.data a b = 0) ∧ (∀ a, a < n → 0 < cl n r.1.data a a) ∧
        ∀ c a, c ≤ a → a < n → cl n m.data c a = ∑ k ∈ range (c + 1), cl n r.1.data a k * cl n r.1.data c k) ∧
      (r.2 = false → CholFail n m.data r.1.data)) := by
  unfold Mat.choleskyDecomposeLower
  have e1 : debugAssert bld (n == n) = .ok () := by simp [debugAssert]
  have e2 : debugAssert bld (decide (0 < n)) = .ok () := by simp [debugAssert, hn]
  simp only [e1, e2, res_bind_ok]
  refine (chol_loops hm).bind fun c hc => ?_
  cases c with
  | ret t => exact Holds.pure ⟨hc.tail, fun h => by simp at h, fun _ => hc⟩
  | cont s =>
    have hl := hc.tail.le hm
    refine (zeroUpper hl).bind fun t ht => Holds.pure ⟨⟨ht.1.1.trans hc.tail.1, fun k hk =>
      (ht.1.2 k hk).trans (hc.tail.2 k hk)⟩, fun _ => ⟨?_, ?_, ?_⟩, fun h => by simp at h⟩
    · intro a b hab hb
      rw [ht.2 a b (by omega) hb, if_pos hab]
    · intro a ha
      rw [ht.2 a a ha ha, if_neg (by omega)]
      exact hc.pos a (Or.inl ha)
    · intro c a hca ha
      rw [hc.col c a hca ha (Or.inl (by omega))]
      refine sum_congr rfl fun k hk => ?_
      have := mem_range.mp hk
      rw [ht.2 a k ha (by omega), ht.2 c k (by omega) (by omega), if_neg (by omega), if_neg (by omega)]

end Minikalman
