import Verif.Proofs.Chol
import Verif.Proofs.Bounds

/-! # Cholesky decomposition in any arithmetic -/

set_option linter.unusedSectionVars false

namespace Minikalman

variable {T : Type} {n : Nat} [Zero T] [One T] [Add T] [Sub T] [Mul T] [Neg T]

/-- What is left of cell `(c, r)` of the input after subtracting the products of the finished columns. -/
def cholSum (n : Nat) (t0 t : List T) (c r : Nat) : T := subTo (cl n t0 c r) (fun k => cl n t c k * cl n t r k) c

theorem subTo_congr {init : T} {f g : Nat → T} {k : Nat} (h : ∀ i, i < k → f i = g i) : subTo init f k = subTo init g k := by
  induction k with
  | zero => rfl
  | succ k ih => rw [subTo, subTo, ih fun i hi => h i (by omega), h k (by omega)]

theorem cholSum_set {t0 t : List T} (hl : n * n ≤ t.length) {i j c r : Nat} (hi : i < n) (hj : j < n) (hc : c ≤ i) (v : T) :
    cholSum n t0 (t.set (j * n + i) v) c r = cholSum n t0 t c r := by
  refine subTo_congr fun k hk => ?_
  rw [cl_set_ne hl hj hi (by omega) (by omega), cl_set_ne hl hj hi (by omega) (by omega)]

variable [MDT T]

/-- Loop invariant in row `j` of column `i`. -/
structure CholRec (n : Nat) (t0 : List T) (i j : Nat) (s : List T × T) : Prop where
  tail : TailEq n t0 s.1
  up : ∀ r c, r < c → c < n → cl n s.1 r c = cl n t0 r c
  dg : ∀ r, i ≤ r → r < n → (r = i → j = i) → cl n s.1 r r = cl n t0 r r
  diag : ∀ c, (c < i ∨ (c = i ∧ i < j)) → MDT.le (cholSum n t0 s.1 c c) 0 = false ∧
    MDT.squareRoot (cholSum n t0 s.1 c c) = .ok (cl n s.1 c c)
  col : ∀ c r, c < r → r < n → (c < i ∨ (c = i ∧ r < j)) →
    ∃ d, MDT.recip (cl n s.1 c c) = .ok d ∧ cl n s.1 r c = cholSum n t0 s.1 c r * d
  div : i < j → MDT.recip (cl n s.1 i i) = .ok s.2
  low : ∀ r c, c < r → r < n → ¬ (c < i ∨ (c = i ∧ r < j)) → cl n s.1 r c = cl n t0 r c
  prev : j = i → (i = 0 ∧ s.2 = 0) ∨ (0 < i ∧ MDT.recip (cl n s.1 (i - 1) (i - 1)) = .ok s.2)

/-- The state in which the decomposition gives up at the pivot `i`: the columns before are finished, the pivot is what is left,
times the reciprocal of the last pivot (zero at the first), and the other cells are those of the input. -/
def CholStop (n : Nat) (t0 t : List T) : Prop :=
  ∃ i, i < n ∧ TailEq n t0 t ∧ MDT.le (cholSum n t0 t i i) 0 = true ∧
    (∀ c, c < i → MDT.le (cholSum n t0 t c c) 0 = false ∧ MDT.squareRoot (cholSum n t0 t c c) = .ok (cl n t c c)) ∧
    (∀ c r, c < r → r < n → c < i → ∃ d, MDT.recip (cl n t c c) = .ok d ∧ cl n t r c = cholSum n t0 t c r * d) ∧
    (∃ d, cl n t i i = cholSum n t0 t i i * d ∧
      ((i = 0 ∧ d = 0) ∨ (0 < i ∧ MDT.recip (cl n t (i - 1) (i - 1)) = .ok d))) ∧
    ∀ r c, r < n → c < n → r < c ∨ (i ≤ c ∧ ¬ (r = i ∧ c = i)) → cl n t r c = cl n t0 r c

theorem chol_any_loops {t0 : List T} (h0 : n * n ≤ t0.length) :
    Part (forUpR 0 n (fun i (s : List T × T) =>
    forUpR i n (fun j (s : List T × T) => do
      let t := s.1
      let sum ← rd t (i * n + j)
      let (sum, _) ← forUp (i * n) (i * n + i) (fun iEl (sum, jEl) => do
        let ti ← rd t iEl
        let tj ← rd t jEl
        pure (sum - ti * tj, jEl + 1)) (sum, j * n)
      let t ← wr t (j * n + i) (sum * s.2)
      if i = j then
        if MDT.le sum 0 then
          pure (Ctl.ret t)
        else do
          let elII ← MDT.squareRoot sum
          let t ← wr t (i * n + i) elII
          let divElII ← MDT.recip elII
          pure (Ctl.cont (t, divElII))
      else
        pure (Ctl.cont (t, s.2))) s) (t0, (0 : T)))
      (CtlPost (CholRec n t0 n n) (CholStop n t0)) := by
  refine Mat.part_forUpR (I := fun i s => CholRec n t0 i i s) (Nat.zero_le _) ?_ ?_
  · exact ⟨TailEq.refl _, fun _ _ _ _ => rfl, fun _ _ _ _ => rfl, fun c h => by omega, fun c r _ _ h => by omega,
      fun h => by omega, fun _ _ _ _ _ => rfl, fun _ => Or.inl ⟨rfl, rfl⟩⟩
  intro i s _ hi hs
  refine (Mat.part_forUpR (Q := CholStop n t0) (I := fun j s => CholRec n t0 i j s) hi.le hs ?_).mono ?_
  swap
  · intro c hc
    cases c with
    | ret r => exact hc
    | cont s =>
      exact ⟨hc.tail, hc.up, fun r hr hrn h => hc.dg r (by omega) hrn (fun e => by omega), fun c h => hc.diag c (by omega),
        fun c r hcr hr h => hc.col c r hcr hr (by omega), fun h => by omega, fun r c hcr hr h => hc.low r c hcr hr (by omega),
        fun _ => Or.inr ⟨by omega, hc.div hi⟩⟩
  intro j s hij hj hs
  have hl := hs.tail.le h0
  have hsum0 : s.1[i * n + j]? = some (cl n t0 i j) := by
    rw [getElem?_cl hl hi hj]
    by_cases hE : i = j
    · subst hE; rw [hs.dg i le_rfl hi (fun _ => rfl)]
    · rw [hs.up i j (by omega) hj]
  have hloop := cholLoop (t := s.1) (i := i) (a0 := i * n) (b0 := j * n) (cl n t0 i j)
    (f := fun k => cl n s.1 i k) (g := fun k => cl n s.1 j k)
    (fun k hk => getElem?_cl hl hi (by omega)) (fun k hk => getElem?_cl hl hj (by omega))
  have hlt : j * n + i < s.1.length := lt_of_lt_of_le (idx_lt hj hi) hl
  simp only [rd_eq hsum0, res_bind_ok, hloop, wr_eq hlt]
  change Part (if i = j then if MDT.le (cholSum n t0 s.1 i j) 0 = true then _ else _ else _) _
  change Part (if i = j then if MDT.le (cholSum n t0 s.1 i j) 0 = true then
      pure (Ctl.ret (s.1.set (j * n + i) (cholSum n t0 s.1 i j * s.2)))
    else (do
      let elII ← MDT.squareRoot (cholSum n t0 s.1 i j)
      let t ← wr (s.1.set (j * n + i) (cholSum n t0 s.1 i j * s.2)) (i * n + i) elII
      let divElII ← MDT.recip elII
      pure (Ctl.cont (t, divElII)))
    else pure (Ctl.cont (s.1.set (j * n + i) (cholSum n t0 s.1 i j * s.2), s.2))) _
  by_cases hE : i = j
  · subst hE
    rw [if_pos rfl]
    by_cases hle : MDT.le (cholSum n t0 s.1 i i) 0 = true
    · rw [if_pos hle]
      have hne : ∀ v r c, c < n → ¬ (r = i ∧ c = i) → cl n (s.1.set (i * n + i) v) r c = cl n s.1 r c :=
        fun v r c hc h => cl_set_ne hl hi hi hc (fun h' => h ⟨h'.1.symm, h'.2.symm⟩) _
      refine Part.pure ⟨i, hi, hs.tail.set hi hi _, ?_, fun c hc => ?_, fun c r hcr hr hc => ?_, ⟨s.2, ?_, ?_⟩,
        fun r c hr hc h => ?_⟩
      · rw [cholSum_set hl hi hi le_rfl]; exact hle
      · rw [cholSum_set hl hi hi hc.le, hne _ c c (by omega) (by omega)]
        exact hs.diag c (Or.inl hc)
      · rw [cholSum_set hl hi hi hc.le, hne _ c c (by omega) (by omega), hne _ r c (by omega) (by omega)]
        exact hs.col c r hcr hr (Or.inl hc)
      · rw [cl_set_self hl hi hi, cholSum_set hl hi hi le_rfl]
      · rcases hs.prev rfl with h | ⟨h0, h⟩
        · exact Or.inl h
        · rw [hne _ (i - 1) (i - 1) (by omega) (by omega)]
          exact Or.inr ⟨h0, h⟩
      · rw [hne _ r c hc (by omega)]
        rcases lt_trichotomy r c with hrc | hrc | hrc
        · exact hs.up r c hrc hc
        · subst hrc
          exact hs.dg r (by omega) hr (fun _ => rfl)
        · exact hs.low r c hrc hr (by omega)
    rw [if_neg hle]
    have hlt' : i * n + i < (s.1.set (i * n + i) (cholSum n t0 s.1 i i * s.2)).length := by simpa using hlt
    intro a ha
    cases hq : MDT.squareRoot (cholSum n t0 s.1 i i) with
    | error e => rw [hq] at ha; cases ha
    | ok q =>
      simp only [hq, res_bind_ok, wr_eq hlt', List.set_set] at ha
      cases hd : MDT.recip q with
      | error e => rw [hd] at ha; cases ha
      | ok d =>
        simp only [hd, res_bind_ok] at ha
        cases ha
        have hne : ∀ r c, c < n → ¬ (r = i ∧ c = i) → cl n (s.1.set (i * n + i) q) r c = cl n s.1 r c :=
          fun r c hc h => cl_set_ne hl hi hi hc (fun h' => h ⟨h'.1.symm, h'.2.symm⟩) _
        refine ⟨hs.tail.set hi hi _, ?_, ?_, ?_, ?_, ?_, ?_, fun h => by omega⟩
        · intro r c hrc hc
          rw [hne r c hc (by omega)]; exact hs.up r c hrc hc
        · intro r hr hrn h
          have : r ≠ i := fun e => by have := h e; omega
          rw [hne r r hrn (by omega)]
          exact hs.dg r hr hrn (fun e => absurd e this)
        · intro c hc
          show MDT.le (cholSum n t0 (s.1.set (i * n + i) q) c c) 0 = false ∧
            MDT.squareRoot (cholSum n t0 (s.1.set (i * n + i) q) c c) = .ok (cl n (s.1.set (i * n + i) q) c c)
          rw [cholSum_set hl hi hi (by omega)]
          by_cases hci : c = i
          · subst hci
            rw [cl_set_self hl hi hi]
            exact ⟨Bool.eq_false_iff.mpr hle, hq⟩
          · rw [hne c c (by omega) (by omega)]
            exact hs.diag c (Or.inl (by omega))
        · intro c r hcr hr hc
          show ∃ d, MDT.recip (cl n (s.1.set (i * n + i) q) c c) = .ok d ∧
            cl n (s.1.set (i * n + i) q) r c = cholSum n t0 (s.1.set (i * n + i) q) c r * d
          rw [cholSum_set hl hi hi (by omega), hne c c (by omega) (by omega), hne r c (by omega) (by omega)]
          exact hs.col c r hcr hr (by omega)
        · intro _
          show MDT.recip (cl n (s.1.set (i * n + i) q) i i) = .ok d
          rw [cl_set_self hl hi hi]; exact hd
        · intro r c hcr hr h
          show cl n (s.1.set (i * n + i) q) r c = _
          rw [hne r c (by omega) (by omega)]
          exact hs.low r c hcr hr (by omega)
  · rw [if_neg hE]
    have hlt2 : i < j := by omega
    set v := cholSum n t0 s.1 i j * s.2 with hv
    have hne : ∀ r c, c < n → ¬ (r = j ∧ c = i) → cl n (s.1.set (j * n + i) v) r c = cl n s.1 r c :=
      fun r c hc h => cl_set_ne hl hj hi hc (fun h' => h ⟨h'.1.symm, h'.2.symm⟩) _
    refine Part.pure ⟨hs.tail.set hj hi _, ?_, ?_, ?_, ?_, ?_, ?_, fun h => by omega⟩
    · intro r c hrc hc
      rw [hne r c hc (by omega)]; exact hs.up r c hrc hc
    · intro r hr hrn h
      rw [hne r r hrn (by omega)]
      exact hs.dg r hr hrn (fun e => by have := h e; omega)
    · intro c hc
      show MDT.le (cholSum n t0 (s.1.set (j * n + i) v) c c) 0 = false ∧
        MDT.squareRoot (cholSum n t0 (s.1.set (j * n + i) v) c c) = .ok (cl n (s.1.set (j * n + i) v) c c)
      rw [cholSum_set hl hi hj (by omega), hne c c (by omega) (by omega)]
      exact hs.diag c (by omega)
    · intro c r hcr hr hc
      show ∃ d, MDT.recip (cl n (s.1.set (j * n + i) v) c c) = .ok d ∧
        cl n (s.1.set (j * n + i) v) r c = cholSum n t0 (s.1.set (j * n + i) v) c r * d
      rw [cholSum_set hl hi hj (by omega), hne c c (by omega) (by omega)]
      by_cases hnew : c = i ∧ r = j
      · obtain ⟨rfl, rfl⟩ := hnew
        rw [cl_set_self hl hj hi]
        exact ⟨s.2, hs.div hlt2, rfl⟩
      · rw [hne r c (by omega) (by omega)]
        exact hs.col c r hcr hr (by omega)
    · intro _
      show MDT.recip (cl n (s.1.set (j * n + i) v) i i) = .ok s.2
      rw [hne i i hi (by omega)]; exact hs.div hlt2
    · intro r c hcr hr h
      show cl n (s.1.set (j * n + i) v) r c = _
      rw [hne r c (by omega) (by omega)]
      exact hs.low r c hcr hr (by omega)

/-- The recurrences satisfied by the factor. -/
theorem chol_any (bld : Build) {m L : Mat n n T} (hm : m.Valid) (h : m.choleskyDecomposeLower bld = .ok (L, true)) :
    TailEq n m.data L.data ∧ (∀ r c, r < c → c < n → cl n L.data r c = 0) ∧
    (∀ c, c < n → MDT.le (cholSum n m.data L.data c c) 0 = false ∧
      MDT.squareRoot (cholSum n m.data L.data c c) = .ok (cl n L.data c c)) ∧
    ∀ c r, c < r → r < n → ∃ d, MDT.recip (cl n L.data c c) = .ok d ∧
      cl n L.data r c = cholSum n m.data L.data c r * d := by
  have key : Part (m.choleskyDecomposeLower bld) (fun r => r.2 = true →
    TailEq n m.data r.1.data ∧ (∀ a c, a < c → c < n → cl n r.1.data a c = 0) ∧
    (∀ c, c < n → MDT.le (cholSum n m.data r.1.data c c) 0 = false ∧
      MDT.squareRoot (cholSum n m.data r.1.data c c) = .ok (cl n r.1.data c c)) ∧
    ∀ c a, c < a → a < n → ∃ d, MDT.recip (cl n r.1.data c c) = .ok d ∧
      cl n r.1.data a c = cholSum n m.data r.1.data c a * d) := by
    unfold Mat.choleskyDecomposeLower
    refine (Part.any _).bind fun _ _ => (Part.any _).bind fun _ _ => (chol_any_loops hm).bind fun c hc => ?_
    cases c with
    | ret t => exact Part.pure fun h => by cases h
    | cont s =>
      obtain ⟨u, hu, hu1, hu2⟩ := zeroUpper (hc.tail.le hm)
      simp only [hu, res_bind_ok]
      refine Part.pure fun _ => ?_
      have hsum : ∀ c r, c ≤ r → r < n → cholSum n m.data u c r = cholSum n m.data s.1 c r := by
        intro c r hcr hr
        refine subTo_congr fun k hk => ?_
        rw [hu2 c k (by omega) (by omega), if_neg (by omega), hu2 r k hr (by omega), if_neg (by omega)]
      refine ⟨⟨hu1.1.trans hc.tail.1, fun k hk => (hu1.2 k hk).trans (hc.tail.2 k hk)⟩, fun r c hrc hcn => ?_,
        fun c hcn => ?_, fun c r hcr hr => ?_⟩
      · show cl n u r c = 0
        rw [hu2 r c (by omega) hcn, if_pos hrc]
      · show MDT.le (cholSum n m.data u c c) 0 = false ∧ MDT.squareRoot (cholSum n m.data u c c) = .ok (cl n u c c)
        rw [hsum c c le_rfl hcn, hu2 c c hcn hcn, if_neg (lt_irrefl c)]
        exact hc.diag c (Or.inl hcn)
      · show ∃ d, MDT.recip (cl n u c c) = .ok d ∧ cl n u r c = cholSum n m.data u c r * d
        rw [hsum c r hcr.le hr, hu2 c c (by omega) (by omega), if_neg (lt_irrefl c), hu2 r c hr (by omega),
          if_neg (by omega)]
        exact hc.col c r hcr hr (Or.inl (by omega))
  exact key _ h rfl

/-- Where and why the decomposition gives up. -/
theorem chol_any_fail (bld : Build) {m L : Mat n n T} (hm : m.Valid) (h : m.choleskyDecomposeLower bld = .ok (L, false)) :
    CholStop n m.data L.data := by
  have key : Part (m.choleskyDecomposeLower bld) (fun r => r.2 = false → CholStop n m.data r.1.data) := by
    unfold Mat.choleskyDecomposeLower
    refine (Part.any _).bind fun _ _ => (Part.any _).bind fun _ _ => (chol_any_loops hm).bind fun c hc => ?_
    cases c with
    | ret t => exact Part.pure fun _ => hc
    | cont s =>
      obtain ⟨u, hu, _, _⟩ := zeroUpper (hc.tail.le hm)
      simp only [hu, res_bind_ok]
      exact Part.pure fun h => by cases h
  exact key _ h rfl

end Minikalman
