import Verif.Proofs.Filter
import Verif.Spec.FixedPoint

/-! # Which scalar operations can panic -/

set_option linter.unusedSectionVars false

namespace Minikalman

variable {T : Type} {n m : Nat}

section AnyArith
variable [Zero T] [One T] [Add T] [Sub T] [Mul T] [Neg T] [MDT T]

/-- The reciprocals of the first `k` diagonal cells exist. -/
def DiagOk (n : Nat) (t : List T) (k : Nat) : Prop := ∀ r, r < k → ∃ d, MDT.recip (cl n t r r) = .ok d

theorem DiagOk.set {t : List T} {k r c : Nat} (h : DiagOk n t k) (hl : n * n ≤ t.length) (hr : r < n) (hc : c < n)
    (hk : k ≤ n) (hne : r ≠ c ∨ k ≤ r) (v : T) : DiagOk n (t.set (r * n + c) v) k := by
  intro q hq
  rw [cl_set_ne hl hr hc (by omega) (by omega)]
  exact h q hq

theorem chol_total [SafeRoots T] (bld : Build) {m : Mat n n T} (hn : 0 < n) (hm : m.Valid) :
    Holds (m.choleskyDecomposeLower bld) (fun r => TailEq n m.data r.1.data ∧ (r.2 = true → DiagOk n r.1.data n)) := by
  unfold Mat.choleskyDecomposeLower
  have e1 : debugAssert bld (n == n) = .ok () := by simp [debugAssert]
  have e2 : debugAssert bld (decide (0 < n)) = .ok () := by simp [debugAssert, hn]
  simp only [e1, e2, res_bind_ok]
  refine (forUpR_inv (I := fun i (s : List T × T) => TailEq n m.data s.1 ∧ DiagOk n s.1 i)
    (Qr := fun (t : List T) => TailEq n m.data t) (Nat.zero_le _)
    ⟨TailEq.refl _, fun r hr => absurd hr (Nat.not_lt_zero _)⟩ ?_).bind fun c hc => ?_
  · intro i s _ hi hs
    refine Holds.mono (forUpR_inv (I := fun j (s : List T × T) => TailEq n m.data s.1 ∧ DiagOk n s.1 (if i < j then i + 1 else i))
      (Qr := fun (t : List T) => TailEq n m.data t) hi.le ⟨hs.1, by rw [if_neg (lt_irrefl i)]; exact hs.2⟩ ?_) ?_
    · intro j s hij hj hs
      have hl := hs.1.le hm
      have hlt : j * n + i < s.1.length := lt_of_lt_of_le (idx_lt hj hi) hl
      have hloop := cholLoop (t := s.1) (i := i) (a0 := i * n) (b0 := j * n) (cl n s.1 i j)
        (f := fun k => cl n s.1 i k) (g := fun k => cl n s.1 j k)
        (fun k hk => getElem?_cl hl hi (by omega)) (fun k hk => getElem?_cl hl hj (by omega))
      simp only [rd_eq (getElem?_cl hl hi hj), res_bind_ok, hloop, wr_eq hlt]
      by_cases hd : i = j
      · subst hd
        have hs2 : DiagOk n s.1 i := by have := hs.2; rwa [if_neg (lt_irrefl i)] at this
        rw [if_pos rfl]
        split
        · exact Holds.pure (hs.1.set hi hi _)
        · rename_i hle
          obtain ⟨y, z, hy, hz⟩ := SafeRoots.root_recip _ (Bool.eq_false_iff.mpr hle)
          have hlen : i * n + i < (s.1.set (i * n + i) (subTo (cl n s.1 i i) (fun k => cl n s.1 i k * cl n s.1 i k) i * s.2)).length := by
            rw [List.length_set]; exact lt_of_lt_of_le (idx_lt hi hi) hl
          simp only [hy, res_bind_ok, wr_eq hlen, hz]
          refine Holds.pure ⟨(hs.1.set hi hi _).set hi hi _, ?_⟩
          rw [if_pos (Nat.lt_succ_self i)]
          have hl2 : n * n ≤ (s.1.set (i * n + i) (subTo (cl n s.1 i i) (fun k => cl n s.1 i k * cl n s.1 i k) i * s.2)).length := by
            rw [List.length_set]; exact hl
          intro r hr
          by_cases hri : r = i
          · subst hri
            exact ⟨z, by rw [cl_set_self hl2 hi hi]; exact hz⟩
          · exact ((hs2.set hl hi hi hi.le (Or.inr (le_refl _)) _).set hl2 hi hi hi.le (Or.inr (le_refl _)) _) r (by omega)
      · rw [if_neg hd]
        have hs2 := hs.2
        rw [if_pos (show i < j by omega)] at hs2
        refine Holds.pure ⟨hs.1.set hj hi _, ?_⟩
        rw [if_pos (show i < j + 1 by omega)]
        exact hs2.set hl hj hi (by omega) (Or.inl (by omega)) _
    · intro c hc
      cases c with
      | ret t => exact hc
      | cont s => exact ⟨hc.1, by have := hc.2; rwa [if_pos hi] at this⟩
  · cases c with
    | ret t => exact Holds.pure ⟨hc, fun h => by cases h⟩
    | cont s =>
      obtain ⟨u, hu, hu1, hu2⟩ := zeroUpper (TailEq.le hc.1 hm)
      simp only [hu, res_bind_ok]
      refine Holds.pure ⟨⟨hu1.1.trans hc.1.1, fun k hk => (hu1.2 k hk).trans (hc.1.2 k hk)⟩, fun _ r hr => ?_⟩
      have := hc.2 r hr
      rw [hu2 r r hr hr, if_neg (lt_irrefl r)]
      exact this

theorem invert_total {m inverse : Mat n n T} (hn : 0 < n) (hm : m.Valid) (hv : inverse.Valid) (hd : DiagOk n m.data n) :
    Holds (m.invertLCholesky inverse) (fun r => TailEq n inverse.data r.data) := by
  rw [invert_unfold _ _ hn]
  refine (forUp_inv (I := fun _ inv => TailEq n inverse.data inv) (Nat.zero_le _) (TailEq.refl _) ?_).bind
    fun inv hinv => ?_
  · intro i inv _ hi hinv
    rw [invBody1_eq hm hi]
    obtain ⟨d, hd⟩ := hd i hi
    rw [hd, res_bind_ok]
    refine forUp_inv (I := fun _ inv => TailEq n inverse.data inv) (Nat.zero_le _) hinv ?_
    intro j inv _ hj hinv
    rw [invStep1 hm (hinv.le hv) hi (by omega)]
    exact Holds.ok (hinv.set (by omega) hi _)
  · refine (forDown_inv (I := fun _ inv => TailEq n inverse.data inv) hinv ?_).bind fun inv hinv => Holds.pure hinv
    intro i inv hi hinv
    rw [invBody2_eq hm hi]
    obtain ⟨d, hd⟩ := hd i hi
    rw [hd, res_bind_ok]
    refine forUp_inv (I := fun _ inv => TailEq n inverse.data inv) (Nat.zero_le _) hinv ?_
    intro j inv _ hj hinv
    rw [invStep2 hm (hinv.le hv) hi (by omega)]
    exact Holds.ok ((hinv.set hi (by omega) _).set (by omega) hi _)

/-- `correct` with the decomposition and the inversion singled out. -/
theorem correct_split (bld : Build) {o : RegularObservation n m T} {x : Mat n 1 T} {P : Mat n n T} {H P' R}
    (hn : 0 < n) (hm : 0 < m) (ho : o.Valid) (hx : x.Valid) (hP : P.Reps P') (hH : o.H.Reps H) (hR : o.R.Reps R) :
    ∃ S : Mat m m T, S.Reps (Spec.innovCovSeq H P' R) ∧
      (∀ e, S.choleskyDecomposeLower bld = .error e → o.correct bld x P = .error e) ∧
      ∀ L b, S.choleskyDecomposeLower bld = .ok (L, b) →
        (∀ e, L.invertLCholesky o.tempSInv = .error e → o.correct bld x P = .error e) ∧
        ∀ si, L.invertLCholesky o.tempSInv = .ok si → ∃ r, o.correct bld x P = .ok r := by
  obtain ⟨y1, y2, g1, g2, g3, g4⟩ := innovation_any hn ho ho.H.reps ho.z.repsV hx.repsV
  have ho := obs_with_y_valid ho g4
  obtain ⟨hp, h1, h2, h3⟩ := Mat.mult_reps hH hP ho.tempHP
  obtain ⟨s, h4, h5, h6⟩ := Mat.multTransb_reps h2 hH ho.S
  obtain ⟨s2, h7, h8, h9⟩ := Mat.addInplaceA_reps h5 hR
  obtain ⟨pht, h10, h11, h12⟩ := Mat.multTransb_reps hP hH ho.tempPHt
  obtain ⟨hq, h13, h14, h15⟩ := Mat.mult_reps hH hP (h3.valid ho.tempHP)
  dsimp only at h1 h4 h7 h10 h13
  refine ⟨s2, h8, ?_, ?_⟩
  · intro e he
    unfold RegularObservation.correct RegularObservation.updateWithInnovation
    simp only [g1, g2, h1, h4, h7, he, res_bind_ok, res_bind_error]
  · intro L b hL
    refine ⟨?_, ?_⟩
    · intro e he
      unfold RegularObservation.correct RegularObservation.updateWithInnovation
      simp only [g1, g2, h1, h4, h7, hL, he, res_bind_ok, res_bind_error]
    · intro si hsi
      have hLv : L.Valid := by
        rcases chol_safe bld hm h8.valid with ⟨e, he, _⟩ | ⟨r, hr, ht⟩
        · rw [hL] at he; cases he
        · rw [hL] at hr; cases hr; exact ht.le h8.valid
      have hsv : si.Valid := by
        rcases invert_safe hm hLv ho.tempSInv with ⟨e, he, _⟩ | ⟨r, hr, ht⟩
        · dsimp only at he; rw [hsi] at he; cases he
        · dsimp only at hr; rw [hsi] at hr; cases hr; exact ht.le ho.tempSInv
      obtain ⟨k, k1, k2, k3⟩ := Mat.mult_reps h11 hsv.reps ho.K
      obtain ⟨xn, x1, x2, x3⟩ := Mat.multaddRowvector_reps hm k2 ho.y.repsV hx.repsV
      obtain ⟨khp, q1, q2, q3⟩ := Mat.mult_reps k2 h14 ho.tempKHP
      obtain ⟨pn, p1, p2, p3⟩ := Mat.subInplaceA_reps hP q2
      dsimp only at k1 x1 q1
      unfold RegularObservation.correct RegularObservation.updateWithInnovation
      simp only [g1, g2, h1, h4, h7, hL, hsi, h10, k1, x1, h13, q1, p1, res_bind_ok]
      exact ⟨_, rfl⟩

/-- A first diagonal cell that is not positive ends the decomposition at once and is replaced by its product with zero. -/
theorem chol_first (bld : Build) {S : Mat m m T} (hm : 0 < m) (hS : S.Valid) (hle : MDT.le (cl m S.data 0 0) 0 = true) :
    S.choleskyDecomposeLower bld = .ok (⟨S.data.set 0 (cl m S.data 0 0 * 0)⟩, false) := by
  obtain ⟨q, rfl⟩ : ∃ q, m = q + 1 := ⟨m - 1, by omega⟩
  unfold Mat.choleskyDecomposeLower
  have e1 : debugAssert bld (q + 1 == q + 1) = .ok () := by simp [debugAssert]
  have e2 : debugAssert bld (decide (0 < q + 1)) = .ok () := by simp [debugAssert]
  have h0 : 0 * (q + 1) + 0 < S.data.length := lt_of_lt_of_le (idx_lt hm hm) hS
  have hr := rd_eq (getElem?_cl hS hm hm)
  simp only [e1, e2, res_bind_ok, forUpR, Nat.sub_zero, forCountR, hr, forUp_empty (show 0 * (q + 1) + 0 ≤ 0 * (q + 1) by omega),
    wr_eq h0, if_true, hle]
  simp only [Nat.zero_mul, Nat.add_zero]
  rfl

theorem invert_first {L inverse : Mat m m T} {e : Panic} (hm : 0 < m) (hL : L.Valid)
    (he : MDT.recip (cl m L.data 0 0) = .error e) : L.invertLCholesky inverse = .error e := by
  obtain ⟨q, rfl⟩ : ∃ q, m = q + 1 := ⟨m - 1, by omega⟩
  rw [invert_unfold _ _ hm]
  unfold forUp
  simp only [Nat.sub_zero, forCount, invBody1_eq hL hm, he, res_bind_error]

end AnyArith
end Minikalman
