import Verif.Proofs.Chol
import Mathlib.LinearAlgebra.Matrix.PosDef
import Mathlib.LinearAlgebra.Matrix.Block
import Mathlib.Algebra.Order.Star.Real

/-! # The Cholesky decomposition as a statement about matrices -/

namespace Minikalman

open Finset Matrix

variable {n : Nat}

theorem sum_range_eq_fin {M : Type} [AddCommMonoid M] (f : Nat → M) {a : Nat} (h : a ≤ n) :
    ∑ k ∈ range a, f k = ∑ k : Fin n, if (k : Nat) < a then f k else 0 := by
  rw [Fin.sum_univ_eq_sum_range (fun k => if k < a then f k else 0) n, ← sum_filter]
  congr 1
  ext k; simp; omega

theorem isUnit_of_lower {K : Type} [Field K] {L : Matrix (Fin n) (Fin n) K} (hL : ∀ i j, i < j → L i j = 0)
    (hd : ∀ i, L i i ≠ 0) : IsUnit L := by
  rw [Matrix.isUnit_iff_isUnit_det, Matrix.det_of_isLowerTriangular L (fun i j h => hL i j h), isUnit_iff_ne_zero]
  exact prod_ne_zero_iff.mpr fun i _ => hd i

theorem posDef_of_factor {L : Matrix (Fin n) (Fin n) ℝ} (hL : IsUnit L) : (L * Lᵀ).PosDef := by
  have := Matrix.PosDef.mul_conjTranspose_self L (Matrix.vecMul_injective_of_isUnit hL)
  rwa [Matrix.conjTranspose_eq_transpose_of_trivial] at this

/-- A partial factorisation with a nonpositive pivot refutes positive definiteness. -/
theorem not_posDef_of_pivot {A : Matrix (Fin n) (Fin n) ℝ} (hA : Aᵀ = A) {i : Fin n} {L : Nat → Nat → ℝ}
    (hpos : ∀ c : Fin n, c < i → 0 < L c c)
    (hcol : ∀ c r : Fin n, c < i → c ≤ r → A c r = ∑ k ∈ range (c + 1), L r k * L c k)
    (hpiv : A i i - ∑ k ∈ range i, L i k * L i k ≤ 0) : ¬ A.PosDef := by
  intro hPD
  let Lt : Matrix (Fin n) (Fin n) ℝ := fun r c => if c < i then (if c ≤ r then L r c else 0) else if r = c then 1 else 0
  let D : Matrix (Fin n) (Fin n) ℝ := fun r c =>
    if r < i ∨ c < i then (if r = c then 1 else 0) else A r c - ∑ k ∈ range i, L r k * L c k
  have hLt : IsUnit Lt := by
    apply isUnit_of_lower
    · intro r c h
      simp only [Lt]
      rw [if_neg (not_le.mpr h), if_neg h.ne]; simp
    · intro r
      simp only [Lt, le_refl, if_true]
      split
      · exact (hpos r ‹_›).ne'
      · exact one_ne_zero
  have h1 : ∀ r c, (Lt * D) r c = if c < i then Lt r c else D r c := by
    intro r c
    rw [Matrix.mul_apply]
    by_cases hc : c < i
    · rw [if_pos hc, sum_eq_single c]
      · simp [D, hc]
      · intro k _ hk
        simp [D, hc, hk]
      · simp
    · rw [if_neg hc]
      rw [sum_eq_single r]
      · by_cases hr : r < i
        · have : r ≠ c := by rintro rfl; exact hc hr
          simp [D, hr, this]
        · simp [Lt, hr]
      · intro k _ hk
        by_cases hki : k < i
        · have : k ≠ c := by rintro rfl; exact hc hki
          simp [D, hki, this]
        · have : ¬ r = k := fun h => hk h.symm
          simp [Lt, hki, this]
      · simp
  have h2 : ∀ r c, (Lt * D * Ltᵀ) r c =
      (∑ k : Fin n, if k < i then Lt r k * Lt c k else 0) + if c < i then 0 else D r c := by
    intro r c
    rw [Matrix.mul_apply]
    have : ∀ k, (Lt * D) r k * Ltᵀ k c = (if k < i then Lt r k * Lt c k else 0) +
        (if k < i then 0 else D r k * Lt c k) := by
      intro k
      rw [h1]; split <;> simp
    rw [sum_congr rfl fun k _ => this k, sum_add_distrib]
    congr 1
    rw [sum_eq_single c]
    · by_cases hc : c < i
      · simp [hc]
      · simp [hc, Lt]
    · intro k _ hk
      by_cases hki : k < i
      · simp [hki]
      · have : ¬ c = k := fun h => hk h.symm
        simp [hki, Lt, this]
    · simp
  have hlow : ∀ r c : Fin n, c ≤ r → (Lt * D * Ltᵀ) r c = A c r := by
    intro r c hcr
    rw [h2]
    by_cases hc : c < i
    · rw [if_pos hc, add_zero, hcol c r hc hcr, sum_range_eq_fin _ (by omega : (c : Nat) + 1 ≤ n)]
      refine sum_congr rfl fun k _ => ?_
      by_cases hk : k ≤ c
      · rw [if_pos (by omega), if_pos (by omega)]
        simp only [Lt]
        rw [if_pos (by omega), if_pos (by omega), if_pos (by omega), if_pos (by omega)]
      · rw [if_neg (by omega : ¬ (k : Nat) < c + 1)]
        split
        · simp [Lt, hk, ‹k < i›]
        · rfl
    · have hr : ¬ r < i := by omega
      rw [if_neg hc]
      simp only [D]
      rw [if_neg (by tauto), sum_range_eq_fin _ (by omega : (i : Nat) ≤ n)]
      have : A r c = A c r := by conv_lhs => rw [← hA]
                                 rfl
      rw [this]
      have : ∀ k : Fin n, (if k < i then Lt r k * Lt c k else 0) = if (k : Nat) < i then L r k * L c k else 0 := by
        intro k
        by_cases hk : k < i
        · rw [if_pos hk, if_pos (by omega)]
          simp only [Lt]
          rw [if_pos hk, if_pos (by omega), if_pos hk, if_pos (by omega)]
        · rw [if_neg hk, if_neg (by omega)]
      rw [sum_congr rfl fun k _ => this k]
      ring
  have hDs : Dᵀ = D := by
    ext r c
    rw [Matrix.transpose_apply]
    simp only [D]
    by_cases h : r < i ∨ c < i
    · rw [if_pos h, if_pos h.symm]; simp [eq_comm]
    · rw [if_neg h, if_neg (fun h' => h h'.symm)]
      have : A c r = A r c := by conv_lhs => rw [← hA]
                                 rfl
      rw [this]; simp [mul_comm]
  have hfac : Lt * D * Ltᵀ = A := by
    have hs : (Lt * D * Ltᵀ)ᵀ = Lt * D * Ltᵀ := by
      simp [Matrix.transpose_mul, hDs, Matrix.mul_assoc]
    ext r c
    rcases le_total c r with h | h
    · rw [hlow r c h]; conv_lhs => rw [← hA]
      rfl
    · rw [← hs, Matrix.transpose_apply, hlow c r h]
  rw [← hfac, ← Matrix.conjTranspose_eq_transpose_of_trivial, ← Matrix.star_eq_conjTranspose,
    Matrix.IsUnit.posDef_star_right_conjugate_iff hLt] at hPD
  have := hPD.diag_pos (i := i)
  simp only [D] at this
  rw [if_neg (by simp)] at this
  linarith

theorem tailEq_iff {m m' : Mat n n ℝ} : TailEq n m.data m'.data ↔ m.SameTail m' := Iff.rfl

theorem Mat.RepsUpper.valid {T : Type} {m : Mat n n T} {A} (h : m.RepsUpper A) : m.Valid := by
  unfold Mat.Valid
  rcases Nat.eq_zero_or_pos n with rfl | hn
  · simp
  have := h ⟨n - 1, by omega⟩ ⟨n - 1, by omega⟩ le_rfl
  obtain ⟨h', -⟩ := List.getElem?_eq_some_iff.mp this
  simp only at h'
  obtain ⟨k, rfl⟩ : ∃ k, n = k + 1 := ⟨n - 1, by omega⟩
  simp at h'
  have : (k + 1) * (k + 1) = k * (k + 1) + k + 1 := by ring
  omega

theorem Mat.RepsUpper.cl {T : Type} [Zero T] {m : Mat n n T} {A} (h : m.RepsUpper A) (i j : Fin n) (hij : i ≤ j) :
    cl n m.data i j = A i j := by
  simp [Minikalman.cl, h i j hij]

variable [MDT ℝ] [ExactReal]

theorem chol_matrix (bld : Build) {m : Mat n n ℝ} {A : Matrix (Fin n) (Fin n) ℝ} (hn : 0 < n) (hA : Aᵀ = A)
    (hm : m.RepsUpper A) :
    ∃ m' b, m.choleskyDecomposeLower bld = .ok (m', b) ∧ m.SameTail m' ∧
      (b = true → ∃ L : Matrix (Fin n) (Fin n) ℝ, m'.Reps L ∧ (∀ i j, i < j → L i j = 0) ∧ (∀ i, 0 < L i i) ∧
        L * Lᵀ = A) ∧
      (b = false → ¬ A.PosDef) := by
  obtain ⟨⟨m', b⟩, h, ht, h1, h2⟩ := chol_exact bld hn hm.valid
  refine ⟨m', b, h, ht, fun hb => ?_, fun hb => ?_⟩
  · obtain ⟨hz, hp, hf⟩ := h1 hb
    have hlow : ∀ c a : Fin n, c ≤ a → ∑ k : Fin n, cl n m'.data c k * cl n m'.data a k = A c a := by
      intro c a hca
      rw [← hm.cl c a hca, hf c a hca a.2, sum_range_eq_fin _ (by omega : (c : Nat) + 1 ≤ n)]
      refine sum_congr rfl fun k _ => ?_
      split
      · rw [mul_comm]
      · rw [hz c k (by omega) k.2, zero_mul]
    refine ⟨fun i j => cl n m'.data i j, fun i j => ?_, fun i j hij => hz i j hij j.2, fun i => hp i i.2, ?_⟩
    · exact getElem?_cl (ht.le hm.valid) i.2 j.2
    · ext c a
      change ∑ k : Fin n, cl n m'.data c k * cl n m'.data a k = A c a
      rcases le_total c a with hca | hca
      · exact hlow c a hca
      · have : A c a = A a c := by conv_lhs => rw [← hA]
                                   rfl
        rw [this, ← hlow a c hca]
        exact sum_congr rfl fun k _ => mul_comm _ _
  · obtain ⟨i, hi, L, hp, hc, hs⟩ := (h2 hb).fail
    refine not_posDef_of_pivot (i := ⟨i, hi⟩) (L := L) hA (fun c hc => hp c hc) (fun c r hci hcr => ?_) ?_
    · rw [← hm.cl c r hcr]; exact hc c r hci hcr r.2
    · rw [← hm.cl ⟨i, hi⟩ ⟨i, hi⟩ le_rfl]; exact hs

end Minikalman

namespace Minikalman

open Finset Matrix

variable {n : Nat}

/-- Uniqueness of the Cholesky factor. -/
theorem chol_unique {L M : Matrix (Fin n) (Fin n) ℝ} (hL : ∀ i j, i < j → L i j = 0) (hLd : ∀ i, 0 < L i i)
    (hM : ∀ i j, i < j → M i j = 0) (hMd : ∀ i, 0 < M i i) (h : L * Lᵀ = M * Mᵀ) : L = M := by
  have key : ∀ c : Nat, ∀ j : Fin n, (j : Nat) = c → ∀ i, L i j = M i j := by
    intro c
    induction c using Nat.strong_induction_on with
    | _ c ih =>
      rintro j rfl i
      have split : ∀ (X : Matrix (Fin n) (Fin n) ℝ), (∀ i j, i < j → X i j = 0) → ∀ i,
          (X * Xᵀ) i j = (∑ k : Fin n, if k < j then X i k * X j k else 0) + X i j * X j j := by
        intro X hX i
        rw [Matrix.mul_apply]
        have : ∀ k, X i k * Xᵀ k j = (if k < j then X i k * X j k else 0) + if k = j then X i j * X j j else 0 := by
          intro k
          rcases lt_trichotomy k j with hk | hk | hk
          · simp [hk, hk.ne]
          · subst hk; simp
          · simp [hk.not_gt, hk.ne', hX j k hk]
        rw [sum_congr rfl fun k _ => this k, sum_add_distrib]
        simp
      have hsum : ∀ i, (∑ k : Fin n, if k < j then L i k * L j k else 0) = ∑ k : Fin n, if k < j then M i k * M j k else 0 := by
        intro i
        refine sum_congr rfl fun k _ => ?_
        split
        · rw [ih k ‹_› k rfl i, ih k ‹_› k rfl j]
        · rfl
      have hi : ∀ i, L i j * L j j = M i j * M j j := by
        intro i
        have h1 := congrFun (congrFun h i) j
        rw [split L hL, split M hM, hsum] at h1
        linarith
      have hjj : L j j = M j j := by
        have := hi j
        nlinarith [hLd j, hMd j]
      have := hi i
      rw [hjj] at this
      exact mul_right_cancel₀ (hMd j).ne' this
  ext i j
  exact key j j rfl i

end Minikalman
