import Verif.Proofs.Inv
import Verif.Proofs.CholMatrix

/-! # The inverse as a statement about matrices; two runs of the Cholesky decomposition -/

set_option linter.unusedSectionVars false

namespace Minikalman

open Finset Matrix

variable {T : Type} {n : Nat}

theorem sum_Ico_eq_fin {M : Type} [AddCommMonoid M] (f : Nat → M) {a b : Nat} (h : b ≤ n) :
    ∑ k ∈ Ico a b, f k = ∑ k : Fin n, if a ≤ (k : Nat) ∧ (k : Nat) < b then f k else 0 := by
  rw [Fin.sum_univ_eq_sum_range (fun k => if a ≤ k ∧ k < b then f k else 0) n, ← sum_filter]
  congr 1
  ext k; simp; omega

theorem Mat.RepsLower.valid {m : Mat n n T} {A} (h : m.RepsLower A) : m.Valid := by
  unfold Mat.Valid
  rcases Nat.eq_zero_or_pos n with rfl | hn
  · simp
  have := h ⟨n - 1, by omega⟩ ⟨n - 1, by omega⟩ le_rfl
  obtain ⟨h', -⟩ := List.getElem?_eq_some_iff.mp this
  simp only at h'
  obtain ⟨k, rfl⟩ : ∃ k, n = k + 1 := ⟨n - 1, by omega⟩
  simp at h'
  have : (k + 1) * (k + 1) = k * (k + 1) + k + 1 := by ring
  omega

theorem Mat.RepsLower.cl [Zero T] {m : Mat n n T} {A} (h : m.RepsLower A) (i j : Fin n) (hij : j ≤ i) :
    cl n m.data i j = A i j := by
  simp [Minikalman.cl, h i j hij]

theorem Mat.Reps.lower {m : Mat n n T} {A} (h : m.Reps A) : m.RepsLower A := fun i j _ => h i j
theorem Mat.Reps.upper {m : Mat n n T} {A} (h : m.Reps A) : m.RepsUpper A := fun i j _ => h i j

theorem invert_matrix [Field T] [MDT T] [ExactField T] {m inverse : Mat n n T} {L : Matrix (Fin n) (Fin n) T}
    (hn : 0 < n) (hL : ∀ i j, i < j → L i j = 0) (hd : ∀ i, L i i ≠ 0) (hm : m.RepsLower L) (hv : inverse.Valid) :
    ∃ r, m.invertLCholesky inverse = .ok r ∧ r.Reps (L * Lᵀ)⁻¹ ∧ inverse.SameTail r := by
  have hU : IsUnit L := isUnit_of_lower hL hd
  have hdet : IsUnit L.det := (Matrix.isUnit_iff_isUnit_det L).mp hU
  have hdetT : IsUnit Lᵀ.det := by rwa [Matrix.det_transpose]
  have hinvLow : ∀ k j : Fin n, k < j → L⁻¹ k j = 0 := by
    let _ := Matrix.invertibleOfIsUnitDet L hdet
    exact fun k j h => Matrix.blockTriangular_inv_of_blockTriangular (M := L) (b := OrderDual.toDual)
      (fun i j h => hL i j h) h
  have hlow : ∀ r c : Fin n, ¬ c ≤ r → L r c = 0 := fun r c h => hL r c (not_le.mp h)
  let X : Nat → Nat → T := fun k j => if h : k < n ∧ j < n then L⁻¹ ⟨k, h.1⟩ ⟨j, h.2⟩ else 0
  let W : Nat → Nat → T := fun k j => if h : k < n ∧ j < n then (L * Lᵀ)⁻¹ ⟨k, h.1⟩ ⟨j, h.2⟩ else 0
  have hXf : ∀ k j : Fin n, X k j = L⁻¹ k j := fun k j => by simp [X]
  have hWf : ∀ k j : Fin n, W k j = (L * Lᵀ)⁻¹ k j := fun k j => by simp [W]
  have hWs : ((L * Lᵀ)⁻¹)ᵀ = (L * Lᵀ)⁻¹ := by
    rw [Matrix.transpose_nonsing_inv, Matrix.transpose_mul, Matrix.transpose_transpose]
  have hWL : (L * Lᵀ)⁻¹ * L = (L⁻¹)ᵀ := by
    rw [Matrix.mul_inv_rev, Matrix.mul_assoc, Matrix.nonsing_inv_mul _ hdet, Matrix.mul_one,
      Matrix.transpose_nonsing_inv]
  obtain ⟨r, hr, ht, hc⟩ := invert_grid hn hm.valid hv X W
    (fun i hi => by rw [hm.cl ⟨i, hi⟩ ⟨i, hi⟩ le_rfl]; exact hd _)
    (fun i j hi hj => by
      have h1 : (L * L⁻¹) ⟨i, hi⟩ ⟨j, by omega⟩ = if i = j then 1 else 0 := by
        rw [Matrix.mul_nonsing_inv _ hdet, Matrix.one_apply]; simp
      rw [← h1, Matrix.mul_apply, sum_Ico_eq_fin _ (by omega : i + 1 ≤ n)]
      refine sum_congr rfl fun k _ => ?_
      by_cases h2 : j ≤ (k : Nat) ∧ (k : Nat) < i + 1
      · rw [if_pos h2, hm.cl ⟨i, hi⟩ k (by rw [Fin.le_def]; simp; omega), hXf k ⟨j, by omega⟩]
      · rw [if_neg h2]
        by_cases h3 : (k : Nat) < j
        · rw [hinvLow k ⟨j, by omega⟩ h3, mul_zero]
        · rw [hL ⟨i, hi⟩ k (by rw [Fin.lt_def]; simp; omega), zero_mul])
    (fun i j hi hj => by
      have h1 : ((L * Lᵀ)⁻¹ * L) ⟨j, by omega⟩ ⟨i, hi⟩ = X i j := by
        rw [hWL, Matrix.transpose_apply, hXf ⟨i, hi⟩ ⟨j, by omega⟩]
      rw [← h1, Matrix.mul_apply, sum_Ico_eq_fin _ le_rfl]
      refine sum_congr rfl fun k _ => ?_
      by_cases h2 : i ≤ (k : Nat) ∧ (k : Nat) < n
      · rw [if_pos h2, hm.cl k ⟨i, hi⟩ h2.1, hWf ⟨j, by omega⟩ k, mul_comm]
      · rw [if_neg h2, hL k ⟨i, hi⟩ (by rw [Fin.lt_def]; simp; omega), mul_zero])
    (fun i j hi hj => by
      rw [hWf ⟨i, hi⟩ ⟨j, hj⟩, hWf ⟨j, hj⟩ ⟨i, hi⟩]
      conv_lhs => rw [← hWs]
      rfl)
  refine ⟨r, hr, fun i j => ?_, ht⟩
  rw [getElem?_cl (ht.le hv) i.2 j.2, hc i j i.2 j.2, hWf]

/-! ## Cholesky: two runs, any arithmetic -/

section AnyArith
variable [Zero T] [One T] [Add T] [Sub T] [Mul T] [Neg T] [MDT T]

/-- `z = 1`: the inputs agree everywhere, and so do the outputs, even if the decomposition gives up. Otherwise they
agree on and above the diagonal. -/
theorem chol_rel (z : Nat) (bld : Build) {m m' : Mat n n T} (hm : m.Valid) (hm' : m'.Valid)
    (hag : ∀ r c, r < n → c < n → (r ≤ c ∨ z = 1) → cl n m.data r c = cl n m'.data r c) :
    Rel2 (m.choleskyDecomposeLower bld) (m'.choleskyDecomposeLower bld)
      (fun a b => TailEq n m.data a.1.data ∧ TailEq n m'.data b.1.data ∧ a.2 = b.2 ∧
        (a.2 = true ∨ z = 1 → ∀ r c, r < n → c < n → cl n a.1.data r c = cl n b.1.data r c)) := by
  unfold Mat.choleskyDecomposeLower
  refine (Rel2.refl _).bind fun _ _ _ => (Rel2.refl _).bind fun _ _ _ => ?_
  refine (rel2_forUpR (I := fun i s t => TailEq n m.data s.1 ∧ TailEq n m'.data t.1 ∧ s.2 = t.2 ∧
    ∀ r c, r < n → c < n → (r ≤ c ∨ c < i ∨ z = 1) → cl n s.1 r c = cl n t.1 r c)
    (Q := fun a b => TailEq n m.data a ∧ TailEq n m'.data b ∧
      (z = 1 → ∀ r c, r < n → c < n → cl n a r c = cl n b r c)) (Nat.zero_le _) ?_ ?_).bind
    fun a b hab => ?_
  · exact ⟨TailEq.refl _, TailEq.refl _, rfl, fun r c h1 h2 h3 => hag r c h1 h2 (by omega)⟩
  · rintro i s t _ hi ⟨ht, ht', hd, hst⟩
    refine (rel2_forUpR (I := fun j s t => TailEq n m.data s.1 ∧ TailEq n m'.data t.1 ∧ s.2 = t.2 ∧
      ∀ r c, r < n → c < n → (r ≤ c ∨ c < i ∨ (c = i ∧ r < j) ∨ z = 1) → cl n s.1 r c = cl n t.1 r c)
      (Q := fun a b => TailEq n m.data a ∧ TailEq n m'.data b ∧
      (z = 1 → ∀ r c, r < n → c < n → cl n a r c = cl n b r c)) hi.le
      ⟨ht, ht', hd, fun r c h1 h2 h3 => hst r c h1 h2 (by omega)⟩ ?_).mono ?_
    · rintro j s t hij hj ⟨ht, ht', hd, hst⟩
      have hl := ht.le hm
      have hl' := ht'.le hm'
      have hlt : j * n + i < s.1.length := lt_of_lt_of_le (idx_lt hj hi) hl
      have hlt' : j * n + i < t.1.length := lt_of_lt_of_le (idx_lt hj hi) hl'
      have hloop := cholLoop (t := s.1) (i := i) (a0 := i * n) (b0 := j * n) (cl n s.1 i j)
        (f := fun k => cl n s.1 i k) (g := fun k => cl n s.1 j k)
        (fun k hk => getElem?_cl hl hi (by omega)) (fun k hk => getElem?_cl hl hj (by omega))
      have hloop' := cholLoop (t := t.1) (i := i) (a0 := i * n) (b0 := j * n) (cl n s.1 i j)
        (f := fun k => cl n s.1 i k) (g := fun k => cl n s.1 j k)
        (fun k hk => by rw [getElem?_cl hl' hi (by omega), hst i k hi (by omega) (by omega)])
        (fun k hk => by rw [getElem?_cl hl' hj (by omega), hst j k hj (by omega) (by omega)])
      have hs0 := getElem?_cl hl hi hj
      have ht0 := getElem?_cl hl' hi hj
      rw [← hst i j hi hj (by omega)] at ht0
      simp only [rd_eq hs0, rd_eq ht0, res_bind_ok, hloop, hloop', wr_eq hlt, wr_eq hlt', ← hd]
      by_cases hE : i = j
      · subst hE
        simp only [if_true]
        split
        · refine Rel2.pure ⟨ht.set hi hi _, ht'.set hi hi _, fun hz r c h1 h2 => ?_⟩
          rw [cl_set hl hi hi h2, cl_set hl' hi hi h2]
          by_cases h4 : i = r ∧ i = c
          · rw [if_pos h4, if_pos h4]
          · rw [if_neg h4, if_neg h4]; exact hst r c h1 h2 (by omega)
        · refine (Rel2.refl _).bind fun e e' he => ?_
          subst he
          rw [wr_eq (by simpa using hlt), wr_eq (by simpa using hlt')]
          simp only [res_bind_ok, List.set_set]
          refine (Rel2.refl _).bind fun e e' he => ?_
          subst he
          refine Rel2.pure ⟨ht.set hi hi _, ht'.set hi hi _, rfl, fun r c h1 h2 h3 => ?_⟩
          simp only
          rw [cl_set hl hi hi h2, cl_set hl' hi hi h2]
          by_cases h4 : i = r ∧ i = c
          · rw [if_pos h4, if_pos h4]
          · rw [if_neg h4, if_neg h4]; exact hst r c h1 h2 (by omega)
      · simp only [if_neg hE]
        refine Rel2.pure ⟨ht.set hj hi _, ht'.set hj hi _, rfl, fun r c h1 h2 h3 => ?_⟩
        simp only
        rw [cl_set hl hj hi h2, cl_set hl' hj hi h2]
        by_cases h4 : j = r ∧ i = c
        · rw [if_pos h4, if_pos h4]
        · rw [if_neg h4, if_neg h4]; exact hst r c h1 h2 (by omega)
    · intro a b hab
      cases a <;> cases b <;> simp only [CtlRel] at hab ⊢
      · exact ⟨hab.1, hab.2.1, hab.2.2.1, fun r c h1 h2 h3 => hab.2.2.2 r c h1 h2 (by omega)⟩
      · exact hab
  · cases a with
    | ret a =>
      cases b with
      | ret b => exact Rel2.pure ⟨hab.1, hab.2.1, rfl, fun h => hab.2.2 (by simpa using h)⟩
      | cont b => exact hab.elim
    | cont a =>
      cases b with
      | ret b => exact hab.elim
      | cont b =>
        obtain ⟨ht, ht', _, hst⟩ := hab
        obtain ⟨u, hu, hu1, hu2⟩ := zeroUpper (ht.le hm)
        obtain ⟨v, hv, hv1, hv2⟩ := zeroUpper (ht'.le hm')
        simp only [hu, hv, res_bind_ok]
        refine Rel2.pure ⟨⟨hu1.1.trans ht.1, fun k hk => (hu1.2 k hk).trans (ht.2 k hk)⟩,
          ⟨hv1.1.trans ht'.1, fun k hk => (hv1.2 k hk).trans (ht'.2 k hk)⟩, rfl, fun _ r c h1 h2 => ?_⟩
        simp only
        rw [hu2 r c h1 h2, hv2 r c h1 h2, hst r c h1 h2 (by omega)]

end AnyArith
end Minikalman
