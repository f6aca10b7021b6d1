import Verif.Proofs.InvMatrix
import Mathlib.LinearAlgebra.Matrix.Notation

/-!
# Properties C14 – C19: Cholesky decomposition and inverse

`m.RepsUpper A`: only the diagonal and the upper triangle of the buffer are constrained; likewise `RepsLower`.
`[MDT ℝ] [ExactReal]`: the element type is `ℝ` with exact operations and unspecified behaviour at `recip 0` and
at roots of negative numbers (`Verif/Spec/Exact.lean`).
-/

namespace Minikalman

open Matrix

variable {T : Type} {N : Nat}

/-! ## C14, C15 -/

/-- C14: if `cholesky_decompose_lower` returns `true`, the buffer holds a lower triangular matrix with positive
diagonal whose product with its transpose is the symmetric matrix given by the upper triangle of the input. -/
theorem C14_cholesky_factor [MDT ℝ] [ExactReal] (bld : Build) {m m' : Mat N N ℝ} {A : Matrix (Fin N) (Fin N) ℝ}
    (hN : 0 < N) (hA : A.IsSymm) (hm : m.RepsUpper A) (h : m.choleskyDecomposeLower bld = .ok (m', true)) :
    ∃ L : Matrix (Fin N) (Fin N) ℝ, m'.Reps L ∧ (∀ i j, i < j → L i j = 0) ∧ (∀ i, 0 < L i i) ∧ L * Lᵀ = A ∧
      m.SameTail m' := by
  obtain ⟨m'', b, h', ht, h1, _⟩ := chol_matrix bld hN hA hm
  rw [h] at h'
  cases h'
  obtain ⟨L, h2, h3, h4, h5⟩ := h1 rfl
  exact ⟨L, h2, h3, h4, h5, ht⟩

/-- C14: the factor is the only one: any lower triangular matrix with positive diagonal and the same product is what
the buffer holds. -/
theorem C14_cholesky_factor_unique [MDT ℝ] [ExactReal] (bld : Build) {m m' : Mat N N ℝ}
    {A L : Matrix (Fin N) (Fin N) ℝ} (hN : 0 < N) (hA : A.IsSymm) (hm : m.RepsUpper A)
    (h : m.choleskyDecomposeLower bld = .ok (m', true)) (hL : ∀ i j, i < j → L i j = 0) (hd : ∀ i, 0 < L i i)
    (hLL : L * Lᵀ = A) : m'.Reps L := by
  obtain ⟨M, h1, h2, h3, h4, _⟩ := C14_cholesky_factor bld hN hA hm h
  rwa [chol_unique hL hd h2 h3 (hLL.trans h4.symm)]

/-- C15: `cholesky_decompose_lower` does not panic and returns `true` exactly for positive definite input. -/
theorem C15_cholesky_true_iff_posDef [MDT ℝ] [ExactReal] (bld : Build) {m : Mat N N ℝ}
    {A : Matrix (Fin N) (Fin N) ℝ} (hN : 0 < N) (hA : A.IsSymm) (hm : m.RepsUpper A) :
    ∃ m' b, m.choleskyDecomposeLower bld = .ok (m', b) ∧ m.SameTail m' ∧ (b = true ↔ A.PosDef) := by
  obtain ⟨m', b, h, ht, h1, h2⟩ := chol_matrix bld hN hA hm
  refine ⟨m', b, h, ht, fun hb => ?_, fun hPD => ?_⟩
  · obtain ⟨L, _, h3, h4, h5⟩ := h1 hb
    rw [← h5]
    exact posDef_of_factor (isUnit_of_lower h3 fun i => (h4 i).ne')
  · by_contra hb
    exact h2 (by simpa using hb) hPD

/-- C15, the edge `N = 0`: with assertions enabled the call panics, without it returns `true`. -/
theorem C15_cholesky_empty [MDT ℝ] (m : Mat 0 0 ℝ) :
    m.choleskyDecomposeLower ⟨true, false⟩ = .error .assertion ∧
    ∀ bld : Build, bld.debugAssertions = false ∨ bld.noAssert = true →
      m.choleskyDecomposeLower bld = .ok (m, true) := by
  refine ⟨rfl, fun bld hb => ?_⟩
  obtain ⟨d, a⟩ := bld
  rcases hb with rfl | rfl <;> cases m <;> first | rfl | (cases d <;> rfl)

/-- A positive definite example (with garbage below the diagonal), used for C14 and C15. -/
example : (⟨[4, 2, 99, 5, 7]⟩ : Mat 2 2 ℝ).RepsUpper !![4, 2; 2, 5] ∧ (!![4, 2; 2, 5] : Matrix _ _ ℝ).IsSymm ∧
    (!![4, 2; 2, 5] : Matrix (Fin 2) (Fin 2) ℝ).PosDef := by
  refine ⟨?_, ?_, ?_⟩
  · intro i j hij; fin_cases i <;> fin_cases j <;> first | rfl | (simp at hij)
  · ext i j; fin_cases i <;> fin_cases j <;> rfl
  · have : (!![4, 2; 2, 5] : Matrix (Fin 2) (Fin 2) ℝ) = !![2, 0; 1, 2] * !![2, 0; 1, 2]ᵀ := by
      ext i j; fin_cases i <;> fin_cases j <;> simp [Matrix.mul_apply, Fin.sum_univ_two] <;> norm_num
    rw [this]
    apply posDef_of_factor
    apply isUnit_of_lower
    · intro i j hij; fin_cases i <;> fin_cases j <;> first | rfl | (simp at hij)
    · intro i; fin_cases i <;> simp

/-- A run on rational numbers: success, failure on a singular and on an indefinite matrix. -/
example : (⟨[4, 2, 99, 5, 7]⟩ : Mat 2 2 ℚ).choleskyDecomposeLower ⟨true, false⟩ = .ok (⟨[2, 0, 1, 2, 7]⟩, true) ∧
    (⟨[4, 2, 2, 1]⟩ : Mat 2 2 ℚ).choleskyDecomposeLower ⟨true, false⟩ = .ok (⟨[2, 2, 1, 0]⟩, false) ∧
    (⟨[4, 0, 0, -1]⟩ : Mat 2 2 ℚ).choleskyDecomposeLower ⟨true, false⟩ = .ok (⟨[2, 0, 0, -1/2]⟩, false) :=
  ⟨by decide +kernel, by decide +kernel, by decide +kernel⟩

/-! ## C16 -/

/-- C16: two inputs that agree on and above the diagonal panic alike or give the same Boolean and, on success, the
same matrix, in any arithmetic. -/
theorem C16_cholesky_upper_only [Zero T] [One T] [Add T] [Sub T] [Mul T] [Neg T] [MDT T] (bld : Build)
    {m₁ m₂ : Mat N N T} {A : Matrix (Fin N) (Fin N) T} (h₁ : m₁.RepsUpper A) (h₂ : m₂.RepsUpper A) :
    (∃ e, m₁.choleskyDecomposeLower bld = .error e ∧ m₂.choleskyDecomposeLower bld = .error e) ∨
    ∃ r₁ r₂ b, m₁.choleskyDecomposeLower bld = .ok (r₁, b) ∧ m₂.choleskyDecomposeLower bld = .ok (r₂, b) ∧
      (b = true → ∃ L : Matrix (Fin N) (Fin N) T, r₁.Reps L ∧ r₂.Reps L) := by
  have := chol_rel 0 bld h₁.valid h₂.valid (fun r c hr hc h => by
    have hrc : r ≤ c := by omega
    rw [h₁.cl ⟨r, hr⟩ ⟨c, hc⟩ hrc, h₂.cl ⟨r, hr⟩ ⟨c, hc⟩ hrc])
  rcases this with ⟨e, h, h'⟩ | ⟨⟨r₁, b₁⟩, ⟨r₂, b₂⟩, h, h', ht, ht', hb, hc⟩
  · exact Or.inl ⟨e, h, h'⟩
  · simp only at hb
    subst hb
    refine Or.inr ⟨r₁, r₂, b₁, h, h', fun hb => ⟨fun i j => cl N r₁.data i j, fun i j => ?_, fun i j => ?_⟩⟩
    · exact getElem?_cl (ht.le h₁.valid) i.2 j.2
    · rw [getElem?_cl (ht'.le h₂.valid) i.2 j.2, ← hc (Or.inl hb) i j i.2 j.2]

example : (⟨[4, 2, 99, 5]⟩ : Mat 2 2 ℚ).RepsUpper !![4, 2; 2, 5] ∧ (⟨[4, 2, -3, 5]⟩ : Mat 2 2 ℚ).RepsUpper !![4, 2; 2, 5] :=
  ⟨by decide, by decide⟩

/-! ## C17 -/

/-- C17: for a lower triangular matrix with nonzero diagonal over any field (the strict upper triangle of the buffer
may hold anything) `invert_l_cholesky` writes the inverse of `L * Lᵀ`. -/
theorem C17_invert_is_inverse [Field T] [MDT T] [ExactField T] {m inverse : Mat N N T}
    {L : Matrix (Fin N) (Fin N) T} (hN : 0 < N) (hL : ∀ i j, i < j → L i j = 0) (hd : ∀ i, L i i ≠ 0)
    (hm : m.RepsLower L) (hv : inverse.Valid) :
    ∃ r, m.invertLCholesky inverse = .ok r ∧ r.Reps (L * Lᵀ)⁻¹ ∧ inverse.SameTail r :=
  invert_matrix hN hL hd hm hv

/-- C17: a successful decomposition followed by the inversion yields the inverse of the original matrix. -/
theorem C17_cholesky_then_invert [MDT ℝ] [ExactReal] (bld : Build) {m inverse : Mat N N ℝ}
    {A : Matrix (Fin N) (Fin N) ℝ} (hN : 0 < N) (hA : A.PosDef) (hm : m.RepsUpper A) (hv : inverse.Valid) :
    ∃ l r, m.choleskyDecomposeLower bld = .ok (l, true) ∧ l.invertLCholesky inverse = .ok r ∧ r.Reps A⁻¹ ∧
      A * A⁻¹ = 1 := by
  have hs : A.IsSymm := by
    have := hA.isHermitian
    rwa [Matrix.IsHermitian, Matrix.conjTranspose_eq_transpose_of_trivial] at this
  obtain ⟨l, b, h, ht, hb⟩ := C15_cholesky_true_iff_posDef bld hN hs hm
  have := hb.mpr hA
  subst this
  obtain ⟨L, h1, h2, h3, h4, _⟩ := C14_cholesky_factor bld hN hs hm h
  obtain ⟨r, hr, hr2, _⟩ := invert_matrix hN h2 (fun i => (h3 i).ne') h1.lower hv
  rw [h4] at hr2
  exact ⟨l, r, h, hr, hr2, Matrix.mul_nonsing_inv _ ((Matrix.isUnit_iff_isUnit_det A).mp hA.isUnit)⟩

/-- C17, the excluded edge: for `N = 0` the call panics. -/
theorem C17_invert_empty_panics [Zero T] [One T] [Add T] [Sub T] [Mul T] [Neg T] [MDT T] (m inverse : Mat 0 0 T) :
    m.invertLCholesky inverse = .error .underflow := rfl

example : (⟨[2, 77, 1, 2]⟩ : Mat 2 2 ℚ).RepsLower !![2, 0; 1, 2] ∧
    (⟨[2, 77, 1, 2]⟩ : Mat 2 2 ℚ).invertLCholesky ⟨[9, 9, 9, 9, 3]⟩ = .ok ⟨[5/16, -1/8, -1/8, 1/4, 3]⟩ :=
  ⟨by decide, by decide +kernel⟩

/-! ## C18 -/

/-- C18: whenever `invert_l_cholesky` returns, the result is exactly symmetric, in any arithmetic. -/
theorem C18_invert_symmetric [Zero T] [One T] [Add T] [Sub T] [Mul T] [Neg T] [MDT T] {m inverse r : Mat N N T}
    (hm : m.Valid) (hv : inverse.Valid) (h : m.invertLCholesky inverse = .ok r) :
    (∃ X : Matrix (Fin N) (Fin N) T, r.Reps X ∧ X.IsSymm) ∧ inverse.SameTail r := by
  rcases Nat.eq_zero_or_pos N with rfl | hN
  · cases h
  obtain ⟨ht, hs⟩ := invert_tail hN hm hv r h
  exact ⟨⟨fun i j => cl N r.data i j, fun i j => getElem?_cl (ht.le hv) i.2 j.2,
    by ext i j; exact hs j i j.2 i.2⟩, ht⟩

/-! ## C19 -/

/-- C19: the outcome depends neither on the old contents of the output nor on the strict upper triangle of the input,
in any arithmetic. -/
theorem C19_invert_independent [Zero T] [One T] [Add T] [Sub T] [Mul T] [Neg T] [MDT T]
    {m₁ m₂ inverse₁ inverse₂ : Mat N N T} {L : Matrix (Fin N) (Fin N) T}
    (h₁ : m₁.RepsLower L) (h₂ : m₂.RepsLower L) (hv₁ : inverse₁.Valid) (hv₂ : inverse₂.Valid) :
    (∃ e, m₁.invertLCholesky inverse₁ = .error e ∧ m₂.invertLCholesky inverse₂ = .error e) ∨
    ∃ r₁ r₂, m₁.invertLCholesky inverse₁ = .ok r₁ ∧ m₂.invertLCholesky inverse₂ = .ok r₂ ∧
      ∃ X : Matrix (Fin N) (Fin N) T, r₁.Reps X ∧ r₂.Reps X := by
  rcases Nat.eq_zero_or_pos N with rfl | hN
  · exact Or.inl ⟨.underflow, rfl, rfl⟩
  have := invert_rel hN h₁.valid h₂.valid hv₁ hv₂ (fun r c hr hc => by
    rw [h₁.cl ⟨r, hr⟩ ⟨c, by omega⟩ hc, h₂.cl ⟨r, hr⟩ ⟨c, by omega⟩ hc])
  rcases this with ⟨e, h, h'⟩ | ⟨r₁, r₂, h, h', ht, ht', hc⟩
  · exact Or.inl ⟨e, h, h'⟩
  · refine Or.inr ⟨r₁, r₂, h, h', fun i j => cl N r₁.data i j, fun i j => ?_, fun i j => ?_⟩
    · exact getElem?_cl (ht.le hv₁) i.2 j.2
    · rw [getElem?_cl (ht'.le hv₂) i.2 j.2, ← hc i j i.2 j.2]

example : (⟨[2, 77, 1, 2]⟩ : Mat 2 2 ℚ).RepsLower !![2, 0; 1, 2] ∧ (⟨[2, -1, 1, 2]⟩ : Mat 2 2 ℚ).RepsLower !![2, 0; 1, 2] ∧
    (⟨[9, 9, 9, 9, 3]⟩ : Mat 2 2 ℚ).Valid ∧ (⟨[0, 0, 0, 0]⟩ : Mat 2 2 ℚ).Valid := by decide

end Minikalman
