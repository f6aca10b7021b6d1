import Verif.Proofs.RoundingChol
import Verif.Spec.RoundingExamples

/-!
# Property C60: the Cholesky decomposition in any arithmetic

`cholesky_decompose_lower` computes the textbook recurrences operation by operation, and with rounded arithmetic the factor is
the exact factor of a matrix close to the input (backward stability).
-/

set_option linter.unusedSectionVars false

namespace Minikalman

open Matrix

variable {T : Type} [Zero T] [One T] [Add T] [Sub T] [Mul T] [Neg T] [MDT T] {n : Nat}

/-- C60: whatever the arithmetic, a reported success means that the buffer now holds a lower triangular matrix `L` with
`L c c = sqrt (A c c - Σ L c k * L c k)` and `L r c = (A c r - Σ L c k * L r k) * (1 / L c c)`, the differences taken from left
to right, and that no pivot was found to be `≤ 0`. Only the upper triangle of the input is used. -/
theorem C60_cholesky_recurrence (bld : Build) {m m' : Mat n n T} {A : Matrix (Fin n) (Fin n) T} (hm : m.Valid)
    (hA : m.RepsUpper A) (h : m.choleskyDecomposeLower bld = .ok (m', true)) :
    ∃ L : Matrix (Fin n) (Fin n) T, m'.Reps L ∧ m.SameTail m' ∧ (∀ r c, r < c → L r c = 0) ∧
      (∀ c, MDT.le (Spec.cholRest A L c c) 0 = false ∧ MDT.squareRoot (Spec.cholRest A L c c) = .ok (L c c)) ∧
      ∀ c r, c < r → ∃ d, MDT.recip (L c c) = .ok d ∧ L r c = Spec.cholRest A L c r * d := chol_any_reps bld hm hA h

/-- C60: whatever the arithmetic, a reported failure means that there is a first pivot that was found to be `≤ 0`; the columns
before it hold the factor as after a success, that pivot's cell is what is left there times the reciprocal of the last pivot (zero
if it is the first), and all other cells are unchanged. -/
theorem C60_cholesky_failure (bld : Build) {m m' : Mat n n T} {A : Matrix (Fin n) (Fin n) T} (hm : m.Valid)
    (hA : m.RepsUpper A) (h : m.choleskyDecomposeLower bld = .ok (m', false)) :
    ∃ (L : Matrix (Fin n) (Fin n) T) (p : Fin n), m'.Reps L ∧ m.SameTail m' ∧ MDT.le (Spec.cholRest A L p p) 0 = true ∧
      (∀ c, c < p → MDT.le (Spec.cholRest A L c c) 0 = false ∧ MDT.squareRoot (Spec.cholRest A L c c) = .ok (L c c)) ∧
      (∀ c r, c < r → c < p → ∃ d, MDT.recip (L c c) = .ok d ∧ L r c = Spec.cholRest A L c r * d) ∧
      (∃ d, L p p = Spec.cholRest A L p p * d ∧
        ((p.1 = 0 ∧ d = 0) ∨ ∃ q : Fin n, q.1 + 1 = p.1 ∧ MDT.recip (L q q) = .ok d)) ∧
      ∀ r c, r < c ∨ (p ≤ c ∧ ¬ (r = p ∧ c = p)) → m.get r c = m'.get r c :=
  chol_any_fail_reps bld hm hA h

/-- C60: with rounded arithmetic and a finite factor, `L Lᵀ` differs from the input by at most `n + 3` roundings of
`|A| + |L| |L|ᵀ` (and the absolute errors if products have some). -/
theorem C60_cholesky_backward_error (ra : RoundedRoots T) (bld : Build) {m m' : Mat n n T} {A L : Matrix (Fin n) (Fin n) T}
    (hm : m.Valid) (hA : m.RepsUpper A) (h : m.choleskyDecomposeLower bld = .ok (m', true)) (hL : m'.Reps L)
    (hf : ∀ i j, ra.fin (L i j)) (i j : Fin n) (hij : j ≤ i) :
    |(ra.valM L * (ra.valM L)ᵀ) i j - ra.val (A j i)| ≤
      ra.cholBound n (|ra.val (A j i)| + (ra.absM L * (ra.absM L)ᵀ) i j) (ra.val (L j j)) :=
  chol_backward ra bld hm hA h hL hf i j hij

/-- C60: the bound without absolute errors (floating point numbers as long as nothing underflows). -/
theorem C60_cholesky_relative_error (ra : RoundedRoots T) (hη : ra.η = 0) (bld : Build) {m m' : Mat n n T}
    {A L : Matrix (Fin n) (Fin n) T} (hm : m.Valid) (hA : m.RepsUpper A)
    (h : m.choleskyDecomposeLower bld = .ok (m', true)) (hL : m'.Reps L) (hf : ∀ i j, ra.fin (L i j)) (i j : Fin n)
    (hij : j ≤ i) :
    |(ra.valM L * (ra.valM L)ᵀ) i j - ra.val (A j i)| ≤
      ra.γ (n + 3) * (|ra.val (A j i)| + (ra.absM L * (ra.absM L)ᵀ) i j) := by
  refine (C60_cholesky_backward_error ra bld hm hA h hL hf i j hij).trans (le_of_eq ?_)
  simp [RoundedRoots.cholBound, Rounded.δ, hη]

/-! ## Non-vacuity -/

/-- `[[4, 1.2], [1.2, 2]]` in fixed point numbers: the factor is rounded, `39321 / 65536 = 0.5999908...`. -/
def Ex.checkedChol : Mat 2 2 Checked := ⟨[.of 262144, .of 78643, .of 78643, .of 131072]⟩

/-- All hypotheses are met; the product of the factor with its transpose is not exactly the input. -/
example : Ex.checkedChol.Valid ∧ Ex.checkedChol.RepsUpper !![.of 262144, .of 78643; .of 78643, .of 131072] ∧
    Ex.checkedChol.choleskyDecomposeLower ⟨true, false⟩ = .ok (⟨[.of 131072, 0, .of 39321, .of 83927]⟩, true) ∧
    (39321 * 39321 + 83927 * 83927 : Int) ≠ 131072 * 65536 := by
  refine ⟨Nat.le_refl _, ?_, by decide +kernel, by decide⟩
  intro i j _
  fin_cases i <;> fin_cases j <;> rfl

/-- A failure in fixed point numbers: `[[4, 4], [4, 4]]` has the pivots `4` and `0`. -/
example : (⟨[.of 262144, .of 262144, .of 262144, .of 262144]⟩ : Mat 2 2 Checked).choleskyDecomposeLower ⟨true, false⟩ =
    .ok (⟨[.of 131072, .of 262144, .of 131072, 0]⟩, false) := by decide +kernel

end Minikalman
