import Verif.Spec.Rounding
import Verif.Proofs.Filter

/-! # Rounding errors of sums of products -/

set_option linter.unusedSectionVars false

namespace Minikalman

open Finset

variable {T : Type} [Zero T] [Add T] [Sub T] [Mul T] {n m : Nat}

namespace Rounded

theorem one_le_pow (ra : Rounded T) (k : Nat) : 1 ≤ (1 + ra.u) ^ k := one_le_pow₀ (by linarith [ra.u_nonneg])

theorem γ_nonneg (ra : Rounded T) (k : Nat) : 0 ≤ ra.γ k := by
  unfold γ; linarith [ra.one_le_pow k]

theorem γ_mono (ra : Rounded T) {k l : Nat} (h : k ≤ l) : ra.γ k ≤ ra.γ l := by
  unfold γ
  have : (1 + ra.u) ^ k ≤ (1 + ra.u) ^ l := pow_le_pow_right₀ (by linarith [ra.u_nonneg]) h
  linarith

theorem δ_nonneg (ra : Rounded T) (k : Nat) : 0 ≤ ra.δ k := by
  unfold δ
  have := ra.one_le_pow k
  have := ra.η_nonneg
  positivity

/-- One rounded addition. -/
theorem add_bound (ra : Rounded T) {a b : T} {S q ea eb : ℝ} (hf : ra.fin (a + b)) (ha : |ra.val a - S| ≤ ea)
    (hb : |ra.val b - q| ≤ eb) :
    |ra.val (a + b) - (S + q)| ≤ (1 + ra.u) * (ea + eb) + ra.u * (|S| + |q|) := by
  obtain ⟨_, _, he⟩ := ra.add_err a b hf
  have hu := ra.u_nonneg
  have h1 : |ra.val a + ra.val b - (S + q)| ≤ ea + eb := by
    calc |ra.val a + ra.val b - (S + q)| = |(ra.val a - S) + (ra.val b - q)| := by congr 1; ring
      _ ≤ |ra.val a - S| + |ra.val b - q| := abs_add_le _ _
      _ ≤ ea + eb := add_le_add ha hb
  have h2 : |ra.val a + ra.val b| ≤ (ea + eb) + (|S| + |q|) := by
    calc |ra.val a + ra.val b| = |(ra.val a + ra.val b - (S + q)) + (S + q)| := by congr 1; ring
      _ ≤ |ra.val a + ra.val b - (S + q)| + |S + q| := abs_add_le _ _
      _ ≤ _ := add_le_add h1 (abs_add_le _ _)
  calc |ra.val (a + b) - (S + q)|
      = |(ra.val (a + b) - (ra.val a + ra.val b)) + (ra.val a + ra.val b - (S + q))| := by congr 1; ring
    _ ≤ _ + _ := abs_add_le _ _
    _ ≤ ra.u * ((ea + eb) + (|S| + |q|)) + (ea + eb) := add_le_add (he.trans (mul_le_mul_of_nonneg_left h2 hu)) h1
    _ = _ := by ring

/-- One rounded subtraction. -/
theorem sub_bound (ra : Rounded T) {a b : T} {S q ea eb : ℝ} (hf : ra.fin (a - b)) (ha : |ra.val a - S| ≤ ea)
    (hb : |ra.val b - q| ≤ eb) :
    |ra.val (a - b) - (S - q)| ≤ (1 + ra.u) * (ea + eb) + ra.u * (|S| + |q|) := by
  obtain ⟨_, _, he⟩ := ra.sub_err a b hf
  have hu := ra.u_nonneg
  have h1 : |ra.val a - ra.val b - (S - q)| ≤ ea + eb := by
    calc |ra.val a - ra.val b - (S - q)| = |(ra.val a - S) - (ra.val b - q)| := by congr 1; ring
      _ ≤ |ra.val a - S| + |ra.val b - q| := abs_sub _ _
      _ ≤ ea + eb := add_le_add ha hb
  have h2 : |ra.val a - ra.val b| ≤ (ea + eb) + (|S| + |q|) := by
    calc |ra.val a - ra.val b| = |(ra.val a - ra.val b - (S - q)) + (S - q)| := by congr 1; ring
      _ ≤ |ra.val a - ra.val b - (S - q)| + |S - q| := abs_add_le _ _
      _ ≤ _ := add_le_add h1 (abs_sub _ _)
  calc |ra.val (a - b) - (S - q)|
      = |(ra.val (a - b) - (ra.val a - ra.val b)) + (ra.val a - ra.val b - (S - q))| := by congr 1; ring
    _ ≤ _ + _ := abs_add_le _ _
    _ ≤ ra.u * ((ea + eb) + (|S| + |q|)) + (ea + eb) := add_le_add (he.trans (mul_le_mul_of_nonneg_left h2 hu)) h1
    _ = _ := by ring

/-- A sum of products starting from `init`, of which only the value up to an error is known. -/
theorem dotFrom_bound (ra : Rounded T) {k : Nat} {init : T} {v w : Fin k → T} (hf : ra.fin (Spec.dotFrom init v w)) :
    ra.fin init ∧ (∀ i, ra.fin (v i) ∧ ra.fin (w i)) ∧
    |ra.val (Spec.dotFrom init v w) - (ra.val init + ∑ i, ra.val (v i) * ra.val (w i))| ≤
      ra.γ k * |ra.val init| + ra.γ (k + 1) * (∑ i, |ra.val (v i)| * |ra.val (w i)|) + ra.δ k := by
  have hu := ra.u_nonneg
  have hη := ra.η_nonneg
  induction k with
  | zero =>
    refine ⟨hf, fun i => i.elim0, ?_⟩
    simp [Spec.dotFrom, γ, δ]
  | succ k ih =>
    have e : Spec.dotFrom init v w =
        Spec.dotFrom init (fun i : Fin k => v i.castSucc) (fun i : Fin k => w i.castSucc) + v (Fin.last k) * w (Fin.last k) := by
      unfold Spec.dotFrom
      rw [Fin.foldl_succ_last]
    rw [e] at hf ⊢
    obtain ⟨h1, h2, _⟩ := ra.add_err _ _ hf
    obtain ⟨h3, h4, h5⟩ := ra.mul_err _ _ h2
    obtain ⟨g1, g2, g3⟩ := ih h1
    refine ⟨g1, fun i => Fin.lastCases ⟨h3, h4⟩ g2 i, ?_⟩
    have hb := ra.add_bound hf g3 h5
    rw [Fin.sum_univ_castSucc, Fin.sum_univ_castSucc, ← add_assoc]
    refine hb.trans ?_
    set A := ∑ i : Fin k, |ra.val (v i.castSucc)| * |ra.val (w i.castSucc)| with hA
    have hA0 : 0 ≤ A := Finset.sum_nonneg fun i _ => by positivity
    have hS : |ra.val init + ∑ i : Fin k, ra.val (v i.castSucc) * ra.val (w i.castSucc)| ≤ |ra.val init| + A := by
      refine (abs_add_le _ _).trans (add_le_add (le_refl _) ((Finset.abs_sum_le_sum_abs _ _).trans ?_))
      exact Finset.sum_le_sum fun i _ => (abs_mul _ _).le
    rw [abs_mul]
    set q := |ra.val (v (Fin.last k))| * |ra.val (w (Fin.last k))| with hq
    have hq0 : 0 ≤ q := by positivity
    have hI0 : 0 ≤ |ra.val init| := abs_nonneg _
    have hp := ra.one_le_pow k
    have hγ : ra.γ 2 ≤ ra.γ (k + 1 + 1) := ra.γ_mono (by omega)
    have hkp : ra.η * (1 + ra.u) ≤ ra.η * (1 + ra.u) ^ (k + 1) := by
      refine mul_le_mul_of_nonneg_left ?_ hη
      calc (1 + ra.u) = (1 + ra.u) ^ 1 := (pow_one _).symm
        _ ≤ (1 + ra.u) ^ (k + 1) := pow_le_pow_right₀ (by linarith) (by omega)
    have h1 : ra.u * (|ra.val init + ∑ i : Fin k, ra.val (v i.castSucc) * ra.val (w i.castSucc)| + q) ≤
        ra.u * (|ra.val init| + A + q) := mul_le_mul_of_nonneg_left (add_le_add hS (le_refl _)) hu
    have h2 : ra.γ 2 * q ≤ ra.γ (k + 1 + 1) * q := mul_le_mul_of_nonneg_right hγ hq0
    have e1 : (1 + ra.u) * (ra.γ k * |ra.val init| + ra.γ (k + 1) * A + ra.δ k + (ra.u * q + ra.η)) +
        ra.u * (|ra.val init| + A + q) =
        ra.γ (k + 1) * |ra.val init| + ra.γ (k + 1 + 1) * A + ra.γ 2 * q + (ra.δ k * (1 + ra.u) + ra.η * (1 + ra.u)) := by
      unfold γ; ring
    have e2 : ra.δ k * (1 + ra.u) + ra.η * (1 + ra.u) ^ (k + 1) = ra.δ (k + 1) := by
      unfold δ; push_cast; ring
    nlinarith [h1, h2, hkp, e1, e2]

/-- A sum of products starting with the first product. -/
theorem dotFirst_bound (ra : Rounded T) {k : Nat} {v w : Fin k → T} (hf : ra.fin (Spec.dotFirst v w)) :
    (∀ i, ra.fin (v i) ∧ ra.fin (w i)) ∧
    |ra.val (Spec.dotFirst v w) - ∑ i, ra.val (v i) * ra.val (w i)| ≤
      ra.γ (k + 1) * (∑ i, |ra.val (v i)| * |ra.val (w i)|) + ra.δ k := by
  have hu := ra.u_nonneg
  have hη := ra.η_nonneg
  cases k with
  | zero =>
    refine ⟨fun i => i.elim0, ?_⟩
    simp [Spec.dotFirst, ra.val_zero, δ]
  | succ k =>
    have e : Spec.dotFirst v w = Spec.dotFrom (v 0 * w 0) (fun i : Fin k => v i.succ) (fun i : Fin k => w i.succ) := rfl
    rw [e] at hf ⊢
    obtain ⟨h1, h2, h3⟩ := ra.dotFrom_bound hf
    obtain ⟨g1, g2, g3⟩ := ra.mul_err _ _ h1
    refine ⟨fun i => Fin.cases ⟨g1, g2⟩ h2 i, ?_⟩
    rw [Fin.sum_univ_succ, Fin.sum_univ_succ]
    set A := ∑ i : Fin k, |ra.val (v i.succ)| * |ra.val (w i.succ)| with hA
    have hA0 : 0 ≤ A := Finset.sum_nonneg fun i _ => by positivity
    set q := |ra.val (v 0)| * |ra.val (w 0)| with hq
    have hq0 : 0 ≤ q := by positivity
    have hp := ra.one_le_pow k
    rw [abs_mul, ← hq] at g3
    have hm : |ra.val (v 0 * w 0)| ≤ (1 + ra.u) * q + ra.η := by
      calc |ra.val (v 0 * w 0)| = |(ra.val (v 0 * w 0) - ra.val (v 0) * ra.val (w 0)) + ra.val (v 0) * ra.val (w 0)| := by
            congr 1; ring
        _ ≤ _ + _ := abs_add_le _ _
        _ ≤ (ra.u * q + ra.η) + q := add_le_add g3 (abs_mul _ _).le
        _ = _ := by ring
    have t : |ra.val (Spec.dotFrom (v 0 * w 0) (fun i : Fin k => v i.succ) (fun i : Fin k => w i.succ)) -
        (ra.val (v 0) * ra.val (w 0) + ∑ i : Fin k, ra.val (v i.succ) * ra.val (w i.succ))| ≤
        (ra.γ k * |ra.val (v 0 * w 0)| + ra.γ (k + 1) * A + ra.δ k) + (ra.u * q + ra.η) := by
      refine le_trans ?_ (add_le_add h3 g3)
      refine le_trans (le_of_eq ?_) (abs_add_le _ _)
      congr 1; ring
    refine t.trans ?_
    have h1 : ra.γ k * |ra.val (v 0 * w 0)| ≤ ra.γ k * ((1 + ra.u) * q + ra.η) :=
      mul_le_mul_of_nonneg_left hm (ra.γ_nonneg k)
    have h2 : ra.γ (k + 1) ≤ ra.γ (k + 1 + 1) := ra.γ_mono (by omega)
    have h3 : ra.γ (k + 1) * (q + A) ≤ ra.γ (k + 1 + 1) * (q + A) := mul_le_mul_of_nonneg_right h2 (by linarith)
    have e1 : ra.γ k * ((1 + ra.u) * q + ra.η) + ra.u * q + ra.η = ra.γ (k + 1) * q + (1 + ra.u) ^ k * ra.η := by
      unfold γ; ring
    have e2 : ra.δ k + (1 + ra.u) ^ k * ra.η ≤ ra.δ (k + 1) := by
      unfold δ
      push_cast
      have : (k + 1 : ℝ) * (1 + ra.u) ^ k * ra.η ≤ (k + 1 : ℝ) * (1 + ra.u) ^ (k + 1) * ra.η := by
        refine mul_le_mul_of_nonneg_right (mul_le_mul_of_nonneg_left ?_ (by positivity)) hη
        exact pow_le_pow_right₀ (by linarith) (by omega)
      linarith
    linarith

/-! ## Matrices -/

open Matrix

variable {R C U : Nat}

theorem mulSeq_bound (ra : Rounded T) {A : Matrix (Fin R) (Fin C) T} {B : Matrix (Fin C) (Fin U) T} {i : Fin R} {j : Fin U}
    (hf : ra.fin (Spec.mulSeq A B i j)) :
    (∀ k, ra.fin (A i k) ∧ ra.fin (B k j)) ∧
    |ra.val (Spec.mulSeq A B i j) - (ra.valM A * ra.valM B) i j| ≤
      ra.γ (C + 1) * (ra.absM A * ra.absM B) i j + ra.δ C := by
  obtain ⟨_, h2, h3⟩ := ra.dotFrom_bound hf
  refine ⟨h2, ?_⟩
  rw [ra.val_zero, abs_zero, mul_zero, zero_add, zero_add] at h3
  exact h3

theorem mulVecSeq_bound (ra : Rounded T) {A : Matrix (Fin R) (Fin C) T} {x : Fin C → T} {i : Fin R}
    (hf : ra.fin (Spec.mulVecSeq A x i)) :
    (∀ k, ra.fin (A i k) ∧ ra.fin (x k)) ∧
    |ra.val (Spec.mulVecSeq A x i) - (ra.valM A *ᵥ ra.valV x) i| ≤
      ra.γ (C + 1) * (ra.absM A *ᵥ ra.absV x) i + ra.δ C := ra.dotFirst_bound hf

theorem abs_mul_le (ra : Rounded T) (A : Matrix (Fin R) (Fin C) T) (B : Matrix (Fin C) (Fin U) T) (i : Fin R) (j : Fin U) :
    |(ra.valM A * ra.valM B) i j| ≤ (ra.absM A * ra.absM B) i j := by
  rw [Matrix.mul_apply, Matrix.mul_apply]
  refine (Finset.abs_sum_le_sum_abs _ _).trans (Finset.sum_le_sum fun k _ => ?_)
  exact (abs_mul _ _).le

theorem abs_mulVec_le (ra : Rounded T) (A : Matrix (Fin R) (Fin C) T) (x : Fin C → T) (i : Fin R) :
    |(ra.valM A *ᵥ ra.valV x) i| ≤ (ra.absM A *ᵥ ra.absV x) i := by
  show |∑ k, ra.valM A i k * ra.valV x k| ≤ ∑ k, ra.absM A i k * ra.absV x k
  refine (Finset.abs_sum_le_sum_abs _ _).trans (Finset.sum_le_sum fun k _ => ?_)
  exact (abs_mul _ _).le

theorem absM_mul_nonneg (ra : Rounded T) (A : Matrix (Fin R) (Fin C) T) (B : Matrix (Fin C) (Fin U) T) (i : Fin R)
    (j : Fin U) : 0 ≤ (ra.absM A * ra.absM B) i j := (abs_nonneg _).trans (ra.abs_mul_le A B i j)

/-- `(A P) Bᵀ`. -/
theorem sandwich_bound (ra : Rounded T) {V : Nat} {A : Matrix (Fin R) (Fin C) T} {P : Matrix (Fin C) (Fin U) T}
    {B : Matrix (Fin V) (Fin U) T} {i : Fin R} {j : Fin V}
    (hf : ra.fin (Spec.mulSeq (Spec.mulSeq A P) B.transpose i j)) :
    |ra.val (Spec.mulSeq (Spec.mulSeq A P) B.transpose i j) - (ra.valM A * ra.valM P * (ra.valM B)ᵀ) i j| ≤
      ra.γ (C + 1 + (U + 1)) * (ra.absM A * ra.absM P * (ra.absM B)ᵀ) i j +
        ((1 + ra.u) ^ (U + 1) * ra.δ C * ∑ k, ra.absM B j k + ra.δ U) := by
  obtain ⟨h1, h2⟩ := ra.mulSeq_bound hf
  set G := Spec.mulSeq A P with hG
  have hg : ∀ k, |ra.val (G i k) - (ra.valM A * ra.valM P) i k| ≤
      ra.γ (C + 1) * (ra.absM A * ra.absM P) i k + ra.δ C := fun k => (ra.mulSeq_bound (h1 k).1).2
  have hga : ∀ k, |ra.val (G i k)| ≤ (1 + ra.γ (C + 1)) * (ra.absM A * ra.absM P) i k + ra.δ C := by
    intro k
    calc |ra.val (G i k)| = |(ra.val (G i k) - (ra.valM A * ra.valM P) i k) + (ra.valM A * ra.valM P) i k| := by
          congr 1; ring
      _ ≤ _ + _ := abs_add_le _ _
      _ ≤ _ + _ := add_le_add (hg k) (ra.abs_mul_le A P i k)
      _ = _ := by ring
  set M := (ra.absM A * ra.absM P * (ra.absM B)ᵀ) i j with hM
  set σ := ∑ k, ra.absM B j k with hσ
  have hB0 : ∀ k, 0 ≤ ra.absM B j k := fun k => abs_nonneg _
  -- |G| |B|ᵀ
  have s1 : (ra.absM G * ra.absM B.transpose) i j ≤ (1 + ra.γ (C + 1)) * M + ra.δ C * σ := by
    rw [hM, hσ, Matrix.mul_apply, Matrix.mul_apply, Finset.mul_sum, Finset.mul_sum, ← Finset.sum_add_distrib]
    refine Finset.sum_le_sum fun k _ => ?_
    calc ra.absM G i k * ra.absM B.transpose k j
        ≤ ((1 + ra.γ (C + 1)) * (ra.absM A * ra.absM P) i k + ra.δ C) * ra.absM B j k :=
          mul_le_mul_of_nonneg_right (hga k) (hB0 k)
      _ = _ := by rw [Matrix.transpose_apply]; ring
  -- (G - A P) Bᵀ
  have s2 : |(ra.valM G * ra.valM B.transpose) i j - (ra.valM A * ra.valM P * (ra.valM B)ᵀ) i j| ≤
      ra.γ (C + 1) * M + ra.δ C * σ := by
    rw [hM, hσ, Matrix.mul_apply, Matrix.mul_apply (M := ra.valM A * ra.valM P),
      Matrix.mul_apply (M := ra.absM A * ra.absM P), ← Finset.sum_sub_distrib, Finset.mul_sum, Finset.mul_sum,
      ← Finset.sum_add_distrib]
    refine (Finset.abs_sum_le_sum_abs _ _).trans (Finset.sum_le_sum fun k _ => ?_)
    calc |ra.valM G i k * ra.valM B.transpose k j - (ra.valM A * ra.valM P) i k * (ra.valM B)ᵀ k j|
        = |ra.val (G i k) - (ra.valM A * ra.valM P) i k| * ra.absM B j k := by
          rw [show ra.absM B j k = |ra.val (B j k)| from rfl, ← abs_mul]
          congr 1
          rw [show ra.valM G i k = ra.val (G i k) from rfl, show ra.valM B.transpose k j = ra.val (B j k) from rfl,
            show (ra.valM B)ᵀ k j = ra.val (B j k) from rfl]
          ring
      _ ≤ (ra.γ (C + 1) * (ra.absM A * ra.absM P) i k + ra.δ C) * ra.absM B j k :=
          mul_le_mul_of_nonneg_right (hg k) (hB0 k)
      _ = _ := by rw [Matrix.transpose_apply]; ring
  have t := mul_le_mul_of_nonneg_left s1 (ra.γ_nonneg (U + 1))
  have e1 : ra.γ (U + 1) * ((1 + ra.γ (C + 1)) * M) + ra.γ (C + 1) * M = ra.γ (C + 1 + (U + 1)) * M := by
    unfold γ; rw [pow_add]; ring
  have e2 : ra.γ (U + 1) * (ra.δ C * σ) + ra.δ C * σ = (1 + ra.u) ^ (U + 1) * ra.δ C * σ := by unfold γ; ring
  calc _ = |(ra.val (Spec.mulSeq G B.transpose i j) - (ra.valM G * ra.valM B.transpose) i j) +
        ((ra.valM G * ra.valM B.transpose) i j - (ra.valM A * ra.valM P * (ra.valM B)ᵀ) i j)| := by congr 1; ring
    _ ≤ _ + _ := abs_add_le _ _
    _ ≤ _ + _ := add_le_add h2 s2
    _ ≤ _ := by linarith

/-- Adding an exact term to a computed one. -/
theorem add_exact_bound (ra : Rounded T) {a b : T} {S M e : ℝ} {k : Nat} (hf : ra.fin (a + b)) (hS : |S| ≤ M)
    (ha : |ra.val a - S| ≤ ra.γ k * M + e) :
    |ra.val (a + b) - (S + ra.val b)| ≤ ra.γ (k + 1) * M + ra.u * |ra.val b| + (1 + ra.u) * e := by
  have := ra.add_bound (b := b) (q := ra.val b) (eb := 0) hf ha (by simp)
  have h1 : ra.u * |S| ≤ ra.u * M := mul_le_mul_of_nonneg_left hS ra.u_nonneg
  have e1 : (1 + ra.u) * (ra.γ k * M + e + 0) + ra.u * M = ra.γ (k + 1) * M + (1 + ra.u) * e := by unfold γ; ring
  linarith

theorem add_exact_bound' (ra : Rounded T) {a b : T} {S M e : ℝ} {k : Nat} (hf : ra.fin (b + a)) (hS : |S| ≤ M)
    (ha : |ra.val a - S| ≤ ra.γ k * M + e) :
    |ra.val (b + a) - (ra.val b + S)| ≤ ra.γ (k + 1) * M + ra.u * |ra.val b| + (1 + ra.u) * e := by
  have := ra.add_bound (a := b) (S := ra.val b) (ea := 0) hf (by simp) ha
  have h1 : ra.u * |S| ≤ ra.u * M := mul_le_mul_of_nonneg_left hS ra.u_nonneg
  have e1 : (1 + ra.u) * (0 + (ra.γ k * M + e)) + ra.u * M = ra.γ (k + 1) * M + (1 + ra.u) * e := by unfold γ; ring
  linarith

theorem abs_sandwich_le (ra : Rounded T) {V : Nat} (A : Matrix (Fin R) (Fin C) T) (P : Matrix (Fin C) (Fin U) T)
    (B : Matrix (Fin V) (Fin U) T) (i : Fin R) (j : Fin V) :
    |(ra.valM A * ra.valM P * (ra.valM B)ᵀ) i j| ≤ (ra.absM A * ra.absM P * (ra.absM B)ᵀ) i j := by
  rw [Matrix.mul_apply, Matrix.mul_apply (M := ra.absM A * ra.absM P)]
  refine (Finset.abs_sum_le_sum_abs _ _).trans (Finset.sum_le_sum fun k _ => ?_)
  rw [abs_mul]
  exact mul_le_mul_of_nonneg_right (ra.abs_mul_le A P i k) (abs_nonneg _)

end Rounded
end Minikalman
