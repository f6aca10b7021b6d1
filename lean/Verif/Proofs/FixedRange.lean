import Verif.Proofs.Fixed
import Verif.Proofs.Filter

/-! # Ranges of fixed point matrix products -/

set_option linter.unusedSectionVars false

namespace Minikalman
namespace Watched

open Matrix

variable {f R C U V : Nat}

theorem num_foldl {k : Nat} (v w : Fin k → Watched f) (init : Watched f) :
    (Fin.foldl k (fun acc i => acc + v i * w i) init).num =
      Fin.foldl k (fun acc i => acc + (v i).num * (w i).num) init.num := by
  induction k with
  | zero => rfl
  | succ k ih =>
    rw [Fin.foldl_succ_last, Fin.foldl_succ_last]
    show (Fin.foldl k _ init).num + _ = _
    rw [ih (fun i => v i.castSucc) (fun i => w i.castSucc)]
    rfl

/-- The numbers without the marks. -/
def nums (A : Matrix (Fin R) (Fin C) (Watched f)) : Matrix (Fin R) (Fin C) (FixedPoint f) := fun i j => (A i j).num

theorem num_mulSeq (A : Matrix (Fin R) (Fin C) (Watched f)) (B : Matrix (Fin C) (Fin U) (Watched f)) :
    nums (Spec.mulSeq A B) = Spec.mulSeq (nums A) (nums B) := by
  funext i j
  exact num_foldl (fun k => A i k) (fun k => B k j) 0

theorem num_mulVecSeq (A : Matrix (Fin R) (Fin C) (Watched f)) (x : Fin C → Watched f) (i : Fin R) :
    (Spec.mulVecSeq A x i).num = Spec.mulVecSeq (nums A) (fun k => (x k).num) i := by
  unfold Spec.mulVecSeq Spec.dotFirst
  cases C with
  | zero => rfl
  | succ C => exact num_foldl (fun k => A i k.succ) (fun k => x k.succ) (A i 0 * x 0)

end Watched

namespace FixedPoint

open Matrix

variable {f R C U V : Nat}

/-- The matrix, watched. -/
def freshM (A : Matrix (Fin R) (Fin C) (FixedPoint f)) : Matrix (Fin R) (Fin C) (Watched f) := fun i j => .fresh (A i j)

theorem res_pos : 0 < res f := by unfold res; positivity

theorem mul_clean {A : Matrix (Fin R) (Fin C) (Watched f)} {B : Matrix (Fin C) (Fin U) (Watched f)} (hf : 1 ≤ f) {i j}
    (hA : ∀ k, (A i k).clean = true) (hB : ∀ k, (B k j).clean = true)
    (h : (absM (Watched.nums A) * absM (Watched.nums B)) i j + C * res f < lim f) : (Spec.mulSeq A B i j).clean = true := by
  refine Watched.foldl_fits hf (init := 0) rfl hA hB ?_
  have e : |(0 : Watched f).num.val| = 0 := by
    show |(0 : FixedPoint f).val| = 0
    rw [val_zero, abs_zero]
  rw [e, zero_add]
  exact h

theorem mul_clean_err {A : Matrix (Fin R) (Fin C) (Watched f)} {B : Matrix (Fin C) (Fin U) (Watched f)} (hf : 2 ≤ f) {i j}
    (hc : (Spec.mulSeq A B i j).clean = true) :
    |(Spec.mulSeq A B i j).num.val - (valM (Watched.nums A) * valM (Watched.nums B)) i j| ≤ C * res f := by
  have := ((Watched.rounded hf).mulSeq_bound hc).2
  simp only [Rounded.γ, Rounded.δ, Watched.rounded, add_zero, one_pow, sub_self, zero_mul, zero_add, mul_one] at this
  exact this

theorem mul_fixed {A : Matrix (Fin R) (Fin C) (FixedPoint f)} {B : Matrix (Fin C) (Fin U) (FixedPoint f)} (hf : 2 ≤ f) {i j}
    (h : (absM A * absM B) i j + C * res f < lim f) :
    |(Spec.mulSeq A B i j).val - (valM A * valM B) i j| ≤ C * res f := by
  have hc := mul_clean (A := freshM A) (B := freshM B) (by omega) (fun _ => rfl) (fun _ => rfl) h
  have := mul_clean_err hf hc
  have e := congrFun (congrFun (Watched.num_mulSeq (freshM A) (freshM B)) i) j
  unfold Watched.nums at e
  rw [e] at this
  exact this

theorem mulVec_fixed {A : Matrix (Fin R) (Fin C) (FixedPoint f)} {x : Fin C → FixedPoint f} (hf : 2 ≤ f) {i}
    (h : (absM A *ᵥ absV x) i + C * res f < lim f) :
    |(Spec.mulVecSeq A x i).val - (valM A *ᵥ valV x) i| ≤ C * res f := by
  have hc : (Spec.mulVecSeq (freshM A) (fun k => .fresh (x k)) i).clean = true :=
    Watched.dotFirst_fits (by omega) (fun _ => rfl) (fun _ => rfl) h
  have := ((Watched.rounded hf).mulVecSeq_bound hc).2
  simp only [Rounded.γ, Rounded.δ, Watched.rounded, add_zero, one_pow, sub_self, zero_mul, zero_add, mul_one] at this
  rw [Watched.num_mulVecSeq] at this
  exact this

theorem abs_le_of_err {a b c d : ℝ} (h : |a - b| ≤ d) (hb : |b| ≤ c) : |a| ≤ c + d := by
  have := abs_sub_abs_le_abs_sub a b
  linarith

theorem abs_mul_le (A : Matrix (Fin R) (Fin C) (FixedPoint f)) (B : Matrix (Fin C) (Fin U) (FixedPoint f)) (i j) :
    |(valM A * valM B) i j| ≤ (absM A * absM B) i j := by
  rw [Matrix.mul_apply, Matrix.mul_apply]
  refine (Finset.abs_sum_le_sum_abs _ _).trans (Finset.sum_le_sum fun k _ => ?_)
  rw [abs_mul]; rfl

theorem abs_mulVec_le (A : Matrix (Fin R) (Fin C) (FixedPoint f)) (x : Fin C → FixedPoint f) (i) :
    |(valM A *ᵥ valV x) i| ≤ (absM A *ᵥ absV x) i := by
  show |∑ k, (A i k).val * (x k).val| ≤ ∑ k, |(A i k).val| * |(x k).val|
  refine (Finset.abs_sum_le_sum_abs _ _).trans (Finset.sum_le_sum fun k _ => ?_)
  rw [abs_mul]

theorem sandwich_fixed {A : Matrix (Fin R) (Fin C) (FixedPoint f)} {P : Matrix (Fin C) (Fin U) (FixedPoint f)}
    {B : Matrix (Fin V) (Fin U) (FixedPoint f)} (hf : 2 ≤ f) {i j} (h1 : ∀ k, (absM A * absM P) i k + C * res f < lim f)
    (h2 : sandwichBound A P B i j < lim f) :
    |(Spec.mulSeq (Spec.mulSeq A P) Bᵀ i j).val - (valM A * valM P * (valM B)ᵀ) i j| ≤
      C * res f * (∑ k, absM B j k) + U * res f ∧
    |(Spec.mulSeq (Spec.mulSeq A P) Bᵀ i j).val| ≤ sandwichBound A P B i j := by
  have e1 : ∀ k, |(Spec.mulSeq A P i k).val - (valM A * valM P) i k| ≤ C * res f := fun k => mul_fixed hf (h1 k)
  have e2 : ∀ k, |(Spec.mulSeq A P i k).val| ≤ (absM A * absM P) i k + C * res f := fun k =>
    abs_le_of_err (e1 k) (abs_mul_le A P i k)
  have hs : (absM (Spec.mulSeq A P) * absM Bᵀ) i j ≤ ∑ k, ((absM A * absM P) i k + C * res f) * absM B j k := by
    rw [Matrix.mul_apply]
    exact Finset.sum_le_sum fun k _ => mul_le_mul_of_nonneg_right (e2 k) (abs_nonneg _)
  have e3 := mul_fixed (A := Spec.mulSeq A P) (B := Bᵀ) hf (i := i) (j := j) (by unfold sandwichBound at h2; linarith)
  refine ⟨?_, ?_⟩
  · have e4 : |(valM (Spec.mulSeq A P) * valM Bᵀ) i j - (valM A * valM P * (valM B)ᵀ) i j| ≤
        C * res f * (∑ k, absM B j k) := by
      rw [Matrix.mul_apply, Matrix.mul_apply, ← Finset.sum_sub_distrib, Finset.mul_sum]
      refine (Finset.abs_sum_le_sum_abs _ _).trans (Finset.sum_le_sum fun k _ => ?_)
      show |valM (Spec.mulSeq A P) i k * (B j k).val - (valM A * valM P) i k * (B j k).val| ≤ C * res f * |(B j k).val|
      rw [← sub_mul, abs_mul]
      exact mul_le_mul_of_nonneg_right (e1 k) (abs_nonneg _)
    have := abs_sub_le (Spec.mulSeq (Spec.mulSeq A P) Bᵀ i j).val ((valM (Spec.mulSeq A P) * valM Bᵀ) i j)
      ((valM A * valM P * (valM B)ᵀ) i j)
    linarith
  · have := abs_le_of_err e3 (abs_mul_le (Spec.mulSeq A P) Bᵀ i j)
    unfold sandwichBound
    linarith

theorem val_add_of_lt (hf : 1 ≤ f) {a b : FixedPoint f} (h : |a.val + b.val| < lim f) : (a + b).val = a.val + b.val :=
  val_add (inRange_add hf h)

end FixedPoint
end Minikalman
