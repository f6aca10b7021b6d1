import Verif.Spec.Kalman
import Verif.Spec.Exact
import Mathlib.LinearAlgebra.Matrix.Notation
import Mathlib.LinearAlgebra.Matrix.PosDef
import Mathlib.Algebra.Order.Star.Real

/-!
# Concrete objects used to show that hypotheses of the theorems can be met

A two state filter (position, velocity) with oversized buffers and garbage in the temporaries, a control with one
input and a position sensor. Generic in the element type so that the model can be run on rational numbers.
-/

namespace Minikalman
namespace Ex

open Matrix

variable (T : Type) [Field T]

/-- position 1, velocity 2, identity covariance. -/
def filter : RegularKalman 2 T where
  x := ⟨[1, 2, 77]⟩
  A := ⟨[1, 1, 0, 1]⟩
  P := ⟨[1, 0, 0, 1, 78]⟩
  Q := ⟨[1, 0, 0, 2]⟩
  predictedX := ⟨[5, 5]⟩
  tempP := ⟨[6, 6, 6, 6]⟩

/-- acceleration input 3. -/
def control : Control 2 1 T where
  B := ⟨[1, 2]⟩
  u := ⟨[3]⟩
  Q := ⟨[1]⟩
  tempBQ := ⟨[8, 8]⟩

/-- position measurement 5 with variance 3. -/
def obs : RegularObservation 2 1 T where
  H := ⟨[1, 0]⟩
  z := ⟨[5]⟩
  R := ⟨[3]⟩
  y := ⟨[9]⟩
  S := ⟨[9, 79]⟩
  K := ⟨[9, 9]⟩
  tempSInv := ⟨[9]⟩
  tempHP := ⟨[9, 9]⟩
  tempPHt := ⟨[9, 9]⟩
  tempKHP := ⟨[9, 9, 9, 9]⟩

/-- velocity measurement 4 with variance 8. -/
def obs2 : RegularObservation 2 1 T where
  H := ⟨[0, 1]⟩
  z := ⟨[4]⟩
  R := ⟨[8]⟩
  y := ⟨[9]⟩
  S := ⟨[9]⟩
  K := ⟨[9, 9]⟩
  tempSInv := ⟨[9]⟩
  tempHP := ⟨[9, 9]⟩
  tempPHt := ⟨[9, 9]⟩
  tempKHP := ⟨[9, 9, 9, 9]⟩

/-- `obs` and `obs2` as one measurement. -/
def obsBoth : RegularObservation 2 2 T where
  H := ⟨[1, 0, 0, 1]⟩
  z := ⟨[5, 4]⟩
  R := ⟨[3, 0, 0, 8]⟩
  y := ⟨[9, 9]⟩
  S := ⟨[9, 9, 9, 9]⟩
  K := ⟨[9, 9, 9, 9]⟩
  tempSInv := ⟨[9, 9, 9, 9]⟩
  tempHP := ⟨[9, 9, 9, 9]⟩
  tempPHt := ⟨[9, 9, 9, 9]⟩
  tempKHP := ⟨[9, 9, 9, 9]⟩

theorem filter_reps : (filter T).Reps ![1, 2] !![1, 1; 0, 1] !![1, 0; 0, 1] !![1, 0; 0, 2] := by
  refine ⟨?_, ?_, ?_, ?_, Nat.le_refl _, Nat.le_refl _⟩
  · intro i; fin_cases i <;> rfl
  all_goals intro i j; fin_cases i <;> fin_cases j <;> rfl

theorem control_reps : (control T).Reps !![1; 2] ![3] !![1] := by
  refine ⟨?_, ?_, ?_, Nat.le_refl _⟩
  · intro i j; fin_cases i <;> fin_cases j <;> rfl
  · intro i; fin_cases i; rfl
  · intro i j; fin_cases i; fin_cases j; rfl

theorem obs_reps : (obs T).Reps !![1, 0] ![5] !![3] := by
  refine ⟨?_, ?_, ?_, Nat.le_refl _, Nat.le_succ _, Nat.le_refl _, Nat.le_refl _, Nat.le_refl _, Nat.le_refl _,
    Nat.le_refl _⟩
  · intro i j; fin_cases i; fin_cases j <;> rfl
  · intro i; fin_cases i; rfl
  · intro i j; fin_cases i; fin_cases j; rfl

theorem obs2_reps : (obs2 T).Reps !![0, 1] ![4] !![8] := by
  refine ⟨?_, ?_, ?_, Nat.le_refl _, Nat.le_refl _, Nat.le_refl _, Nat.le_refl _, Nat.le_refl _, Nat.le_refl _,
    Nat.le_refl _⟩
  · intro i j; fin_cases i; fin_cases j <;> rfl
  · intro i; fin_cases i; rfl
  · intro i j; fin_cases i; fin_cases j; rfl

theorem obsBoth_reps : (obsBoth T).Reps (Spec.stack !![1, 0] !![0, 1]) (Fin.append ![5] ![4])
    (Spec.blockDiag !![3] !![8]) := by
  refine ⟨?_, ?_, ?_, Nat.le_refl _, Nat.le_refl _, Nat.le_refl _, Nat.le_refl _, Nat.le_refl _, Nat.le_refl _,
    Nat.le_refl _⟩
  · intro i j; fin_cases i <;> fin_cases j <;> rfl
  · intro i; fin_cases i <;> rfl
  · intro i j; fin_cases i <;> fin_cases j <;> rfl

theorem innovCov_eq : Spec.innovCov !![1, 0] !![1, 0; 0, 1] !![3] = (!![4] : Matrix (Fin 1) (Fin 1) ℝ) := by
  ext i j
  fin_cases i; fin_cases j
  simp [Spec.innovCov, Matrix.vecMul, Fin.sum_univ_two, dotProduct]
  norm_num

theorem innovCov_posDef : (Spec.innovCov !![1, 0] !![1, 0; 0, 1] !![3] : Matrix (Fin 1) (Fin 1) ℝ).PosDef := by
  rw [innovCov_eq]
  have : (!![4] : Matrix (Fin 1) (Fin 1) ℝ) = Matrix.diagonal fun _ => 4 := by
    ext i j; fin_cases i; fin_cases j; rfl
  rw [this]
  exact Matrix.PosDef.diagonal fun _ => by norm_num

end Ex
end Minikalman
