import Verif.Proofs.CoordinatesExtended
import Verif.Spec.GaussNewton
import Mathlib.Analysis.Calculus.FDeriv.Pi
import Mathlib.Analysis.Calculus.FDeriv.Mul
import Verif.Props.Coordinates
import Verif.Props.ExtendedHistory

/-!
# Property C114: the choice of units, origins and coordinates does not matter to the extended filter

As C68, for nonlinear functions; origins may move, too.
-/

namespace Minikalman

open Matrix

variable {n n' m : Nat} {σ τ : Type}

/-- C114: let two programs hold the same extended filter in different coordinates (`x' = T x + b`, `z' = M z + d`, `A' T = T A`, `H' T = M H`, `P' = c T P Tᵀ`, …;
`T` need not be invertible or square, the maps `M` of the measurements must be invertible, the scale `c` of all covariances must be positive) and make the
same calls, with functions and data in the respective coordinates. In exact arithmetic, if every correction of the first program meets a positive definite
innovation covariance, then neither program panics, and at the end the second one holds `T x + b` and `c T P Tᵀ` where the first one holds `x` and `P`. -/
theorem C114_coordinates [MDT ℝ] [ExactReal] (bld : Build) {g : Spec.Coord n n'} {b : Fin n' → ℝ} {d : Nat → (m : Nat) → Fin m → ℝ}
    (hg : 0 < g.c) (hM : ∀ i m, IsUnit (g.M i m).det) {w : XWorld n ℝ σ} {w' : XWorld n' ℝ τ} {s : Spec.State n ℝ} {s' : Spec.State n' ℝ}
    (hw : w.Reps s) (hw' : w'.Reps s') (hs : s.Moved g b d s') {ops : List (XOp n ℝ σ)} {ops' : List (XOp n' ℝ τ)}
    {sops : List (Spec.XOp n ℝ)} {sops' : List (Spec.XOp n' ℝ)} (hi : List.Forall₂ XOp.Implements ops sops)
    (hi' : List.Forall₂ XOp.Implements ops' sops') (hops : ∀ op ∈ ops, op.WellFormed w) (hops' : ∀ op ∈ ops', op.WellFormed w')
    (ho : List.Forall₂ (Spec.XOpMoved g b d (s.obs.map Sigma.fst)) sops sops') (hr : s.XRegularRun sops) :
    ∃ w1 w1' x P, w.run bld ops = .ok w1 ∧ w'.run bld ops' = .ok w1' ∧ w1.kf.x.RepsV x ∧ w1.kf.P.Reps P ∧
      w1'.kf.x.RepsV (g.T *ᵥ x + b) ∧ w1'.kf.P.Reps (g.c • (g.T * P * g.Tᵀ)) := by
  obtain ⟨w1, s1, h1, h2, h3, _⟩ := xrun_refines bld hw hi hops hr
  obtain ⟨hr', s1', e1, c1⟩ := Spec.xrun_moved hg hM hs ho hr h2
  obtain ⟨w1', t, k1, k2, k3, _⟩ := xrun_refines bld hw' hi' hops' hr'
  rw [e1] at k2
  cases k2
  refine ⟨w1, w1', s1.x, s1.P, h1, k1, h3.kf.x, h3.kf.P, ?_, ?_⟩
  · rw [← c1.x]; exact k3.kf.x
  · rw [← c1.P]; exact k3.kf.P

/-- C114, Jacobians: a user who rewrites a function in other coordinates and supplies the Jacobian of the new function automatically supplies the matrix that
C114 asks for: if `J` is the Jacobian of `F` at `x`, and `F' (T x + b) = M F(x) + d` for all `x` where `T` is invertible, then the Jacobian of `F'` at `T x + b`
is the one matrix `J'` with `J' T = M J`. -/
theorem C114_jacobian {T : Matrix (Fin n) (Fin n) ℝ} (hT : IsUnit T.det) {M : Matrix (Fin m) (Fin m) ℝ} {b : Fin n → ℝ} {d : Fin m → ℝ}
    {F F' : (Fin n → ℝ) → Fin m → ℝ} (hF : ∀ x, F' (T *ᵥ x + b) = M *ᵥ F x + d) {x : Fin n → ℝ} {J : Matrix (Fin m) (Fin n) ℝ}
    (hJ : Spec.IsDerivative F J x) (J' : Matrix (Fin m) (Fin n) ℝ) : Spec.IsDerivative F' J' (T *ᵥ x + b) ↔ J' * T = M * J := by
  have hinv : ∀ y, F' y = M *ᵥ F (T⁻¹ *ᵥ (y - b)) + d := by
    intro y
    rw [← hF, Matrix.mulVec_mulVec, Matrix.mul_nonsing_inv _ hT, Matrix.one_mulVec, sub_add_cancel]
  have h0 : T⁻¹ *ᵥ (T *ᵥ x + b - b) = x := by
    rw [add_sub_cancel_right, Matrix.mulVec_mulVec, Matrix.nonsing_inv_mul _ hT, Matrix.one_mulVec]
  have key : Spec.IsDerivative F' (M * J * T⁻¹) (T *ᵥ x + b) := by
    unfold Spec.IsDerivative at hJ ⊢
    have h1 : HasFDerivAt (fun y => T⁻¹ *ᵥ (y - b)) T⁻¹.mulVecLin.toContinuousLinearMap (T *ᵥ x + b) := by
      have := (T⁻¹.mulVecLin.toContinuousLinearMap.hasFDerivAt (x := T *ᵥ x + b - b)).comp (T *ᵥ x + b) ((hasFDerivAt_id (T *ᵥ x + b)).sub_const b)
      exact this
    rw [← h0] at hJ
    have h2 := hJ.comp (T *ᵥ x + b) h1
    have h3 := (M.mulVecLin.toContinuousLinearMap.hasFDerivAt).comp (T *ᵥ x + b) h2
    have h4 := h3.add_const d
    have e : F' = fun y => M.mulVecLin.toContinuousLinearMap (F (T⁻¹ *ᵥ (y - b))) + d := funext hinv
    rw [e]
    refine h4.congr_fderiv ?_
    ext v i
    simp [Matrix.mulVec_mulVec, Matrix.mul_assoc]
  constructor
  · intro h
    have := h.unique key
    have e : J' = M * J * T⁻¹ := by
      apply Matrix.ext_of_mulVec_single
      intro i
      exact congrFun (congrArg DFunLike.coe this) (Pi.single i 1)
    rw [e, Matrix.mul_assoc, Matrix.nonsing_inv_mul _ hT, Matrix.mul_one]
  · intro h
    have e : J' = M * J * T⁻¹ := by rw [← h, Matrix.mul_assoc, Matrix.mul_nonsing_inv _ hT, Matrix.mul_one]
    rw [e]; exact key

/-! ## Non-vacuity -/

namespace Ex

/-- The first state in degrees Fahrenheit instead of Celsius, the second one in tenths; the first sensor in millivolts with an offset. -/
noncomputable def degrees : Spec.Coord 2 2 where
  c := 1
  T := !![9 / 5, 0; 0, 10]
  W := fun _ _ => 1
  M := fun i _ => Matrix.diagonal fun _ => if i = 0 then 1000 else 1

/-- The other origins. -/
def origin : Fin 2 → ℝ := ![32, 0]

/-- The offset of the first sensor. -/
noncomputable def offset (i : Nat) (m : Nat) : Fin m → ℝ := fun _ => if i = 0 then 250 else 0

/-- A temperature relaxes nonlinearly, by a rate that is the second state. -/
noncomputable def relax (x : Fin 2 → ℝ) : Fin 2 → ℝ := ![x 0 - x 1 * x 0, x 1]

/-- `relax` in the other units. -/
noncomputable def relaxF (x : Fin 2 → ℝ) : Fin 2 → ℝ := ![x 0 - x 1 / 10 * (x 0 - 32), x 1]

/-- A thermistor. -/
noncomputable def volts (m : Nat) (x : Fin 2 → ℝ) : Fin m → ℝ := fun _ => x 0 * x 0

/-- `volts` in the other units. -/
noncomputable def voltsF (m : Nat) (x : Fin 2 → ℝ) : Fin m → ℝ := fun _ => 1000 * ((x 0 - 32) * 5 / 9 * ((x 0 - 32) * 5 / 9)) + 250

/-- A filter for the temperature. -/
noncomputable def stateC : Spec.State 2 ℝ :=
  ⟨![20, 1], !![0, -20; 0, 1], !![1, 0; 0, 1], !![1, 0; 0, 2], [], [⟨1, !![40, 0], ![5], !![3]⟩]⟩

/-- The same in Fahrenheit. -/
noncomputable def stateF : Spec.State 2 ℝ :=
  ⟨![68, 10], !![0, -18 / 5; 0, 1], !![81 / 25, 0; 0, 100], !![81 / 25, 0; 0, 200], [], [⟨1, !![200000 / 9, 0], ![5250], !![3000000]⟩]⟩

/-- A program that holds `stateC`. -/
noncomputable def worldC : XWorld 2 ℝ Unit where
  kf := ⟨⟨[20, 1]⟩, ⟨[0, -20, 0, 1]⟩, ⟨[1, 0, 0, 1]⟩, ⟨[1, 0, 0, 2]⟩, ⟨[0, 0]⟩, ⟨[0, 0, 0, 0]⟩⟩
  obs := [⟨1, ⟨⟨[40, 0]⟩, ⟨[5]⟩, ⟨[3]⟩, ⟨[0]⟩, ⟨[0]⟩, ⟨[0, 0]⟩, ⟨[0]⟩, ⟨[0, 0]⟩, ⟨[0, 0]⟩, ⟨[0, 0, 0, 0]⟩⟩⟩]
  env := ()

/-- A program that holds `stateF`. -/
noncomputable def worldF : XWorld 2 ℝ Unit where
  kf := ⟨⟨[68, 10]⟩, ⟨[0, -18 / 5, 0, 1]⟩, ⟨[81 / 25, 0, 0, 100]⟩, ⟨[81 / 25, 0, 0, 200]⟩, ⟨[0, 0]⟩, ⟨[0, 0, 0, 0]⟩⟩
  obs := [⟨1, ⟨⟨[200000 / 9, 0]⟩, ⟨[5250]⟩, ⟨[3000000]⟩, ⟨[0]⟩, ⟨[0]⟩, ⟨[0, 0]⟩, ⟨[0]⟩, ⟨[0, 0]⟩, ⟨[0, 0]⟩, ⟨[0, 0, 0, 0]⟩⟩⟩]
  env := ()

theorem worldC_reps : worldC.Reps stateC := by
  refine ⟨by decide, ⟨?_, ?_, ?_, ?_, Nat.le_refl _, Nat.le_refl _⟩, .nil,
    .cons (.mk (by decide) ⟨?_, ?_, ?_, Nat.le_refl _, Nat.le_refl _, Nat.le_refl _, Nat.le_refl _, Nat.le_refl _,
      Nat.le_refl _, Nat.le_refl _⟩) .nil⟩
  all_goals first | (intro i j; fin_cases i <;> fin_cases j <;> rfl) | (intro i; fin_cases i <;> rfl)

theorem worldF_reps : worldF.Reps stateF := by
  refine ⟨by decide, ⟨?_, ?_, ?_, ?_, Nat.le_refl _, Nat.le_refl _⟩, .nil,
    .cons (.mk (by decide) ⟨?_, ?_, ?_, Nat.le_refl _, Nat.le_refl _, Nat.le_refl _, Nat.le_refl _, Nat.le_refl _,
      Nat.le_refl _, Nat.le_refl _⟩) .nil⟩
  all_goals first | (intro i j; fin_cases i <;> fin_cases j <;> rfl) | (intro i; fin_cases i <;> rfl)

/-- Closes equations between small literal matrices and vectors. -/
local macro "lit" : tactic => `(tactic|
  (first
    | (ext i j; fin_cases i <;> fin_cases j <;>
        simp [Matrix.mul_apply, Matrix.vecMul, dotProduct, Fin.sum_univ_two, Matrix.diagonal, Spec.matOf] <;> norm_num)
    | (ext i; fin_cases i <;>
        simp [Matrix.mulVec, dotProduct, Fin.sum_univ_two, Matrix.diagonal, Spec.vecOf, origin, offset] <;>
        norm_num)))

theorem stateF_moved : stateC.Moved degrees origin offset stateF := by
  refine ⟨?_, ?_, ?_, ?_, rfl, ?_⟩
  · show ![68, 10] = !![9 / 5, 0; 0, 10] *ᵥ ![(20 : ℝ), 1] + origin
    lit
  · show !![0, -18 / 5; 0, 1] * !![9 / 5, 0; 0, 10] = !![9 / 5, 0; 0, 10] * (!![0, -20; 0, 1] : Matrix (Fin 2) (Fin 2) ℝ)
    lit
  · show !![81 / 25, 0; 0, 100] = (1 : ℝ) • (!![9 / 5, 0; 0, 10] * !![1, 0; 0, 1] * (!![9 / 5, 0; 0, 10] : Matrix (Fin 2) (Fin 2) ℝ)ᵀ)
    lit
  · show !![81 / 25, 0; 0, 200] = (1 : ℝ) • (!![9 / 5, 0; 0, 10] * !![1, 0; 0, 2] * (!![9 / 5, 0; 0, 10] : Matrix (Fin 2) (Fin 2) ℝ)ᵀ)
    lit
  · rintro (_ | i) c d hc hd
    · cases hc
      cases hd
      refine .mk ?_ ?_ ?_
      · show (!![200000 / 9, 0] : Matrix (Fin 1) (Fin 2) ℝ) * !![9 / 5, 0; 0, 10]
          = (Matrix.diagonal fun _ : Fin 1 => if 0 = 0 then (1000 : ℝ) else 1) * (!![40, 0] : Matrix (Fin 1) (Fin 2) ℝ)
        lit
      · show ![5250] = (Matrix.diagonal fun _ : Fin 1 => if 0 = 0 then (1000 : ℝ) else 1) *ᵥ ![(5 : ℝ)] + offset 0 1
        ext i; fin_cases i
        simp [Matrix.mulVec_diagonal, offset]; norm_num
      · show (!![3000000] : Matrix (Fin 1) (Fin 1) ℝ) = (1 : ℝ) • ((Matrix.diagonal fun _ : Fin 1 => if 0 = 0 then (1000 : ℝ) else 1) * !![3]
          * (Matrix.diagonal fun _ : Fin 1 => if 0 = 0 then (1000 : ℝ) else 1)ᵀ)
        lit
    · cases hc

theorem relax_moved (x : Fin 2 → ℝ) : relaxF (degrees.T *ᵥ x + origin) = degrees.T *ᵥ relax x + origin := by
  ext i
  fin_cases i <;> simp [relaxF, relax, degrees, origin, dotProduct, Fin.sum_univ_two] <;> ring

theorem volts_moved (m : Nat) (x : Fin 2 → ℝ) : voltsF m (degrees.T *ᵥ x + origin) = degrees.M 0 m *ᵥ volts m x + offset 0 m := by
  ext i
  simp [voltsF, volts, degrees, origin, offset, Matrix.mulVec, dotProduct, Fin.sum_univ_two]
  ring

/-- One round. -/
noncomputable def roundC : List (Spec.XOp 2 ℝ) := [.correct 0 volts, .predict relax, .assign (.z 0 [7]), .assign (.x [10, 1]), .correct 0 volts]

/-- The same round in the other units. -/
noncomputable def roundF : List (Spec.XOp 2 ℝ) := [.correct 0 voltsF, .predict relaxF, .assign (.z 0 [7250]), .assign (.x [50, 10]), .correct 0 voltsF]

theorem round_moved : List.Forall₂ (Spec.XOpMoved degrees origin offset (stateC.obs.map Sigma.fst)) roundC roundF := by
  refine .cons (.correct 0 fun m _ => volts_moved m) (.cons (.predict relax_moved) (.cons (.setZ 0 _ _ ?_) (.cons (.setX _ _ ?_)
    (.cons (.correct 0 fun m _ => volts_moved m) .nil))))
  · rintro m ⟨⟩
    show (Spec.vecOf [7250] : Fin 1 → ℝ) = (Matrix.diagonal fun _ : Fin 1 => if 0 = 0 then (1000 : ℝ) else 1) *ᵥ Spec.vecOf [7] + offset 0 1
    lit
  · show (Spec.vecOf [50, 10] : Fin 2 → ℝ) = !![9 / 5, 0; 0, 10] *ᵥ Spec.vecOf [10, 1] + origin
    lit

theorem stateC_psd : stateC.Psd := by
  have hP : (Matrix.diagonal ![(1 : ℝ), 1]).PosSemidef := Matrix.PosSemidef.diagonal fun i => by fin_cases i <;> norm_num
  have hQ : (Matrix.diagonal ![(1 : ℝ), 2]).PosSemidef := Matrix.PosSemidef.diagonal fun i => by fin_cases i <;> norm_num
  have hR : (Matrix.diagonal ![(3 : ℝ)]).PosDef := Matrix.PosDef.diagonal fun i => by fin_cases i; norm_num
  refine ⟨?_, ?_, by simp [stateC], ?_⟩
  · have : stateC.P = Matrix.diagonal ![(1 : ℝ), 1] := by ext i j; fin_cases i <;> fin_cases j <;> simp [stateC]
    rw [this]; exact hP
  · have : stateC.Q = Matrix.diagonal ![(1 : ℝ), 2] := by ext i j; fin_cases i <;> fin_cases j <;> simp [stateC]
    rw [this]; exact hQ
  · intro o ho
    simp only [stateC, List.mem_singleton] at ho
    subst ho
    have : (!![3] : Matrix (Fin 1) (Fin 1) ℝ) = Matrix.diagonal ![(3 : ℝ)] := by ext i j; fin_cases i; fin_cases j; simp
    show (!![3] : Matrix (Fin 1) (Fin 1) ℝ).PosDef
    rw [this]; exact hR

theorem roundC_regular : stateC.XRegularRun roundC := by
  refine xpsd_regularRun stateC_psd ?_ ?_ <;>
  · simp only [roundC, List.mem_cons, List.not_mem_nil, or_false, forall_eq_or_imp, forall_eq, Op.NonzeroLambda,
      Spec.State.CovData, and_self, true_and, and_true, Spec.XOp.linear, Assign.toOp, Spec.State.PsdData]

end Ex

open Ex in
/-- The conditions are met by a filter for a temperature in degrees Celsius and in degrees Fahrenheit. -/
example [MDT ℝ] [ExactReal] (bld : Build) : ∃ w1 w1' x P,
    worldC.run bld [.correct 0 fun m => closureOf (volts m), .predict (closureOf relax), .assign (.z 0 [7]), .assign (.x [10, 1]),
      .correct 0 fun m => closureOf (volts m)] = .ok w1 ∧
    worldF.run bld [.correct 0 fun m => closureOf (voltsF m), .predict (closureOf relaxF), .assign (.z 0 [7250]), .assign (.x [50, 10]),
      .correct 0 fun m => closureOf (voltsF m)] = .ok w1' ∧
    w1.kf.x.RepsV x ∧ w1.kf.P.Reps P ∧ w1'.kf.x.RepsV ![9 / 5 * x 0 + 32, 10 * x 1] := by
  obtain ⟨w1, w1', x, P, h1, h2, h3, h4, h5, _⟩ := C114_coordinates bld (g := degrees) (b := origin) (d := offset) one_pos (by
      intro i m
      show IsUnit (Matrix.diagonal fun _ : Fin m => if i = 0 then (1000 : ℝ) else 1).det
      rw [Matrix.det_diagonal, isUnit_iff_ne_zero]
      exact Finset.prod_ne_zero_iff.2 fun _ _ => by split <;> norm_num) worldC_reps worldF_reps stateF_moved (sops := roundC) (sops' := roundF)
    (ops := [.correct 0 fun m => closureOf (volts m), .predict (closureOf relax), .assign (.z 0 [7]), .assign (.x [10, 1]),
      .correct 0 fun m => closureOf (volts m)])
    (ops' := [.correct 0 fun m => closureOf (voltsF m), .predict (closureOf relaxF), .assign (.z 0 [7250]), .assign (.x [50, 10]),
      .correct 0 fun m => closureOf (voltsF m)])
    (.cons (.correct fun m => computes_closureOf _) (.cons (.predict (computes_closureOf _)) (.cons .assign (.cons .assign
      (.cons (.correct fun m => computes_closureOf _) .nil)))))
    (.cons (.correct fun m => computes_closureOf _) (.cons (.predict (computes_closureOf _)) (.cons .assign (.cons .assign
      (.cons (.correct fun m => computes_closureOf _) .nil)))))
    (by
      simp only [List.mem_cons, List.not_mem_nil, or_false, forall_eq_or_imp, forall_eq]
      exact ⟨Nat.zero_lt_one, trivial, rfl, rfl, Nat.zero_lt_one⟩)
    (by
      simp only [List.mem_cons, List.not_mem_nil, or_false, forall_eq_or_imp, forall_eq]
      exact ⟨Nat.zero_lt_one, trivial, rfl, rfl, Nat.zero_lt_one⟩) round_moved roundC_regular
  refine ⟨w1, w1', x, P, h1, h2, h3, h4, ?_⟩
  have e : (![9 / 5 * x 0 + 32, 10 * x 1] : Fin 2 → ℝ) = degrees.T *ᵥ x + origin := by
    ext i; fin_cases i <;> simp [degrees, origin, Matrix.mulVec, dotProduct, Fin.sum_univ_two]
  rw [e]; exact h5

open Ex in
/-- `C114_jacobian` is not vacuous: the map of `degrees` is invertible, the function `x ↦ (x₀)²` has the Jacobian `[40, 0]` at `(20, 1)`. -/
example : IsUnit (degrees.T).det ∧ (∀ x, voltsF 1 (degrees.T *ᵥ x + origin) = degrees.M 0 1 *ᵥ volts 1 x + offset 0 1) ∧
    Spec.IsDerivative (volts 1) !![40, 0] ![20, 1] := by
  refine ⟨?_, volts_moved 1, ?_⟩
  · show IsUnit (!![9 / 5, 0; 0, 10] : Matrix (Fin 2) (Fin 2) ℝ).det
    rw [Matrix.det_fin_two, isUnit_iff_ne_zero]; simp
  · unfold Spec.IsDerivative
    have h0 : HasFDerivAt (fun x : Fin 2 → ℝ => x 0) (ContinuousLinearMap.proj 0 : (Fin 2 → ℝ) →L[ℝ] ℝ) ![20, 1] :=
      (ContinuousLinearMap.proj 0 : (Fin 2 → ℝ) →L[ℝ] ℝ).hasFDerivAt
    rw [hasFDerivAt_pi']
    intro i
    refine (h0.mul h0).congr_fderiv ?_
    ext v
    fin_cases i
    simp [Matrix.mulVec, dotProduct, Fin.sum_univ_two]
    ring

end Minikalman
