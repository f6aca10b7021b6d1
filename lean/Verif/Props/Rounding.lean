import Verif.Proofs.Rounding
import Verif.Spec.RoundingExamples
import Verif.Spec.Examples

/-!
# Property C59: rounding errors of the kernels and of the prediction

For every element type with rounded arithmetic (`Rounded`, see `Spec/Rounding.lean`): whenever a computed number is finite,
it differs from the exact result on the same inputs by at most the stated bound. `γ k = (1+u)^k - 1`, `δ k = k (1+u)^k η`.
-/

set_option linter.unusedSectionVars false

namespace Minikalman

open Matrix

variable {T : Type} [Zero T] [One T] [Add T] [Sub T] [Mul T] [Neg T] [MDT T] {R C U n l m : Nat}

/-! ## Kernels -/

/-- C59: `mult` on rounded numbers. -/
theorem C59_mult_rounding (ra : Rounded T) {a : Mat R C T} {b : Mat C U T} {c : Mat R U T} {A B} (ha : a.Reps A)
    (hb : b.Reps B) (hc : c.Valid) :
    ∃ c' D, a.mult b c = .ok c' ∧ c'.Reps D ∧ ∀ i j, ra.fin (D i j) →
      |ra.val (D i j) - (ra.valM A * ra.valM B) i j| ≤ ra.γ (C + 1) * (ra.absM A * ra.absM B) i j + ra.δ C := by
  obtain ⟨c', h1, h2, _⟩ := Mat.mult_reps ha hb hc
  exact ⟨c', _, h1, h2, fun i j hf => (ra.mulSeq_bound hf).2⟩

/-- C59: `mult_transb` on rounded numbers. -/
theorem C59_multTransb_rounding (ra : Rounded T) {a : Mat R C T} {b : Mat U C T} {c : Mat R U T} {A B} (ha : a.Reps A)
    (hb : b.Reps B) (hc : c.Valid) :
    ∃ c' D, a.multTransb b c = .ok c' ∧ c'.Reps D ∧ ∀ i j, ra.fin (D i j) →
      |ra.val (D i j) - (ra.valM A * (ra.valM B)ᵀ) i j| ≤ ra.γ (C + 1) * (ra.absM A * (ra.absM B)ᵀ) i j + ra.δ C := by
  obtain ⟨c', h1, h2, _⟩ := Mat.multTransb_reps ha hb hc
  exact ⟨c', _, h1, h2, fun i j hf => (ra.mulSeq_bound (B := B.transpose) hf).2⟩

/-- C59: `mult_rowvector` on rounded numbers. -/
theorem C59_multRowvector_rounding (ra : Rounded T) {a : Mat R C T} {x : Mat C 1 T} {c : Mat R 1 T} {A X} (hC : 0 < C)
    (ha : a.Reps A) (hx : x.RepsV X) (hc : c.Valid) :
    ∃ c' D, a.multRowvector x c = .ok c' ∧ c'.RepsV D ∧ ∀ i, ra.fin (D i) →
      |ra.val (D i) - (ra.valM A *ᵥ ra.valV X) i| ≤ ra.γ (C + 1) * (ra.absM A *ᵥ ra.absV X) i + ra.δ C := by
  obtain ⟨c', h1, h2, _⟩ := Mat.multRowvector_reps hC ha hx hc
  exact ⟨c', _, h1, h2, fun i hf => (ra.mulVecSeq_bound hf).2⟩

/-- C59: `multadd_rowvector` on rounded numbers. -/
theorem C59_multaddRowvector_rounding (ra : Rounded T) {a : Mat R C T} {x : Mat C 1 T} {c : Mat R 1 T} {A X Y} (hC : 0 < C)
    (ha : a.Reps A) (hx : x.RepsV X) (hc : c.RepsV Y) :
    ∃ c' D, a.multaddRowvector x c = .ok c' ∧ c'.RepsV D ∧ ∀ i, ra.fin (D i) →
      |ra.val (D i) - (ra.val (Y i) + (ra.valM A *ᵥ ra.valV X) i)| ≤
        ra.γ (C + 2) * (ra.absM A *ᵥ ra.absV X) i + ra.u * |ra.val (Y i)| + (1 + ra.u) * ra.δ C := by
  obtain ⟨c', h1, h2, _⟩ := Mat.multaddRowvector_reps hC ha hx hc
  refine ⟨c', _, h1, h2, fun i hf => ?_⟩
  have hf' := (ra.add_err _ _ hf).2.1
  exact ra.add_exact_bound' hf (ra.abs_mulVec_le A X i) (ra.mulVecSeq_bound hf').2

/-! ## Filter steps -/

/-- C59: `predict` on rounded numbers: each finite component of the state is `A x` up to the bound of `n + 1` roundings, each
finite entry of the covariance is `A P Aᵀ + Q` up to the bound of `2 n + 3` roundings. -/
theorem C59_predict_rounding (ra : Rounded T) {f : RegularKalman n T} {x A P Q} (hn : 0 < n) (hf : f.Reps x A P Q) :
    ∃ f' x' P', f.predict = .ok f' ∧ f'.Reps x' A P' Q ∧
      (∀ i, ra.fin (x' i) →
        |ra.val (x' i) - (ra.valM A *ᵥ ra.valV x) i| ≤ ra.γ (n + 1) * (ra.absM A *ᵥ ra.absV x) i + ra.δ n) ∧
      (∀ i j, ra.fin (P' i j) →
        |ra.val (P' i j) - (ra.valM A * ra.valM P * (ra.valM A)ᵀ + ra.valM Q) i j| ≤
          ra.γ (2 * n + 3) * (ra.absM A * ra.absM P * (ra.absM A)ᵀ) i j + ra.u * ra.absM Q i j +
            (1 + ra.u) * ((1 + ra.u) ^ (n + 1) * ra.δ n * ∑ k, ra.absM A j k + ra.δ n)) := by
  obtain ⟨f', h1, h2, h3, h4⟩ := predict_any hn
    ⟨hf.x.valid, hf.A.valid, hf.P.valid, hf.Q.valid, hf.predictedX, hf.tempP⟩ hf.x hf.A hf.P hf.Q
  refine ⟨f', _, _, h1, ⟨h2, h4.A ▸ hf.A, h3, h4.Q ▸ hf.Q, h4.predictedX.valid hf.predictedX, h4.tempP.valid hf.tempP⟩,
    fun i hi => (ra.mulVecSeq_bound hi).2, fun i j hij => ?_⟩
  have hf' := (ra.add_err _ _ hij).1
  have := ra.add_exact_bound hij (ra.abs_sandwich_le A P A i j) (ra.sandwich_bound hf')
  rwa [show n + 1 + (n + 1) + 1 = 2 * n + 3 by omega] at this

/-- C59: how unsymmetric rounding can make the predicted covariance: starting from symmetric `P` and `Q`, two opposite finite
entries differ by at most the sum of their error bounds. -/
theorem C59_predict_asymmetry (ra : Rounded T) {f f' : RegularKalman n T} {x A P Q x' P'} (hn : 0 < n) (hf : f.Reps x A P Q)
    (hP : P.IsSymm) (hQ : Q.IsSymm) (h : f.predict = .ok f') (h' : f'.Reps x' A P' Q) (i j : Fin n)
    (hi : ra.fin (P' i j)) (hj : ra.fin (P' j i)) :
    |ra.val (P' i j) - ra.val (P' j i)| ≤
      2 * (ra.γ (2 * n + 3) * (ra.absM A * ra.absM P * (ra.absM A)ᵀ) i j + ra.u * ra.absM Q i j) +
        (1 + ra.u) * ((1 + ra.u) ^ (n + 1) * ra.δ n * ∑ k, (ra.absM A i k + ra.absM A j k) + 2 * ra.δ n) := by
  obtain ⟨g, y, P'', h1, h2, _, h3⟩ := C59_predict_rounding ra hn hf
  rw [h] at h1; cases h1
  obtain rfl := h'.P.unique h2.P
  have b1 := h3 i j hi
  have b2 := h3 j i hj
  have hvP : (ra.valM P)ᵀ = ra.valM P := by
    ext a b; exact congrArg ra.val (congrFun (congrFun hP a) b)
  have haP : (ra.absM P)ᵀ = ra.absM P := by
    ext a b; exact congrArg (fun t => |ra.val t|) (congrFun (congrFun hP a) b)
  have hvQ : (ra.valM Q)ᵀ = ra.valM Q := by
    ext a b; exact congrArg ra.val (congrFun (congrFun hQ a) b)
  have haQ : ra.absM Q j i = ra.absM Q i j := congrArg (fun t => |ra.val t|) (congrFun (congrFun hQ i) j)
  have e1 : (ra.valM A * ra.valM P * (ra.valM A)ᵀ + ra.valM Q) j i =
      (ra.valM A * ra.valM P * (ra.valM A)ᵀ + ra.valM Q) i j := by
    have : (ra.valM A * ra.valM P * (ra.valM A)ᵀ + ra.valM Q)ᵀ = ra.valM A * ra.valM P * (ra.valM A)ᵀ + ra.valM Q := by
      simp only [Matrix.transpose_add, Matrix.transpose_mul, Matrix.transpose_transpose, hvP, hvQ, Matrix.mul_assoc]
    exact congrFun (congrFun this i) j
  have e2 : (ra.absM A * ra.absM P * (ra.absM A)ᵀ) j i = (ra.absM A * ra.absM P * (ra.absM A)ᵀ) i j := by
    have : (ra.absM A * ra.absM P * (ra.absM A)ᵀ)ᵀ = ra.absM A * ra.absM P * (ra.absM A)ᵀ := by
      simp only [Matrix.transpose_mul, Matrix.transpose_transpose, haP, Matrix.mul_assoc]
    exact congrFun (congrFun this i) j
  rw [e1, e2, haQ] at b2
  rw [abs_sub_comm] at b2
  have t := abs_sub_le (ra.val (P' i j)) ((ra.valM A * ra.valM P * (ra.valM A)ᵀ + ra.valM Q) i j) (ra.val (P' j i))
  have e3 : (1 + ra.u) ^ (n + 1) * ra.δ n * ∑ k, (ra.absM A i k + ra.absM A j k) =
      (1 + ra.u) ^ (n + 1) * ra.δ n * ∑ k, ra.absM A j k + (1 + ra.u) ^ (n + 1) * ra.δ n * ∑ k, ra.absM A i k := by
    rw [Finset.sum_add_distrib]; ring
  rw [e3]
  linarith

/-- C59: `control` on rounded numbers. -/
theorem C59_control_rounding (ra : Rounded T) {f : RegularKalman n T} {c : Control n l T} {x A P Q B v Qc} (hn : 0 < n)
    (hl : 0 < l) (hf : f.Reps x A P Q) (hc : c.Reps B v Qc) :
    ∃ f' c' x' P', f.control c = .ok (f', c') ∧ f'.Reps x' A P' Q ∧
      (∀ i, ra.fin (x' i) →
        |ra.val (x' i) - (ra.val (x i) + (ra.valM B *ᵥ ra.valV v) i)| ≤
          ra.γ (l + 2) * (ra.absM B *ᵥ ra.absV v) i + ra.u * |ra.val (x i)| + (1 + ra.u) * ra.δ l) ∧
      (∀ i j, ra.fin (P' i j) →
        |ra.val (P' i j) - (ra.valM P + ra.valM B * ra.valM Qc * (ra.valM B)ᵀ) i j| ≤
          ra.γ (2 * l + 3) * (ra.absM B * ra.absM Qc * (ra.absM B)ᵀ) i j + ra.u * ra.absM P i j +
            (1 + ra.u) * ((1 + ra.u) ^ (l + 1) * ra.δ l * ∑ k, ra.absM B j k + ra.δ l)) := by
  obtain ⟨c', x', P', h1, h2, h3, h4, h5, h6⟩ := control_any hn hl
    ⟨hc.B.valid, hc.u.valid, hc.Q.valid, hc.tempBQ⟩ hc.B hc.u hc.Q hf.x hf.P
  refine ⟨{ f with x := x', P := P' }, c', _, _, ?_, ⟨h2, hf.A, h3, hf.Q, hf.predictedX, hf.tempP⟩, fun i hi => ?_,
    fun i j hij => ?_⟩
  · unfold RegularKalman.control
    rw [h1]; rfl
  · have hf' := (ra.add_err _ _ hi).2.1
    exact ra.add_exact_bound' hi (ra.abs_mulVec_le B v i) (ra.mulVecSeq_bound hf').2
  · have hf' := (ra.add_err _ _ hij).2.1
    have := ra.add_exact_bound' hij (ra.abs_sandwich_le B Qc B i j) (ra.sandwich_bound hf')
    rwa [show l + 1 + (l + 1) + 1 = 2 * l + 3 by omega] at this

/-- C59: the innovation and the state after `correct` on rounded numbers, in terms of the gain that was computed. -/
theorem C59_correct_state_rounding (ra : Rounded T) (bld : Build) {f f' : RegularKalman n T} {o o' : RegularObservation n m T}
    {x A P Q H z Rn} (hn : 0 < n) (hm : 0 < m) (hf : f.Reps x A P Q) (ho : o.Reps H z Rn)
    (h : f.correct bld o = .ok (f', o')) :
    ∃ K y x', o'.K.Reps K ∧ o'.y.RepsV y ∧ f'.x.RepsV x' ∧
      (∀ i, ra.fin (y i) → |ra.val (y i) - (ra.val (z i) - (ra.valM H *ᵥ ra.valV x) i)| ≤
        ra.γ (n + 2) * (ra.absM H *ᵥ ra.absV x) i + ra.u * |ra.val (z i)| + (1 + ra.u) * ra.δ n) ∧
      (∀ i, ra.fin (x' i) → |ra.val (x' i) - (ra.val (x i) + (ra.valM K *ᵥ ra.valV y) i)| ≤
        ra.γ (m + 2) * (ra.absM K *ᵥ ra.absV y) i + ra.u * |ra.val (x i)| + (1 + ra.u) * ra.δ m) := by
  have hov : o.Valid := ⟨ho.H.valid, ho.z.valid, ho.R.valid, ho.y, ho.S, ho.K, ho.tempSInv, ho.tempHP, ho.tempPHt, ho.tempKHP⟩
  have hr := correct_rel bld hn hm hov hov hf.P.valid (.refl _) (.refl _) (.refl _) ho.H hf.x ho.z hf.x ho.z
  unfold RegularKalman.correct at h
  rcases hr with ⟨e, he, _⟩ | ⟨a, b, h1, h2, g⟩
  · rw [he] at h; cases h
  · rw [h1] at h
    cases h
    obtain ⟨_, _, _, _, _, _, _, _, _, _, _, _, hy, _, K, hK, _, hx, _⟩ := g
    refine ⟨K, _, _, hK, hy, hx, fun i hi => ?_, fun i hi => ?_⟩
    · have hf' := (ra.sub_err _ _ hi).2.1
      have t := ra.sub_bound (a := z i) (S := ra.val (z i)) (ea := 0) hi (by simp) (ra.mulVecSeq_bound hf').2
      have h1 : ra.u * |(ra.valM H *ᵥ ra.valV x) i| ≤ ra.u * (ra.absM H *ᵥ ra.absV x) i :=
        mul_le_mul_of_nonneg_left (ra.abs_mulVec_le H x i) ra.u_nonneg
      have e1 : (1 + ra.u) * (0 + (ra.γ (n + 1) * (ra.absM H *ᵥ ra.absV x) i + ra.δ n)) + ra.u * (ra.absM H *ᵥ ra.absV x) i =
          ra.γ (n + 2) * (ra.absM H *ᵥ ra.absV x) i + (1 + ra.u) * ra.δ n := by unfold Rounded.γ; ring
      refine t.trans ?_
      linarith
    · have hf' := (ra.add_err _ _ hi).2.1
      exact ra.add_exact_bound' hi (ra.abs_mulVec_le K _ i) (ra.mulVecSeq_bound hf').2

/-! ## Non-vacuity -/

/-- Time step `0.1` (rounded to `6554 / 65536`) in fixed point numbers. -/
def Ex.checkedFilter : RegularKalman 2 Checked where
  x := ⟨[.of 65536, .of 131072]⟩
  A := ⟨[.of 65536, .of 6554, 0, .of 65536]⟩
  P := ⟨[.of 65536, 0, 0, .of 65536]⟩
  Q := ⟨[.of 655, 0, 0, .of 655]⟩
  predictedX := ⟨[0, 0]⟩
  tempP := ⟨[0, 0, 0, 0]⟩

/-- All hypotheses are met, all results are finite, and the covariance really is rounded: `6554² / 65536 = 655.4...` -/
example :
    Ex.checkedFilter.Reps ![.of 65536, .of 131072] !![.of 65536, .of 6554; 0, .of 65536]
      !![.of 65536, 0; 0, .of 65536] !![.of 655, 0; 0, .of 655] ∧
    Ex.checkedFilter.predict.map (fun f => (f.x.data, f.P.data)) =
      .ok ([.of 78644, .of 131072], [.of 66846, .of 6554, .of 6554, .of 66191]) ∧
    Checked.rounded.fin (Checked.of 66846) := by
  refine ⟨⟨?_, ?_, ?_, ?_, Nat.le_refl _, Nat.le_refl _⟩, by decide +kernel, rfl⟩
  · intro i; fin_cases i <;> rfl
  all_goals intro i j; fin_cases i <;> fin_cases j <;> rfl

/-- Fixed point products and an overflow. -/
example : (Checked.of 6554 * Checked.of 6554 = Checked.of 655) ∧
    (Checked.of 65536000 * Checked.of 65536000).bits = none := by decide +kernel

end Minikalman
