import Verif.Proofs.RoundingCorrect
import Verif.Proofs.Extended
import Verif.Spec.RoundingExamples

/-!
# Property C74: the inversion and the whole correction on rounded numbers

`invert_l_cholesky` computes the textbook substitutions operation by operation; with rounded arithmetic (`RoundedInverse`, see
`Spec/RoundingInv.lean`) the residuals and the error of the inverse are bounded, and so are the errors of everything `correct`
computes, compared with the exact Kalman correction of the same inputs.
-/

set_option linter.unusedSectionVars false

namespace Minikalman

open Matrix

variable {T : Type} [Zero T] [One T] [Add T] [Sub T] [Mul T] [Neg T] [MDT T] {n m : Nat} {σ : Type}

/-- C74: whatever the arithmetic, `invert_l_cholesky` writes the symmetric matrix `X` that forward substitution (for `M`) and
backward substitution give, sums in ascending order, and nothing else. -/
theorem C74_inverse_recurrence {l inverse inv : Mat n n T} {L : Matrix (Fin n) (Fin n) T} (hn : 0 < n) (hl : l.RepsLower L)
    (hv : inverse.Valid) (h : l.invertLCholesky inverse = .ok inv) :
    ∃ M X, inv.Reps X ∧ inverse.SameTail inv ∧ Spec.FactorInverse L M ∧ Spec.TransposedSolve L M X :=
  invert_any_matrix hn hl hv h

/-- C74: the residuals of the two substitutions, whenever the computed inverse is finite. -/
theorem C74_inverse_residuals (ra : RoundedInverse T) {L M X : Matrix (Fin n) (Fin n) T} (hL : ∀ i j, i < j → L i j = 0)
    (hM : Spec.FactorInverse L M) (hX : Spec.TransposedSolve L M X) (hLf : ∀ i, ra.fin (L i i)) (hXf : ∀ i j, ra.fin (X i j)) :
    (∀ i j, |(ra.valM L * ra.valM M) i j - (1 : Matrix (Fin n) (Fin n) ℝ) i j| ≤ ra.factorErr L M i j) ∧
    ∀ i j, j ≤ i → |((ra.valM L)ᵀ * ra.valM X) i j - ra.val (M i j)| ≤ ra.solveErr L M X i j :=
  ⟨ra.factor_residual hL hM hLf fun i j hij => (ra.solve_fin hX hXf i j hij).1, ra.solve_residual hL hX hLf hXf⟩

/-- C74: the error of the computed inverse of `L Lᵀ`, whenever it is finite. -/
theorem C74_inverse_error (ra : RoundedInverse T) {l inverse inv : Mat n n T} {L X : Matrix (Fin n) (Fin n) T} (hn : 0 < n)
    (hl : l.RepsLower L) (hL : ∀ i j, i < j → L i j = 0) (hv : inverse.Valid) (h : l.invertLCholesky inverse = .ok inv)
    (hX : inv.Reps X) (hLf : ∀ i, ra.fin (L i i)) (hXf : ∀ i j, ra.fin (X i j)) :
    ∃ M, Spec.FactorInverse L M ∧ Spec.TransposedSolve L M X ∧
      ∀ i j, |ra.val (X i j) - (ra.valM L * (ra.valM L)ᵀ)⁻¹ i j| ≤ ra.inverseErr L M X i j := by
  obtain ⟨M, X', h1, _, h3, h4⟩ := invert_any_matrix hn hl hv h
  obtain rfl := hX.unique h1
  exact ⟨M, h3, h4, ra.inverse_error hL h3 h4 hLf hXf⟩

/-- C74: `correct` on rounded numbers against the exact Kalman correction. Covariance and noise are symmetric, the exact residual
covariance is invertible, the decomposition of the computed one succeeds, and the factor and the new state are finite: then the
factor, the inverse, the gain, the innovation, the state and the finite entries of the covariance are the exact ones up to the
bounds of `Spec/RoundingInv.lean`. -/
theorem C74_correct_rounding (ra : RoundedInverse T) (bld : Build) {f f' : RegularKalman n T} {o o' : RegularObservation n m T}
    {x A P Q H z R} {s s' : Mat m m T} (hn : 0 < n) (hm : 0 < m) (hf : f.Reps x A P Q) (ho : o.Reps H z R)
    (hPs : P.IsSymm) (hRs : R.IsSymm)
    (hs : s.Reps (Spec.mulSeq (Spec.mulSeq H P) Hᵀ + R)) (hok : s.choleskyDecomposeLower bld = .ok (s', true))
    (hSe : IsUnit (Spec.innovCov (ra.valM H) (ra.valM P) (ra.valM R)).det) (h : f.correct bld o = .ok (f', o')) :
    ∃ L M X K y x' P', o'.S.Reps L ∧ Spec.FactorInverse L M ∧ Spec.TransposedSolve L M X ∧ o'.tempSInv.Reps X ∧
      o'.K.Reps K ∧ o'.y.RepsV y ∧ f'.x.RepsV x' ∧ f'.P.Reps P' ∧
      ((∀ i j, ra.fin (L i j)) → (∀ i, ra.fin (x' i)) →
        (∀ i j, |(ra.valM L * (ra.valM L)ᵀ) i j - Spec.innovCov (ra.valM H) (ra.valM P) (ra.valM R) i j| ≤
          ra.factoredErr H P R (Spec.mulSeq (Spec.mulSeq H P) Hᵀ + R) L i j) ∧
        ∃ (EX : Matrix (Fin m) (Fin m) ℝ) (EK : Matrix (Fin n) (Fin m) ℝ),
          EX = ra.innovInvErr H P R (Spec.mulSeq (Spec.mulSeq H P) Hᵀ + R) L M X
            (Spec.innovCov (ra.valM H) (ra.valM P) (ra.valM R)) ∧
          EK = ra.gainErr H P X EX ∧
          (∀ i j, |ra.val (X i j) - (Spec.innovCov (ra.valM H) (ra.valM P) (ra.valM R))⁻¹ i j| ≤ EX i j) ∧
          (∀ i j, |ra.val (K i j) - Spec.gain (ra.valM H) (ra.valM P) (ra.valM R) i j| ≤ EK i j) ∧
          (∀ i, |ra.val (y i) - (ra.valV z - ra.valM H *ᵥ ra.valV x) i| ≤ ra.innovErr H x z i) ∧
          (∀ i, |ra.val (x' i) - Spec.corrX (ra.valM H) (ra.valM P) (ra.valM R) (ra.valV x) (ra.valV z) i| ≤
            ra.stateErr K x y EK (ra.innovErr H x z) i) ∧
          ∀ i j, ra.fin (P' i j) →
            |ra.val (P' i j) - Spec.corrP (ra.valM H) (ra.valM P) (ra.valM R) i j| ≤ ra.covErr H P K EK i j) := by
  have hov : o.Valid := ⟨ho.H.valid, ho.z.valid, ho.R.valid, ho.y, ho.S, ho.K, ho.tempSInv, ho.tempHP, ho.tempPHt, ho.tempKHP⟩
  obtain ⟨y1, y2, h1, h2, h3, h4⟩ := innovation_any hn hov ho.H ho.z hf.x
  unfold RegularKalman.correct RegularObservation.correct at h
  simp only [h1, h2, res_bind_ok] at h
  obtain ⟨⟨o1, x1, P1⟩, hu, h⟩ := bind_ok h
  cases h
  obtain ⟨ey, L, M, W, K, x', P', r1, r2, r3, r4, r5, r6, r7, r8⟩ := update_rounding ra bld
    (o := { o with y := y2 }) hn hm (obs_with_y_valid hov h4) ho.H ho.R hf.P hf.x h3 hPs hRs hs hok hSe hu
  refine ⟨L, M, W, K, _, x', P', r1, r2, r3, r4, r5, by rw [ey]; exact h3, r6, r7, fun hLf hxf => ?_⟩
  obtain ⟨q1, q2, EK, q3, q4, q5, q6, q7⟩ := r8 hLf hxf
  have hy := fun i => ra.innov_bound (q6 i)
  exact ⟨q1, _, EK, rfl, q3, q2, q4, hy, q5 _ _ fun _ => hy, q7⟩

/-- C74: the same for the extended filter: the innovation `z - e` is computed from whatever the observation function wrote to
its output, `e`. -/
theorem C74_correct_nonlinear_rounding (ra : RoundedInverse T) (bld : Build) {f f' : ExtendedKalman n T}
    {o o' : ExtendedObservation n m T} {x A P Q H z R} {e : Fin m → T} {s s' : Mat m m T}
    {g : σ → Mat n 1 T → Mat m 1 T → Res (σ × Mat m 1 T)} {st st' st'' : σ} {out : Mat m 1 T} (hn : 0 < n) (hm : 0 < m)
    (hf : f.asRegular.Reps x A P Q) (ho : o.asRegular.Reps H z R) (hPs : P.IsSymm) (hRs : R.IsSymm)
    (hg : g st f.x o.y = .ok (st', out)) (he : out.RepsV e)
    (hs : s.Reps (Spec.mulSeq (Spec.mulSeq H P) Hᵀ + R)) (hok : s.choleskyDecomposeLower bld = .ok (s', true))
    (hSe : IsUnit (Spec.innovCov (ra.valM H) (ra.valM P) (ra.valM R)).det)
    (h : f.correctNonlinear bld o g st = .ok (st'', f', o')) :
    ∃ L M X K y x' P', o'.S.Reps L ∧ Spec.FactorInverse L M ∧ Spec.TransposedSolve L M X ∧ o'.tempSInv.Reps X ∧
      o'.K.Reps K ∧ o'.y.RepsV y ∧ f'.x.RepsV x' ∧ f'.P.Reps P' ∧
      ((∀ i j, ra.fin (L i j)) → (∀ i, ra.fin (x' i)) →
        (∀ i j, |(ra.valM L * (ra.valM L)ᵀ) i j - Spec.innovCov (ra.valM H) (ra.valM P) (ra.valM R) i j| ≤
          ra.factoredErr H P R (Spec.mulSeq (Spec.mulSeq H P) Hᵀ + R) L i j) ∧
        ∃ (EX : Matrix (Fin m) (Fin m) ℝ) (EK : Matrix (Fin n) (Fin m) ℝ),
          EX = ra.innovInvErr H P R (Spec.mulSeq (Spec.mulSeq H P) Hᵀ + R) L M X
            (Spec.innovCov (ra.valM H) (ra.valM P) (ra.valM R)) ∧
          EK = ra.gainErr H P X EX ∧
          (∀ i j, |ra.val (X i j) - (Spec.innovCov (ra.valM H) (ra.valM P) (ra.valM R))⁻¹ i j| ≤ EX i j) ∧
          (∀ i j, |ra.val (K i j) - Spec.gain (ra.valM H) (ra.valM P) (ra.valM R) i j| ≤ EK i j) ∧
          (∀ i, |ra.val (y i) - (ra.val (z i) - ra.val (e i))| ≤ ra.u * |ra.val (z i) - ra.val (e i)|) ∧
          (∀ i, |ra.val (x' i) -
              (ra.valV x + Spec.gain (ra.valM H) (ra.valM P) (ra.valM R) *ᵥ (ra.valV z - ra.valV e)) i| ≤
            ra.stateErr K x y EK (fun i => ra.u * |ra.val (z i) - ra.val (e i)|) i) ∧
          ∀ i j, ra.fin (P' i j) →
            |ra.val (P' i j) - Spec.corrP (ra.valM H) (ra.valM P) (ra.valM R) i j| ≤ ra.covErr H P K EK i j) := by
  have hov : o.asRegular.Valid :=
    ⟨ho.H.valid, ho.z.valid, ho.R.valid, ho.y, ho.S, ho.K, ho.tempSInv, ho.tempHP, ho.tempPHt, ho.tempKHP⟩
  obtain ⟨y2, h2, h3, h4⟩ := Mat.subInplaceB_repsV ho.z he
  change o.z.subInplaceB out = .ok y2 at h2
  unfold ExtendedKalman.correctNonlinear ExtendedObservation.correctNonlinear at h
  simp only [hg, h2, res_bind_ok, xupdate_eq] at h
  obtain ⟨⟨_, o1, x1, P1⟩, hu, h⟩ := bind_ok h
  cases h
  obtain ⟨r, hr, hu⟩ := bind_ok hu
  cases hu
  cases hur : RegularObservation.updateWithInnovation bld { o.asRegular with y := y2 } f.x f.P with
  | error e =>
    have : (ExtendedObservation.asRegular { o with y := y2 }) = { o.asRegular with y := y2 } := rfl
    rw [this, hur] at hr; cases hr
  | ok r' =>
    obtain ⟨o2, x2, P2⟩ := r'
    have : (ExtendedObservation.asRegular { o with y := y2 }) = { o.asRegular with y := y2 } := rfl
    rw [this, hur] at hr; cases hr
    have hyv : y2.Valid := h3.valid
    obtain ⟨ey, L, M, W, K, x', P', r1, r2, r3, r4, r5, r6, r7, r8⟩ := update_rounding ra bld
      (o := { o.asRegular with y := y2 }) hn hm
      ⟨hov.H, hov.z, hov.R, hyv, hov.S, hov.K, hov.tempSInv, hov.tempHP, hov.tempPHt, hov.tempKHP⟩
      ho.H ho.R hf.P hf.x h3 hPs hRs hs hok hSe hur
    refine ⟨L, M, W, K, _, x', P', r1, r2, r3, r4, r5, by show o2.y.RepsV _; rw [show o2.y = y2 from ey]; exact h3, r6, r7, fun hLf hxf => ?_⟩
    obtain ⟨q1, q2, EK, q3, q4, q5, q6, q7⟩ := r8 hLf hxf
    have hy : ∀ i, |ra.val ((z - e) i) - (ra.val (z i) - ra.val (e i))| ≤ ra.u * |ra.val (z i) - ra.val (e i)| :=
      fun i => (ra.sub_err _ _ (q6 i)).2.2
    exact ⟨q1, _, EK, rfl, q3, q2, q4, hy, q5 _ _ fun _ => hy, q7⟩

/-- C74: the bounds vanish if nothing is rounded, so that the statements contain the exact correctness. -/
theorem C74_bounds_exact (ra : RoundedInverse T) (hu : ra.u = 0) (hη : ra.η = 0) (H : Matrix (Fin m) (Fin n) T)
    (P : Matrix (Fin n) (Fin n) T) (R S L M X : Matrix (Fin m) (Fin m) T) (K : Matrix (Fin n) (Fin m) T) (x : Fin n → T)
    (y z : Fin m → T) (Se : Matrix (Fin m) (Fin m) ℝ) :
    ra.inverseErr L M X = 0 ∧ ra.innovCovErr H P R = 0 ∧ ra.factoredErr H P R S L = 0 ∧ ra.innovInvErr H P R S L M X Se = 0 ∧
      ra.gainErr H P X 0 = 0 ∧ ra.covErr H P K 0 = 0 ∧ ra.innovErr H x z = 0 ∧ ra.stateErr K x y 0 0 = 0 := by
  have hγ : ∀ k, ra.γ k = 0 := fun k => by simp [Rounded.γ, hu]
  have hδ : ∀ k, ra.δ k = 0 := fun k => by simp [Rounded.δ, hη]
  have hc : ∀ k B q, ra.cholBound k B q = 0 := fun k B q => by simp [RoundedRoots.cholBound, hγ, hδ, hη]
  have h1 : ra.factorErr L M = 0 := by ext i j; simp [RoundedInverse.factorErr, hc]
  have h2 : ra.solveErr L M X = 0 := by ext i j; simp [RoundedInverse.solveErr, hc]
  have h3 : ra.inverseErr L M X = 0 := by ext i j; simp [RoundedInverse.inverseErr, h1, h2]
  have h4 : ra.innovCovErr H P R = 0 := by ext i j; simp [RoundedInverse.innovCovErr, hγ, hδ, hu]
  have h5 : ra.factoredErr H P R S L = 0 := by ext i j; simp [RoundedInverse.factoredErr, h4, hc]
  refine ⟨h3, h4, h5, ?_, ?_, ?_, ?_, ?_⟩
  · simp [RoundedInverse.innovInvErr, h3, h5]
  · ext i j; simp [RoundedInverse.gainErr, hγ, hδ]
  · ext i j; simp [RoundedInverse.covErr, hγ, hδ, hu]
  · funext i; simp [RoundedInverse.innovErr, hγ, hδ, hu]
  · funext i; simp [RoundedInverse.stateErr, hγ, hδ, hu]

/-! ## Non-vacuity -/

/-- The checked fixed point numbers have all that is required. -/
noncomputable def Checked.roundedInverse : RoundedInverse Checked where
  toRoundedRoots := Checked.roundedRoots
  fin_one := rfl
  val_one := by
    show Checked.val 1 = 1
    simp [Checked.val, show (1 : Checked).bits = some 65536 from rfl]
  neg_err a h := by
    obtain ⟨a⟩ := a
    cases a with
    | none => cases h
    | some x =>
      refine ⟨rfl, ?_⟩
      have h' : (Checked.chk (-x)).isSome := h
      obtain ⟨w, hw⟩ := Option.isSome_iff_exists.mp h'
      have e := Checked.chk_some hw
      show Checked.val ⟨Checked.chk (-x)⟩ = -Checked.val ⟨some x⟩
      rw [hw, e]
      simp only [Checked.val, Option.getD_some]
      push_cast
      ring
  isum_eq := ⟨0, rfl, by simp [Checked.roundedRoots, Checked.rounded, Checked.val, show (0 : Checked).bits = some 0 from rfl],
    fun _ => rfl⟩

/-- Two states. -/
def Ex.checkedFilter2 : RegularKalman 2 Checked where
  x := ⟨[.of 65536, .of 131072]⟩
  A := ⟨[.of 65536, .of 6554, 0, .of 65536]⟩
  P := ⟨[.of 65536, .of 6554, .of 6554, .of 65536]⟩
  Q := ⟨[.of 655, 0, 0, .of 655]⟩
  predictedX := ⟨[0, 0]⟩
  tempP := ⟨[0, 0, 0, 0]⟩

/-- Both states are measured. -/
def Ex.checkedObs : RegularObservation 2 2 Checked where
  H := ⟨[.of 65536, 0, .of 32768, .of 65536]⟩
  z := ⟨[.of 70000, .of 150000]⟩
  R := ⟨[.of 65536, 0, 0, .of 65536]⟩
  y := ⟨[0, 0]⟩
  S := ⟨[0, 0, 0, 0]⟩
  K := ⟨[0, 0, 0, 0]⟩
  tempSInv := ⟨[0, 0, 0, 0]⟩
  tempHP := ⟨[0, 0, 0, 0]⟩
  tempPHt := ⟨[0, 0, 0, 0]⟩
  tempKHP := ⟨[0, 0, 0, 0]⟩

/-- What the buffer for `S` holds before the decomposition. -/
def Ex.checkedS : Mat 2 2 Checked := ⟨[.of 131072, .of 39322, .of 39322, .of 154010]⟩

/-- All hypotheses of `C74_correct_rounding` are met and all results are finite. The numbers really are rounded: the exact
covariance is symmetric, the computed one is not (`-5961` and `-5960`). -/
example :
    Ex.checkedFilter2.Reps ![.of 65536, .of 131072] !![.of 65536, .of 6554; 0, .of 65536]
      !![.of 65536, .of 6554; .of 6554, .of 65536] !![.of 655, 0; 0, .of 655] ∧
    Ex.checkedObs.Reps !![.of 65536, 0; .of 32768, .of 65536] ![.of 70000, .of 150000] !![.of 65536, 0; 0, .of 65536] ∧
    Ex.checkedS.Reps (Spec.mulSeq (Spec.mulSeq !![.of 65536, 0; .of 32768, .of 65536]
      !![.of 65536, .of 6554; .of 6554, .of 65536]) !![.of 65536, 0; .of 32768, .of 65536]ᵀ + !![.of 65536, 0; 0, .of 65536]) ∧
    Ex.checkedS.choleskyDecomposeLower ⟨true, false⟩ = .ok (⟨[.of 92681, 0, .of 27804, .of 96541]⟩, true) ∧
    (Ex.checkedFilter2.correct ⟨true, false⟩ Ex.checkedObs).map
        (fun r => (r.1.x.data, r.1.P.data, r.2.S.data, r.2.tempSInv.data, r.2.K.data)) =
      .ok ([.of 65669, .of 124160], [.of 30053, .of (-5961), .of (-5960), .of 33791], [.of 92681, 0, .of 27804, .of 96541],
        [.of 35486, .of (-9061), .of (-9061), .of 30199], [.of 30049, .of 9058, .of (-5967), .of 30802]) := by
  refine ⟨⟨?_, ?_, ?_, ?_, Nat.le_refl _, Nat.le_refl _⟩,
    ⟨?_, ?_, ?_, Nat.le_refl _, Nat.le_refl _, Nat.le_refl _, Nat.le_refl _, Nat.le_refl _, Nat.le_refl _, Nat.le_refl _⟩,
    ?_, by decide +kernel, by decide +kernel⟩
  · intro i; fin_cases i <;> rfl
  · intro i j; fin_cases i <;> fin_cases j <;> rfl
  · intro i j; fin_cases i <;> fin_cases j <;> rfl
  · intro i j; fin_cases i <;> fin_cases j <;> rfl
  · intro i j; fin_cases i <;> fin_cases j <;> rfl
  · intro i; fin_cases i <;> rfl
  · intro i j; fin_cases i <;> fin_cases j <;> rfl
  · intro i j; fin_cases i <;> fin_cases j <;> decide +kernel

/-- The exact residual covariance of the example is invertible. -/
example : IsUnit (Spec.innovCov (Checked.roundedInverse.valM !![.of 65536, 0; .of 32768, .of 65536])
    (Checked.roundedInverse.valM !![.of 65536, .of 6554; .of 6554, .of 65536])
    (Checked.roundedInverse.valM !![.of 65536, 0; 0, .of 65536])).det := by
  have hv : ∀ A : Matrix (Fin 2) (Fin 2) Checked, Checked.roundedInverse.valM A =
      !![Checked.val (A 0 0), Checked.val (A 0 1); Checked.val (A 1 0), Checked.val (A 1 1)] := fun A => by
    ext i j; fin_cases i <;> fin_cases j <;> rfl
  have h0 : Checked.val 0 = 0 := by simp [Checked.val, show (0 : Checked).bits = some 0 from rfl]
  have h1 : ∀ z, Checked.val (.of z) = z / 65536 := fun z => rfl
  rw [isUnit_iff_ne_zero, hv, hv, hv, Matrix.det_fin_two]
  simp [Spec.innovCov, h0, h1, Matrix.vecMul, dotProduct, Fin.sum_univ_two]
  norm_num

end Minikalman
