import Verif.Proofs.Stochastic

/-!
# Properties C61 to C65: what the reported numbers mean

The program is run in a random world (`Verif/Spec/Stochastic.lean`): all statements are about arbitrarily long histories of
`predict`, `control`, `correct` (with any observations) and changes of the matrices in between, in exact arithmetic.
-/

set_option linter.unusedSectionVars false

namespace Minikalman

open Matrix MeasureTheory

variable {Ω : Type} {k l n m : Nat} [MDT ℝ] [ExactReal] [MeasurableSpace Ω] {μ : Measure Ω}

/-- C61: if the disturbances have the covariances the filter is told and are uncorrelated with each other and the first error,
and the first covariance is the true one, the covariance reported is that of the error of the estimate at all times. -/
theorem C61_reported_covariance {bld : Build} {e e' : Ens Ω n} {N Z} (hn : 0 < n) (h : Ens.Run bld False e N Z e')
    (he : SqInt μ e.error) (hP : e.Reports (moment μ e.error e.error)) (hN : White μ N)
    (hu : ∀ ν ∈ N, Uncorrelated μ e.error ν.val) :
    SqInt μ e'.error ∧ e'.Reports (moment μ e'.error e'.error) :=
  run_honest hn h hP he rfl hN hu

/-- C61: if the first error and all disturbances have mean zero, the estimate is unbiased at all times, whatever covariances
the filter is told (as long as they are positive semidefinite) and however the disturbances are correlated. -/
theorem C61_unbiased [IsFiniteMeasure μ] {bld : Build} {tuned : Prop} {e e' : Ens Ω n} {N Z} (hn : 0 < n)
    (h : Ens.Run bld tuned e N Z e') {P : Matrix (Fin n) (Fin n) ℝ} (hP : e.Reports P) (hp : P.PosSemidef)
    (hcov : ∀ ν ∈ N, ν.cov.PosSemidef) (he : SqInt μ e.error) (hsq : ∀ ν ∈ N, SqInt μ ν.val)
    (h0 : ZeroMean μ e.error) (hN : ∀ ν ∈ N, ZeroMean μ ν.val) : ZeroMean μ e'.error := by
  have := (run_uncorrelated hn h hP hp hcov hsq he (d := fun _ (_ : Fin 1) => (1 : ℝ)) (fun _ => memLp_const 1)
    (fun i _ => by simpa using h0 i) fun ν hν i _ => by simpa using hN ν hν i).2
  intro i
  simpa using this i 0

/-- C62: if the covariances told to the filter are not smaller than the true ones, the reported covariance is at all times not
smaller than that of the error, also with `predict_tuned`. -/
theorem C62_conservative {bld : Build} {e e' : Ens Ω n} {N Z} (hn : 0 < n) (h : Ens.Run bld True e N Z e')
    {P : Matrix (Fin n) (Fin n) ℝ} (hP : e.Reports P) (he : SqInt μ e.error)
    (hc : (P - moment μ e.error e.error).PosSemidef) (hN : WhiteAtMost μ N)
    (hu : ∀ ν ∈ N, Uncorrelated μ e.error ν.val) :
    ∃ P', e'.Reports P' ∧ SqInt μ e'.error ∧ (P' - moment μ e'.error e'.error).PosSemidef :=
  let ⟨P', h1, _, h3, h4⟩ := run_conservative hn h hP he hc hN hu
  ⟨P', h1, h3, h4⟩

/-- The contents of the innovation buffers. -/
def innovations {m : Nat} (o : Ω → RegularObservation n m ℝ) (ω : Ω) : Fin m → ℝ := Spec.vecOf (o ω).y.data

theorem innovations_eq {o : Ω → RegularObservation n m ℝ} {y : Ω → Fin m → ℝ} (h : ∀ ω, (o ω).y.RepsV (y ω)) :
    innovations o = y := by
  funext ω i
  simp [innovations, Spec.vecOf, h ω i]

section Innovation

variable {bld : Build} {e e₁ e₂ e₃ e₄ : Ens Ω n} {N₁ N₂ Z₁ Z₂} {m' : Nat} {H : Matrix (Fin m) (Fin n) ℝ} {R v o o'}
  {H' : Matrix (Fin m') (Fin n) ℝ} {R' v' p p'}

/-- C63: after a history, the innovations a correction leaves in the innovation buffer have the covariance whose Cholesky
factor the correction leaves in the residual covariance buffer. -/
theorem C63_innovation_covariance (hn : 0 < n) (h : Ens.Run bld False e N₁ Z₁ e₁) (hc : e₁.Corrects bld H R v o o' e₂)
    (he : SqInt μ e.error) (hP : e.Reports (moment μ e.error e.error)) (hN : White μ (N₁ ++ [⟨m, v, R⟩]))
    (hu : ∀ ν ∈ N₁ ++ [⟨m, v, R⟩], Uncorrelated μ e.error ν.val) (ω : Ω) :
    ∃ L : Matrix (Fin m) (Fin m) ℝ, (o' ω).S.Reps L ∧ (∀ i j, i < j → L i j = 0) ∧ (∀ i, 0 < L i i) ∧
      moment μ (innovations o') (innovations o') = L * Lᵀ := by
  have hN₁ : White μ N₁ := ⟨fun ν hν => hN.sq ν (List.mem_append_left _ hν), fun ν hν => hN.cov ν (List.mem_append_left _ hν),
    (List.pairwise_append.mp hN.pairwise).1⟩
  obtain ⟨g1, g2⟩ := run_honest hn h hP he rfl hN₁ fun ν hν => hu ν (List.mem_append_left _ hν)
  have hνm : (⟨m, v, R⟩ : Noise Ω) ∈ N₁ ++ [⟨m, v, R⟩] := List.mem_append_right _ (List.mem_singleton_self _)
  have hv : SqInt μ v := hN.sq _ hνm
  have hcov : ∀ ν ∈ N₁, ν.cov.PosSemidef := fun ν hν => hN₁.cov ν hν ▸ moment_psd (hN₁.sq ν hν)
  have hev := (run_uncorrelated hn h hP (moment_psd he) hcov hN₁.sq he hv (hu _ hνm)
    fun ν hν => (List.pairwise_append.mp hN.pairwise).2.2 ν hν _ (List.mem_singleton_self _)).2
  obtain ⟨_, _, _, h4, h5⟩ := corrects_effect hn hc g2 (moment_psd g1)
  obtain ⟨L, l1, l2, l3, l4⟩ := h5 ω
  refine ⟨L, l1, l2, l3, ?_⟩
  rw [innovations_eq h4, innovation_cov g1 hv hev, l4, show moment μ v v = R from hN.cov _ hνm]

/-- C63: the innovations of different corrections are uncorrelated, and so are the error after the second correction and the
innovations of the first. -/
theorem C63_innovations_white (hn : 0 < n) (h₁ : Ens.Run bld False e N₁ Z₁ e₁) (hc : e₁.Corrects bld H R v o o' e₂)
    (h₂ : Ens.Run bld False e₂ N₂ Z₂ e₃) (hc' : e₃.Corrects bld H' R' v' p p' e₄) (he : SqInt μ e.error)
    (hP : e.Reports (moment μ e.error e.error)) (hN : White μ (N₁ ++ (⟨m, v, R⟩ :: N₂ ++ [⟨m', v', R'⟩])))
    (hu : ∀ ν ∈ N₁ ++ (⟨m, v, R⟩ :: N₂ ++ [⟨m', v', R'⟩]), Uncorrelated μ e.error ν.val) :
    Uncorrelated μ (innovations o') (innovations p') ∧ Uncorrelated μ e₄.error (innovations o') := by
  have hpw := List.pairwise_append.mp hN.pairwise
  have hpw2 := List.pairwise_append.mp hpw.2.1
  have hpw3 := List.pairwise_cons.mp hpw2.1
  have hl : ∀ ν ∈ N₁, ν ∈ N₁ ++ (⟨m, v, R⟩ :: N₂ ++ [⟨m', v', R'⟩]) := fun ν hν => List.mem_append_left _ hν
  have hv2 : (⟨m, v, R⟩ : Noise Ω) ∈ ⟨m, v, R⟩ :: N₂ ++ [⟨m', v', R'⟩] := List.mem_append_left _ List.mem_cons_self
  have hr2 : ∀ ν ∈ N₂, ν ∈ ⟨m, v, R⟩ :: N₂ ++ [⟨m', v', R'⟩] := fun ν hν => List.mem_append_left _ (List.mem_cons_of_mem _ hν)
  have hv2' : (⟨m', v', R'⟩ : Noise Ω) ∈ ⟨m, v, R⟩ :: N₂ ++ [⟨m', v', R'⟩] :=
    List.mem_append_right _ (List.mem_singleton_self _)
  have hvm := List.mem_append_right N₁ hv2
  have hvm' := List.mem_append_right N₁ hv2'
  have hr := fun ν hν => List.mem_append_right N₁ (hr2 ν hν)
  have psd : ∀ ν ∈ N₁ ++ (⟨m, v, R⟩ :: N₂ ++ [⟨m', v', R'⟩]), ν.cov.PosSemidef := fun ν hν =>
    hN.cov ν hν ▸ moment_psd (hN.sq ν hν)
  obtain ⟨g1, g2⟩ := run_honest hn h₁ hP he rfl ⟨fun ν hν => hN.sq ν (hl ν hν), fun ν hν => hN.cov ν (hl ν hν), hpw.1⟩
    fun ν hν => hu ν (hl ν hν)
  have u1 : ∀ ν ∈ (⟨m, v, R⟩ :: N₂ ++ [⟨m', v', R'⟩]), Uncorrelated μ e₁.error ν.val := fun ν hν =>
    (run_uncorrelated hn h₁ hP (moment_psd he) (fun ν hν => psd ν (hl ν hν)) (fun ν hν => hN.sq ν (hl ν hν)) he
      (hN.sq ν (List.mem_append_right _ hν)) (hu ν (List.mem_append_right _ hν)) fun ν' hν' => hpw.2.2 ν' hν' ν hν).2
  have hv : SqInt μ v := hN.sq _ hvm
  have hv' : SqInt μ v' := hN.sq _ hvm'
  have hev : Uncorrelated μ e₁.error v := u1 _ hv2
  have hp1 := moment_psd g1
  obtain ⟨a1, _, a3, a4, _⟩ := corrects_effect hn hc g2 hp1
  have hR : moment μ v v = R := hN.cov _ hvm
  have hy := (g1.mulVec H).add hv
  have hS := pd_det (innovCov_pd (H := H) hp1 hc.noise)
  have o1 := innovation_orth g1 hv hev rfl hR hS
  rw [← funext a3] at o1
  have s2 : SqInt μ e₂.error := by
    rw [funext a3]
    exact (g1.mulVec _).add (hv.mulVec _)
  have yN : ∀ ν ∈ N₂ ++ [⟨m', v', R'⟩], Uncorrelated μ ν.val (fun ω => H *ᵥ e₁.error ω + v ω) := by
    intro ν hν
    have hm2 : ν ∈ ⟨m, v, R⟩ :: N₂ ++ [⟨m', v', R'⟩] := List.mem_cons_of_mem _ hν
    have hd : Uncorrelated μ v ν.val := by
      rcases List.mem_append.mp hν with hν | hν
      · exact hpw3.1 ν hν
      · exact hpw2.2.2 _ List.mem_cons_self ν hν
    have := Uncorrelated.step g1 hv (hN.sq ν (List.mem_append_right _ hm2)) (u1 ν hm2) hd H 1
    simp only [Matrix.one_mulVec] at this
    exact this.symm
  obtain ⟨s3, o3⟩ := run_uncorrelated hn h₂ a1 (corrP_psd hp1 hc.noise.posSemidef hS)
    (fun ν hν => psd ν (hr ν hν)) (fun ν hν => hN.sq ν (hr ν hν)) s2 hy o1 fun ν hν => yN ν (List.mem_append_left _ hν)
  have r2 := Ens.Run.cons (Ens.Step.correct (tuned := False) hc) h₂
  obtain ⟨_, k2⟩ := run_honest hn r2 g2 g1 rfl ⟨fun ν hν => hN.sq ν (List.mem_append_right _ (List.mem_append_left _ hν)),
    fun ν hν => hN.cov ν (List.mem_append_right _ (List.mem_append_left _ hν)), hpw2.1⟩
    fun ν hν => u1 ν (List.mem_append_left _ hν)
  obtain ⟨_, _, b3, b4, _⟩ := corrects_effect hn hc' k2 (moment_psd s3)
  have v'y := yN _ (List.mem_append_right _ (List.mem_singleton_self _))
  rw [innovations_eq a4, innovations_eq b4]
  refine ⟨?_, ?_⟩
  · have := Uncorrelated.step s3 hv' hy o3 v'y H' 1
    simp only [Matrix.one_mulVec] at this
    exact this.symm
  · rw [funext b3]
    exact Uncorrelated.step s3 hv' hy o3 v'y _ _

end Innovation

/-- C64: the estimate is the best linear one. It is an affine function of the first estimate and all measurements, and no other
affine function of these has a smaller error covariance (in the sense of positive semidefinite matrices), so in particular no
smaller mean square error in any component. Control inputs may be fed back. -/
theorem C64_best_linear_estimate [IsFiniteMeasure μ] {bld : Build} {e e' : Ens Ω n} {N Z} (hn : 0 < n)
    (h : Ens.Run bld False e N Z e') (hcl : Causal e.initiallyKnown Z)
    (he : SqInt μ e.error) (hx : SqInt μ e.est) (hP : e.Reports (moment μ e.error e.error))
    (h0 : ZeroMean μ e.error) (hex : Uncorrelated μ e.error e.est) (hN : White μ N)
    (hz : ∀ ν ∈ N, ZeroMean μ ν.val) (hu : ∀ ν ∈ N, Uncorrelated μ e.error ν.val)
    (hux : ∀ ν ∈ N, Uncorrelated μ e.est ν.val) :
    (∀ i, (fun ω => e'.est ω i) ∈ known e.initiallyKnown Z) ∧
    ∀ ξ : Ω → Fin n → ℝ, (∀ i, (fun ω => ξ ω i) ∈ known e.initiallyKnown Z) →
      (moment μ (fun ω => e'.truth ω - ξ ω) (fun ω => e'.truth ω - ξ ω) - moment μ e'.error e'.error).PosSemidef ∧
      ∀ i, ∫ ω, (e'.truth ω i - e'.est ω i) ^ 2 ∂μ ≤ ∫ ω, (e'.truth ω i - ξ ω i) ^ 2 ∂μ := by
  have key : ∀ {c : Nat} {a : Ω → Fin c → ℝ} (ha : SqInt μ a), ZeroMean μ a → Uncorrelated μ a e.est →
      e.initiallyKnown ≤ orthTo a ha := by
    intro c a ha h1 h2
    refine Submodule.span_le.mpr ?_
    rintro f (rfl | ⟨i, rfl⟩)
    · exact ⟨memLp_const 1, fun i => by simpa using h1 i⟩
    · exact ⟨hx i, fun j => h2 j i⟩
  have ho : Optimal μ e e.initiallyKnown (N ++ []) := by
    rw [List.append_nil]
    exact ⟨he, hP, hN, hu, fun i => Submodule.subset_span (Or.inr ⟨i, rfl⟩), key he h0 hex,
      fun ν hν => key _ (hz ν hν) (hux ν hν).symm⟩
  have ho' := run_optimal hn h ho hcl
  refine ⟨ho'.est, fun ξ hξ => ?_⟩
  have hb := optimal_best ho' hξ
  refine ⟨hb, fun i => ?_⟩
  have := hb.diag_nonneg (i := i)
  rw [Matrix.sub_apply, sub_nonneg] at this
  simpa only [pow_two, moment, Matrix.of_apply, Ens.error, Pi.sub_apply] using this

/-- C65: in a world without disturbances, an exact estimate stays exact. -/
theorem C65_exact_tracking {bld : Build} {e e' : Ens Ω n} {N Z} (hn : 0 < n) (h : Ens.Run bld True e N Z e')
    {P : Matrix (Fin n) (Fin n) ℝ} (hP : e.Reports P) (hp : P.PosSemidef) (hcov : ∀ ν ∈ N, ν.cov.PosSemidef)
    (h0 : ∀ ν ∈ N, ∀ ω, ν.val ω = 0) (he : ∀ ω, e.est ω = e.truth ω) : ∀ ω, e'.est ω = e'.truth ω :=
  run_exact hn h hP hp hcov h0 he

/-! ## Non-vacuity -/

/-- Any filter with valid buffers and a positive semidefinite covariance can take a `predict` step. -/
theorem predict_possible {bld : Build} {tuned : Prop} {e : Ens Ω n} {P A Q : Matrix (Fin n) (Fin n) ℝ} (hn : 0 < n)
    (hP : e.Reports P) (hA : ∀ ω, (e.kf ω).A.Reps A) (hQ : ∀ ω, (e.kf ω).Q.Reps Q) (w : Ω → Fin n → ℝ) :
    ∃ e', Ens.Step bld tuned e [⟨n, w, Q⟩] [] e' ∧ e'.Reports (Spec.predP A P Q) ∧ ∀ ω, e'.est ω = A *ᵥ e.est ω := by
  choose kf' h1 h2 _ using fun ω => predict_exact hn (kf_reps (hP ω).1 (hA ω) (hP ω).2 (hQ ω))
  refine ⟨_, .predict w hA hQ h1, ?_⟩
  exact reports_of (e' := ⟨kf', _⟩) fun ω => ⟨_, _, h2 ω⟩

/-- ... and a `correct` step with any observation whose noise covariance is positive definite. -/
theorem correct_possible {bld : Build} {e : Ens Ω n} {P : Matrix (Fin n) (Fin n) ℝ} (hn : 0 < n) (hm : 0 < m)
    (hP : e.Reports P) (hp : P.PosSemidef) {H : Matrix (Fin m) (Fin n) ℝ} {R : Matrix (Fin m) (Fin m) ℝ} (hR : R.PosDef)
    (v : Ω → Fin m → ℝ) {o : Ω → RegularObservation n m ℝ} (ho : ∀ ω, (o ω).Reps H (H *ᵥ e.truth ω + v ω) R) :
    ∃ o' e', e.Corrects bld H R v o o' e' := by
  choose kf' o' h1 h2 using fun ω =>
    kcorrect_exact bld hn hm (kf_reps (hP ω).1 (hP ω).1.A.reps (hP ω).2 (hP ω).1.Q.reps) (ho ω) (innovCov_pd (H := H) hp hR)
  exact ⟨o', ⟨kf', e.truth⟩, hm, hR, ho, h1, fun _ => rfl⟩

/-- Three fair coins. -/
abbrev Ex.Coins := Bool × Bool × Bool

/-- The fair measure. -/
noncomputable def Ex.fair : Measure Ex.Coins := (8⁻¹ : NNReal) • Measure.count

instance : IsFiniteMeasure Ex.fair := by unfold Ex.fair; infer_instance

/-- `1` or `-1`. -/
def Ex.sign (b : Bool) : ℝ := if b then 1 else -1

theorem Ex.fair_integral (f : Ex.Coins → ℝ) : ∫ ω, f ω ∂Ex.fair = 8⁻¹ * ∑ ω, f ω := by
  rw [Ex.fair, integral_smul_nnreal_measure, integral_count]
  rfl

/-- One state which is `1` or `-1`; the estimate is `0` with variance `1`. -/
noncomputable def Ex.coinEns : Ens Ex.Coins 1 where
  kf := fun _ => ⟨⟨[0]⟩, ⟨[1]⟩, ⟨[1]⟩, ⟨[1]⟩, ⟨[7]⟩, ⟨[7]⟩⟩
  truth := fun ω _ => Ex.sign ω.1

/-- An observation holding the measurement `z`. -/
def Ex.coinObs (z : Fin 1 → ℝ) : RegularObservation 1 1 ℝ := ⟨⟨[1]⟩, ⟨[z 0]⟩, ⟨[1]⟩, ⟨[7]⟩, ⟨[7]⟩, ⟨[7]⟩, ⟨[7]⟩, ⟨[7]⟩, ⟨[7]⟩, ⟨[7]⟩⟩

theorem Ex.coinEns_est (ω : Ex.Coins) : Ex.coinEns.est ω = 0 := by
  funext i; fin_cases i; rfl

theorem Ex.coinEns_error : Ex.coinEns.error = fun ω _ => Ex.sign ω.1 := by
  funext ω i
  rw [Ens.error, Ex.coinEns_est, sub_zero]
  rfl

theorem Ex.coinEns_reports : Ex.coinEns.Reports 1 := by
  refine fun ω => ⟨⟨Nat.le_refl _, Nat.le_refl _, Nat.le_refl _, Nat.le_refl _, Nat.le_refl _, Nat.le_refl _⟩, ?_⟩
  intro i j; fin_cases i; fin_cases j; rfl

theorem Ex.coinObs_reps (z : Fin 1 → ℝ) : (Ex.coinObs z).Reps 1 z 1 := by
  refine ⟨?_, ?_, ?_, Nat.le_refl _, Nat.le_refl _, Nat.le_refl _, Nat.le_refl _, Nat.le_refl _, Nat.le_refl _,
    Nat.le_refl _⟩
  all_goals intro i; fin_cases i
  all_goals first | rfl | (intro j; fin_cases j; rfl)

/-- The noises of a prediction and a correction. -/
noncomputable def Ex.coinNoises : List (Noise Ex.Coins) :=
  [⟨1, fun ω _ => Ex.sign ω.2.1, 1⟩, ⟨1, fun ω _ => Ex.sign ω.2.2, 1⟩]

theorem Ex.coin_sum (f : Ex.Coins → ℝ) : ∑ ω, f ω =
    f (true, true, true) + f (true, true, false) + (f (true, false, true) + f (true, false, false)) +
    (f (false, true, true) + f (false, true, false) + (f (false, false, true) + f (false, false, false))) := by
  simp only [Fintype.sum_prod_type, Fintype.sum_bool]

/-- A prediction and a correction; all assumptions of the theorems above are met, the disturbances are not zero, the reported
variance goes from `1` to `2` to `2/3`. -/
theorem Ex.coin_run (bld : Build) : ∃ Z e', Ens.Run bld False Ex.coinEns Ex.coinNoises Z e' ∧ Z.length = 1 ∧
    Causal Ex.coinEns.initiallyKnown Z ∧ SqInt Ex.fair Ex.coinEns.error ∧ SqInt Ex.fair Ex.coinEns.est ∧
    Ex.coinEns.Reports (moment Ex.fair Ex.coinEns.error Ex.coinEns.error) ∧ ZeroMean Ex.fair Ex.coinEns.error ∧
    Uncorrelated Ex.fair Ex.coinEns.error Ex.coinEns.est ∧ White Ex.fair Ex.coinNoises ∧
    (∀ ν ∈ Ex.coinNoises, ZeroMean Ex.fair ν.val ∧ Uncorrelated Ex.fair Ex.coinEns.error ν.val ∧
      Uncorrelated Ex.fair Ex.coinEns.est ν.val) ∧ e'.Reports !![(2 / 3 : ℝ)] := by
  obtain ⟨e₁, h1, h2, h3⟩ := predict_possible (bld := bld) (tuned := False) (e := Ex.coinEns) (A := 1) (Q := 1) (by decide)
    Ex.coinEns_reports (fun ω i j => by fin_cases i; fin_cases j; rfl) (fun ω i j => by fin_cases i; fin_cases j; rfl)
    (fun ω _ => Ex.sign ω.2.1)
  have hp : (Spec.predP (1 : Matrix (Fin 1) (Fin 1) ℝ) 1 1).PosSemidef :=
    predP_psd Matrix.PosSemidef.one Matrix.PosSemidef.one
  obtain ⟨o', e₂, h4⟩ := correct_possible (bld := bld) (H := 1) (R := 1) (by decide) (by decide) h2 hp Matrix.PosDef.one
    (fun ω _ => Ex.sign ω.2.2) (o := fun ω => Ex.coinObs _) fun ω => Ex.coinObs_reps _
  have hr := Ens.Run.cons h1 (Ens.Run.cons (Ens.Step.correct (tuned := False) h4) (Ens.Run.nil _))
  have h5 := (corrects_effect (by decide) h4 h2 hp).1
  refine ⟨_, e₂, hr, rfl, ⟨trivial, ?_⟩⟩
  have sq : ∀ {c : Nat} (a : Ex.Coins → Fin c → ℝ), SqInt Ex.fair a := fun a i => MemLp.of_discrete
  refine ⟨sq _, sq _, ?_, ?_, ?_, ⟨fun ν _ => sq _, ?_, ?_⟩, ?_, ?_⟩
  · have : moment Ex.fair Ex.coinEns.error Ex.coinEns.error = 1 := by
      ext i j; fin_cases i; fin_cases j
      simp [moment, Ex.coinEns_error, Ex.fair_integral, Ex.coin_sum, Ex.sign]
      norm_num
    rw [this]; exact Ex.coinEns_reports
  · intro i
    simp [Ex.coinEns_error, Ex.fair_integral, Ex.coin_sum, Ex.sign]
    norm_num
  · intro i j
    simp [Ex.coinEns_est]
  · intro ν hν
    simp only [Ex.coinNoises, List.mem_cons, List.not_mem_nil, or_false] at hν
    rcases hν with rfl | rfl
    all_goals
      ext i j; fin_cases i; fin_cases j
      simp [moment, Ex.fair_integral, Ex.coin_sum, Ex.sign]
      norm_num
  · simp [Ex.coinNoises, Uncorrelated, Ex.fair_integral, Ex.coin_sum, Ex.sign]
  · intro ν hν
    simp only [Ex.coinNoises, List.mem_cons, List.not_mem_nil, or_false] at hν
    rcases hν with rfl | rfl
    all_goals
      simp [ZeroMean, Uncorrelated, Ex.coinEns_error, Ex.coinEns_est, Ex.fair_integral, Ex.coin_sum, Ex.sign]
  · have : Spec.corrP (1 : Matrix (Fin 1) (Fin 1) ℝ) (Spec.predP 1 1 1) 1 = !![(2 / 3 : ℝ)] := by
      ext i j; fin_cases i; fin_cases j
      simp [Spec.corrP, Spec.gain, Spec.innovCov, Spec.predP, Matrix.mul_apply]
      norm_num
    rw [← this]; exact h5

/-- In the coin world, the filter's error variance is `2/3`, and no affine function of the measurement has a smaller mean square
error. -/
example (bld : Build) : ∃ Z, ∃ e' : Ens Ex.Coins 1, Ens.Run bld False Ex.coinEns Ex.coinNoises Z e' ∧
    e'.Reports !![(2 / 3 : ℝ)] ∧ ∀ ξ : Ex.Coins → Fin 1 → ℝ,
      (∀ i, (fun ω => ξ ω i) ∈ known Ex.coinEns.initiallyKnown Z) →
      ∫ ω, (e'.truth ω 0 - e'.est ω 0) ^ 2 ∂Ex.fair ≤ ∫ ω, (e'.truth ω 0 - ξ ω 0) ^ 2 ∂Ex.fair := by
  obtain ⟨Z, e', h1, _, h2, h3, h4, h5, h6, h7, h8, h9, h10⟩ := Ex.coin_run bld
  refine ⟨Z, e', h1, h10, fun ξ hξ => ?_⟩
  exact ((C64_best_linear_estimate (by decide) h1 h2 h3 h4 h5 h6 h7 h8 (fun ν hν => (h9 ν hν).1) (fun ν hν => (h9 ν hν).2.1)
    fun ν hν => (h9 ν hν).2.2).2 ξ hξ).2 0

end Minikalman
