import Verif.Proofs.Steps
import Verif.Spec.Examples

/-!
# Properties C21 – C27, C42, C49: single filter steps

`f.Reps x A P Q`, `c.Reps B u Q`, `o.Reps H z R` say which matrices the objects hold (`Verif/Spec/Kalman.lean`, where the
textbook equations `Spec.predP`, `Spec.corrX`, ... are as well); temporaries may hold anything.
`f.Frame f'` says that model matrices, buffer lengths and surplus cells are untouched (`Verif/Spec/Filter.lean`).
-/

set_option linter.unusedSectionVars false

namespace Minikalman

open Matrix

variable {T : Type} {n l m : Nat}

/-! ## C21 -/

/-- C21, any arithmetic: the order of operations of `predict`. -/
theorem C21_predict_any_arithmetic [Zero T] [One T] [Add T] [Sub T] [Mul T] [Neg T] [MDT T]
    {f : RegularKalman n T} {x A P Q} (hn : 0 < n) (hf : f.Reps x A P Q) :
    ∃ f', f.predict = .ok f' ∧
      f'.Reps (Spec.mulVecSeq A x) A (Spec.mulSeq (Spec.mulSeq A P) Aᵀ + Q) Q ∧ f.Frame f' := by
  obtain ⟨f', h1, h2, h3, h4⟩ := predict_any hn hf.valid hf.x hf.A hf.P hf.Q
  exact ⟨f', h1, h4.reps hf h2 h3, h4⟩

/-- C21: `predict` sets `x = A x` and `P = A P Aᵀ + Q` in every commutative ring (and keeps `A`, `Q`). -/
theorem C21_predict [CommRing T] [MDT T] {f : RegularKalman n T} {x A P Q} (hn : 0 < n) (hf : f.Reps x A P Q) :
    ∃ f', f.predict = .ok f' ∧ f'.Reps (A *ᵥ x) A (A * P * Aᵀ + Q) Q ∧ f.Frame f' := by
  obtain ⟨f', h1, h2, h3⟩ := C21_predict_any_arithmetic hn hf
  rw [mulVecSeq_eq_mulVec, mulSeq_eq_mul, mulSeq_eq_mul] at h2
  exact ⟨f', h1, h2, h3⟩

/-- C21, the excluded edge: a filter without states panics. -/
theorem C21_predict_no_states_panics [Zero T] [One T] [Add T] [Sub T] [Mul T] [Neg T] [MDT T]
    (f : RegularKalman 0 T) (hx : f.x.data = []) : f.predict = .error .bounds := by
  unfold RegularKalman.predict RegularKalman.predictX Mat.multRowvector
  rw [hx]; rfl

example : (Ex.filter ℚ).Reps ![1, 2] !![1, 1; 0, 1] !![1, 0; 0, 1] !![1, 0; 0, 2] ∧
    (Ex.filter ℚ).predict = .ok { Ex.filter ℚ with
      x := ⟨[3, 2, 77]⟩, P := ⟨[3, 1, 1, 3, 78]⟩, predictedX := ⟨[3, 2]⟩, tempP := ⟨[1, 1, 0, 1]⟩ } :=
  ⟨Ex.filter_reps ℚ, by decide +kernel⟩

/-! ## C22 -/

/-- C22: `predict_tuned` with `λ ≠ 0` sets `x = A x` and `P = A P Aᵀ / λ² + Q`. -/
theorem C22_predictTuned [Field T] [MDT T] [ExactField T] {f : RegularKalman n T} {x A P Q} (hn : 0 < n)
    (lambda : T) (hl : lambda ≠ 0) (hf : f.Reps x A P Q) :
    ∃ f', f.predictTuned lambda = .ok f' ∧ f'.Reps (A *ᵥ x) A ((lambda ^ 2)⁻¹ • (A * P * Aᵀ) + Q) Q ∧ f.Frame f' :=
  predictTuned_exact hn lambda hl hf

/-- C22: in any arithmetic where the reciprocal of `1 * 1` is neutral for multiplication (floats included),
`predict_tuned(1)` is bit for bit `predict`. -/
theorem C22_predictTuned_one [Zero T] [One T] [Add T] [Sub T] [Mul T] [Neg T] [MDT T] {f : RegularKalman n T}
    (hn : 0 < n) (hf : f.Valid) {e : T} (he : MDT.recip ((1 : T) * 1) = .ok e) (hmul : ∀ a : T, a * e = a) :
    f.predictTuned 1 = f.predict := by
  obtain ⟨g, h1, _, _, h3, h4⟩ := predictX_any hn hf hf.x.repsV hf.A.reps
  have hg := h4.valid hf
  obtain ⟨a, a1, a2, a3, a4, a5, a6⟩ := predictP_any hg hg.A.reps hg.P.reps hg.Q.reps
  obtain ⟨b, b1, b2, b3, b4, b5, b6⟩ := predictPTuned_any hg 1 he hg.A.reps hg.P.reps hg.Q.reps
  unfold RegularKalman.predictTuned RegularKalman.predict
  rw [h1, res_bind_ok, res_bind_ok, a1, b1]
  congr 1
  have hP : b.P = a.P := by
    refine Mat.ext_of_reps b2 ?_ b6.P a6.P
    convert a2 using 1
    simp only [hmul]
    rfl
  have hT : b.tempP = a.tempP := Mat.ext_of_reps b5 a5 b6.tempP a6.tempP
  have e1 := b6.A.trans a6.A.symm
  have e2 := b6.Q.trans a6.Q.symm
  have e3 := b3.trans a3.symm
  have e4 := b4.trans a4.symm
  cases a; cases b; simp_all

/-- C22: a panic of `recip(λ²)` is passed on; nothing is silently computed. -/
theorem C22_predictTuned_panics [Zero T] [One T] [Add T] [Sub T] [Mul T] [Neg T] [MDT T] {f : RegularKalman n T}
    (hn : 0 < n) (hf : f.Valid) (lambda : T) {e : Panic} (he : MDT.recip (lambda * lambda) = .error e) :
    f.predictTuned lambda = .error e := predictTuned_error hn hf lambda he

example : (Ex.filter ℚ).predictTuned (1/2) = .ok { Ex.filter ℚ with
      x := ⟨[3, 2, 77]⟩, P := ⟨[9, 4, 4, 6, 78]⟩, predictedX := ⟨[3, 2]⟩, tempP := ⟨[1, 1, 0, 1]⟩ } ∧
    (Ex.filter ℚ).predictTuned 1 = (Ex.filter ℚ).predict ∧ (Ex.filter ℚ).predictTuned 0 = .error .arithmetic :=
  ⟨by decide +kernel, by decide +kernel, by decide +kernel⟩

/-! ## C23 -/

/-- C23: `control` adds `B u` to the state and `B Q Bᵀ` to the covariance, for every number of controls (zero
included), and changes nothing else but its temporary. -/
theorem C23_control [CommRing T] [MDT T] {f : RegularKalman n T} {c : Control n l T} {x A P Q B u Qc}
    (hf : f.Reps x A P Q) (hc : c.Reps B u Qc) :
    ∃ f' c', f.control c = .ok (f', c') ∧ f'.Reps (x + B *ᵥ u) A (P + B * Qc * Bᵀ) Q ∧ f.Frame f' ∧
      c.Frame c' ∧ c'.Reps B u Qc := control_exact hf hc

/-- C23: with zero controls nothing is changed at all, whatever the buffers. -/
theorem C23_control_empty [Zero T] [One T] [Add T] [Sub T] [Mul T] [Neg T] [MDT T] (f : RegularKalman n T)
    (c : Control n 0 T) : f.control c = .ok (f, c) := by
  unfold RegularKalman.control
  rw [control_empty (Or.inl rfl)]; rfl

/-- C23: the same without states. -/
theorem C23_control_no_states [Zero T] [One T] [Add T] [Sub T] [Mul T] [Neg T] [MDT T] (f : RegularKalman 0 T)
    (c : Control 0 l T) : f.control c = .ok (f, c) := by
  unfold RegularKalman.control
  rw [control_empty (Or.inr rfl)]; rfl

example : (Ex.control ℚ).Reps !![1; 2] ![3] !![1] ∧
    (Ex.filter ℚ).control (Ex.control ℚ) = .ok ({ Ex.filter ℚ with x := ⟨[4, 8, 77]⟩, P := ⟨[2, 2, 2, 5, 78]⟩ },
      { Ex.control ℚ with tempBQ := ⟨[1, 2]⟩ }) := ⟨Ex.control_reps ℚ, by decide +kernel⟩

/-! ## C24, C49 -/

/-- C24: if `S = H P Hᵀ + R` is positive definite, `correct` sets `x = x + K (z - H x)` and `P = P - K H P` with
`K = P Hᵀ S⁻¹`, and leaves the model matrices alone. -/
theorem C24_correct [MDT ℝ] [ExactReal] (bld : Build) {f : RegularKalman n ℝ} {o : RegularObservation n m ℝ}
    {x : Fin n → ℝ} {A P Q : Matrix (Fin n) (Fin n) ℝ} {H : Matrix (Fin m) (Fin n) ℝ} {z : Fin m → ℝ}
    {R S : Matrix (Fin m) (Fin m) ℝ} {K : Matrix (Fin n) (Fin m) ℝ} (hn : 0 < n) (hm : 0 < m)
    (hf : f.Reps x A P Q) (ho : o.Reps H z R) (hS : S = H * P * Hᵀ + R) (hpd : S.PosDef) (hK : K = P * Hᵀ * S⁻¹) :
    ∃ f' o', f.correct bld o = .ok (f', o') ∧ f'.Reps (x + K *ᵥ (z - H *ᵥ x)) A (P - K * H * P) Q ∧ f.Frame f' ∧
      o'.Reps H z R ∧ o.Frame o' := by
  subst hS hK
  obtain ⟨f', o', h1, h2, h3, h4, h5, _⟩ := kcorrect_exact bld hn hm hf ho hpd
  exact ⟨f', o', h1, h2, h3, h5, h4⟩

/-- C49: after such a `correct` the observation holds the innovation, the Cholesky factor of `S` (not `S`), `S⁻¹` and
the gain. -/
theorem C49_buffers_after_correct [MDT ℝ] [ExactReal] (bld : Build) {f : RegularKalman n ℝ}
    {o : RegularObservation n m ℝ} {x : Fin n → ℝ} {A P Q : Matrix (Fin n) (Fin n) ℝ}
    {H : Matrix (Fin m) (Fin n) ℝ} {z : Fin m → ℝ} {R S : Matrix (Fin m) (Fin m) ℝ} (hn : 0 < n) (hm : 0 < m)
    (hf : f.Reps x A P Q) (ho : o.Reps H z R) (hS : S = H * P * Hᵀ + R) (hpd : S.PosDef) :
    ∃ f' o', f.correct bld o = .ok (f', o') ∧ o'.y.RepsV (z - H *ᵥ x) ∧
      (∃ L : Matrix (Fin m) (Fin m) ℝ, o'.S.Reps L ∧ (∀ i j, i < j → L i j = 0) ∧ (∀ i, 0 < L i i) ∧ L * Lᵀ = S) ∧
      o'.tempSInv.Reps S⁻¹ ∧ S * S⁻¹ = 1 ∧ o'.K.Reps (P * Hᵀ * S⁻¹) ∧ o'.tempHP.Reps (H * P) ∧
      o'.tempPHt.Reps (P * Hᵀ) ∧ o'.tempKHP.Reps (P * Hᵀ * S⁻¹ * (H * P)) := by
  subst hS
  obtain ⟨o', x', P', h1, _, _, _, h5, h6, h7, h8, h9, h10, h11, _, _⟩ :=
    correct_exact bld hn hm ho.valid ho.H ho.R hf.P hf.x ho.z hpd
  refine ⟨{ f with x := x', P := P' }, o', ?_, h5, h6, h7,
    Matrix.mul_nonsing_inv _ ((Matrix.isUnit_iff_isUnit_det _).mp hpd.isUnit), h8, h9, h10, h11⟩
  unfold RegularKalman.correct
  rw [h1]; rfl

example : (Ex.filter ℝ).Reps ![1, 2] !![1, 1; 0, 1] !![1, 0; 0, 1] !![1, 0; 0, 2] ∧ (Ex.obs ℝ).Reps !![1, 0] ![5] !![3] ∧
    ((!![1, 0] : Matrix (Fin 1) (Fin 2) ℝ) * (!![1, 0; 0, 1] : Matrix (Fin 2) (Fin 2) ℝ) * (!![1, 0] : Matrix (Fin 1) (Fin 2) ℝ)ᵀ + !![3]).PosDef :=
  ⟨Ex.filter_reps ℝ, Ex.obs_reps ℝ, Ex.innovCov_posDef⟩

/-- The same step run on rational numbers: `K = (1/4, 0)`, the `S` buffer holds the factor `2`. -/
example : (Ex.filter ℚ).correct ⟨true, false⟩ (Ex.obs ℚ) =
    .ok ({ Ex.filter ℚ with x := ⟨[2, 2, 77]⟩, P := ⟨[3/4, 0, 0, 1, 78]⟩ },
      { Ex.obs ℚ with y := ⟨[4]⟩, S := ⟨[2, 79]⟩, K := ⟨[1/4, 0]⟩, tempSInv := ⟨[1/4]⟩, tempHP := ⟨[1, 0]⟩,
                      tempPHt := ⟨[1, 0]⟩, tempKHP := ⟨[1/4, 0, 0, 0]⟩ }) := by decide +kernel

/-! ## C25 -/

/-- Filter and observation with `S = diag(4, -1)`. -/
def badFilter : RegularKalman 2 ℚ where
  x := ⟨[0, 0]⟩
  A := ⟨[1, 0, 0, 1]⟩
  P := ⟨[1, 0, 0, 1]⟩
  Q := ⟨[0, 0, 0, 0]⟩
  predictedX := ⟨[0, 0]⟩
  tempP := ⟨[0, 0, 0, 0]⟩

/-- See `badFilter`. -/
def badObs : RegularObservation 2 2 ℚ where
  H := ⟨[1, 0, 0, 1]⟩
  z := ⟨[1, 1]⟩
  R := ⟨[3, 0, 0, -2]⟩
  y := ⟨[0, 0]⟩
  S := ⟨[0, 0, 0, 0]⟩
  K := ⟨[0, 0, 0, 0]⟩
  tempSInv := ⟨[0, 0, 0, 0]⟩
  tempHP := ⟨[0, 0, 0, 0]⟩
  tempPHt := ⟨[0, 0, 0, 0]⟩
  tempKHP := ⟨[0, 0, 0, 0]⟩

/-- C25 refuted: with the indefinite `S = diag(4, -1)` the decomposition fails, yet `correct` returns normally and
writes the state `(1/4, 4)` and the covariance `diag(3/4, -3)`; the textbook update would give the state `(1/4, -1)`
and the covariance `diag(3/4, 2)`. So the failure is neither signalled nor is the filter left alone. -/
theorem C25_failed_cholesky_corrupts :
    ((⟨[4, 0, 0, -1]⟩ : Mat 2 2 ℚ).choleskyDecomposeLower ⟨true, false⟩).map (·.2) = .ok false ∧
    (badFilter.correct ⟨true, false⟩ badObs).map (fun r => (r.1.x.data, r.1.P.data, r.2.tempSInv.data)) =
      .ok ([1/4, 4], [3/4, 0, 0, -3], [1/4, 0, 0, 4]) ∧
    (!![4, 0; 0, -1] * !![1/4, 0; 0, 4] : Matrix (Fin 2) (Fin 2) ℚ) ≠ 1 ∧
    (!![4, 0; 0, -1] * !![1/4, 0; 0, -1] : Matrix (Fin 2) (Fin 2) ℚ) = 1 :=
  ⟨by decide +kernel, by decide +kernel, by decide +kernel, by decide +kernel⟩

/-- C25, what the code does in general: with non-panicking scalar operations `correct` never reports anything,
whatever `S` is. -/
theorem C25_correct_never_signals [Zero T] [One T] [Add T] [Sub T] [Mul T] [Neg T] [MDT T] [TotalScalar T]
    (bld : Build) {f : RegularKalman n T} {o : RegularObservation n m T} (hn : 0 < n) (hm : 0 < m) (hf : f.Valid)
    (ho : o.Valid) : ∃ r, f.correct bld o = .ok r := by
  obtain ⟨r, hr, _⟩ := (correct_safe bld hn hm ho hf.x hf.P).holds not_scalarPanic
  refine ⟨({ f with x := r.2.1, P := r.2.2 }, r.1), ?_⟩
  unfold RegularKalman.correct
  rw [hr]; rfl

/-- C25, the part of the claim that holds: if `S` is positive definite no failure needs signalling, and the update is
the textbook one. -/
theorem C25_correct_posDef_partial [MDT ℝ] [ExactReal] (bld : Build) {f : RegularKalman n ℝ}
    {o : RegularObservation n m ℝ} {x A P Q H z R} (hn : 0 < n) (hm : 0 < m)
    (hf : f.Reps x A P Q) (ho : o.Reps H z R) (hS : (Spec.innovCov H P R).PosDef) :
    ∃ f' o', f.correct bld o = .ok (f', o') ∧ f'.Reps (Spec.corrX H P R x z) A (Spec.corrP H P R) Q := by
  obtain ⟨f', o', h1, h2, _⟩ := kcorrect_exact bld hn hm hf ho hS
  exact ⟨f', o', h1, h2⟩

/-! ## C26 -/

section AnyArith
variable [Zero T] [One T] [Add T] [Sub T] [Mul T] [Neg T] [MDT T]

/-- C26: `predict` and `predict_tuned` leave `A` and `Q` alone; `control` and `correct` leave `A`, `Q` and the
temporaries of the filter alone. -/
theorem C26_filter_inputs_kept (f f' : RegularKalman n T) :
    (f.predict = .ok f' → f'.A = f.A ∧ f'.Q = f.Q) ∧
    (∀ lambda, f.predictTuned lambda = .ok f' → f'.A = f.A ∧ f'.Q = f.Q) ∧
    (∀ (l : Nat) (c c' : Control n l T), f.control c = .ok (f', c') → f' = { f with x := f'.x, P := f'.P }) ∧
    (∀ (bld : Build) (m : Nat) (o o' : RegularObservation n m T), f.correct bld o = .ok (f', o') →
      f' = { f with x := f'.x, P := f'.P }) := by
  have hX : ∀ g : RegularKalman n T, f.predictX = .ok g → g.A = f.A ∧ g.Q = f.Q := by
    intro g hg
    unfold RegularKalman.predictX at hg
    obtain ⟨px, _, hg⟩ := bind_ok hg
    obtain ⟨x, _, hg⟩ := bind_ok hg
    cases hg; exact ⟨rfl, rfl⟩
  refine ⟨fun h => ?_, fun lambda h => ?_, fun l c c' h => ?_, fun bld m o o' h => ?_⟩
  · unfold RegularKalman.predict at h
    obtain ⟨g, hg, h⟩ := bind_ok h
    unfold RegularKalman.predictP at h
    obtain ⟨_, _, h⟩ := bind_ok h
    obtain ⟨_, _, h⟩ := bind_ok h
    obtain ⟨_, _, h⟩ := bind_ok h
    cases h; exact hX g hg
  · unfold RegularKalman.predictTuned at h
    obtain ⟨g, hg, h⟩ := bind_ok h
    unfold RegularKalman.predictPTuned at h
    obtain ⟨_, _, h⟩ := bind_ok h
    obtain ⟨_, _, h⟩ := bind_ok h
    obtain ⟨_, _, h⟩ := bind_ok h
    obtain ⟨_, _, h⟩ := bind_ok h
    cases h; exact hX g hg
  · unfold RegularKalman.control at h
    obtain ⟨r, _, h⟩ := bind_ok h
    cases h; rfl
  · unfold RegularKalman.correct at h
    obtain ⟨r, _, h⟩ := bind_ok h
    cases h; rfl

/-- C26: `control` leaves `u`, `B` and the control noise alone. -/
theorem C26_control_inputs_kept {f f' : RegularKalman n T} {c c' : Control n l T}
    (h : f.control c = .ok (f', c')) : c'.u = c.u ∧ c'.B = c.B ∧ c'.Q = c.Q := by
  unfold RegularKalman.control at h
  obtain ⟨⟨c1, x1, P1⟩, h1, h⟩ := bind_ok h
  cases h
  unfold Control.applyControl at h1
  split at h1
  · cases h1; exact ⟨rfl, rfl, rfl⟩
  · obtain ⟨_, _, h1⟩ := bind_ok h1
    obtain ⟨_, _, h1⟩ := bind_ok h1
    obtain ⟨_, _, h1⟩ := bind_ok h1
    cases h1; exact ⟨rfl, rfl, rfl⟩

/-- C26: `correct` leaves `z`, `H` and `R` alone. -/
theorem C26_observation_inputs_kept (bld : Build) {f f' : RegularKalman n T} {o o' : RegularObservation n m T}
    (h : f.correct bld o = .ok (f', o')) : o'.z = o.z ∧ o'.H = o.H ∧ o'.R = o.R := by
  unfold RegularKalman.correct at h
  obtain ⟨⟨o1, x1, P1⟩, h1, h⟩ := bind_ok h
  cases h
  unfold RegularObservation.correct at h1
  obtain ⟨_, _, h1⟩ := bind_ok h1
  obtain ⟨_, _, h1⟩ := bind_ok h1
  unfold RegularObservation.updateWithInnovation at h1
  obtain ⟨_, _, h1⟩ := bind_ok h1
  obtain ⟨_, _, h1⟩ := bind_ok h1
  obtain ⟨_, _, h1⟩ := bind_ok h1
  obtain ⟨_, _, h1⟩ := bind_ok h1
  obtain ⟨_, _, h1⟩ := bind_ok h1
  obtain ⟨_, _, h1⟩ := bind_ok h1
  obtain ⟨_, _, h1⟩ := bind_ok h1
  obtain ⟨_, _, h1⟩ := bind_ok h1
  obtain ⟨_, _, h1⟩ := bind_ok h1
  obtain ⟨_, _, h1⟩ := bind_ok h1
  obtain ⟨_, _, h1⟩ := bind_ok h1
  cases h1; exact ⟨rfl, rfl, rfl⟩

/-! ## C27 -/

/-- C27: `predict` of two filters that agree in `x`, `A`, `P`, `Q` but have arbitrary temporaries. -/
theorem C27_predict_temporaries {f g : RegularKalman n T} {x A P Q} (hn : 0 < n) (hf : f.Reps x A P Q)
    (hg : g.Reps x A P Q) : ∃ f' g' x' P', f.predict = .ok f' ∧ g.predict = .ok g' ∧
      f'.Reps x' A P' Q ∧ g'.Reps x' A P' Q := by
  obtain ⟨f', h1, h2, _⟩ := C21_predict_any_arithmetic hn hf
  obtain ⟨g', h3, h4, _⟩ := C21_predict_any_arithmetic hn hg
  exact ⟨f', g', _, _, h1, h3, h2, h4⟩

/-- C27: `predict_tuned`; both panic alike (if `recip(λ²)` does) or agree. -/
theorem C27_predictTuned_temporaries {f g : RegularKalman n T} {x A P Q} (hn : 0 < n) (lambda : T)
    (hf : f.Reps x A P Q) (hg : g.Reps x A P Q) :
    (∃ e, f.predictTuned lambda = .error e ∧ g.predictTuned lambda = .error e) ∨
    ∃ f' g' x' P', f.predictTuned lambda = .ok f' ∧ g.predictTuned lambda = .ok g' ∧
      f'.Reps x' A P' Q ∧ g'.Reps x' A P' Q := by
  cases hφ : (MDT.recip (lambda * lambda) : Res T) with
  | error e => exact Or.inl ⟨e, predictTuned_error hn hf.valid _ hφ, predictTuned_error hn hg.valid _ hφ⟩
  | ok φ =>
    obtain ⟨f', h1, h2, h3, h4⟩ := predictTuned_any hn hf.valid lambda hφ hf.x hf.A hf.P hf.Q
    obtain ⟨g', h5, h6, h7, h8⟩ := predictTuned_any hn hg.valid lambda hφ hg.x hg.A hg.P hg.Q
    exact Or.inr ⟨f', g', _, _, h1, h5, h4.reps hf h2 h3, h8.reps hg h6 h7⟩

/-- C27: `control`. -/
theorem C27_control_temporaries {f g : RegularKalman n T} {c d : Control n l T} {x A P Q B u Qc}
    (hf : f.Reps x A P Q) (hg : g.Reps x A P Q) (hc : c.Reps B u Qc) (hd : d.Reps B u Qc) :
    ∃ f' g' c' d' x' P', f.control c = .ok (f', c') ∧ g.control d = .ok (g', d') ∧ f'.Reps x' A P' Q ∧
      g'.Reps x' A P' Q ∧ c'.Reps B u Qc ∧ d'.Reps B u Qc := by
  by_cases h0 : l = 0 ∨ n = 0
  · refine ⟨f, g, c, d, x, P, ?_, ?_, hf, hg, hc, hd⟩ <;> unfold RegularKalman.control <;>
      rw [control_empty h0] <;> rfl
  · obtain ⟨c', x', P', h1, h2, h3, h4, h5, h6⟩ := control_any (by omega) (by omega) hc.valid hc.B hc.u hc.Q hf.x hf.P
    obtain ⟨d', x'', P'', k1, k2, k3, k4, k5, k6⟩ := control_any (by omega) (by omega) hd.valid hd.B hd.u hd.Q hg.x hg.P
    refine ⟨{ f with x := x', P := P' }, { g with x := x'', P := P'' }, c', d', _, _, ?_, ?_,
      (frame_xP h5 h6).reps hf h2 h3, (frame_xP k5 k6).reps hg k2 k3, h4.reps hc, k4.reps hd⟩
    · unfold RegularKalman.control; rw [h1]; rfl
    · unfold RegularKalman.control; rw [k1]; rfl

/-- C27: `correct`; both panic alike or agree in state, covariance, innovation, `S` and gain. -/
theorem C27_correct_temporaries (bld : Build) {f g : RegularKalman n T} {o p : RegularObservation n m T}
    {x A P Q H z R} (hn : 0 < n) (hm : 0 < m) (hf : f.Reps x A P Q) (hg : g.Reps x A P Q) (ho : o.Reps H z R)
    (hp : p.Reps H z R) :
    (∃ e, f.correct bld o = .error e ∧ g.correct bld p = .error e) ∨
    ∃ f' g' o' p' x' P', f.correct bld o = .ok (f', o') ∧ g.correct bld p = .ok (g', p') ∧ f'.Reps x' A P' Q ∧
      g'.Reps x' A P' Q ∧ o'.Reps H z R ∧ p'.Reps H z R ∧ o'.y.Agree p'.y ∧ o'.S.Agree p'.S ∧ o'.K.Agree p'.K := by
  have := correct_rel bld hn hm ho.valid hp.valid hf.P.valid (ho.H.agree hp.H) (ho.R.agree hp.R) (hf.P.agree hg.P)
    ho.H hf.x ho.z hg.x hp.z
  rcases this with ⟨e, h1, h2⟩ | ⟨⟨o', x', P'⟩, ⟨p', x'', P''⟩, h1, h2, a1, a2, a3, a4, a5, a6, a7, a8, _, _, _, _, b1, b2,
    K, b3, b4, b5, b6⟩
  · refine Or.inl ⟨e, ?_, ?_⟩ <;> unfold RegularKalman.correct
    · rw [h1]; rfl
    · rw [h2]; rfl
  · refine Or.inr ⟨{ f with x := x', P := P' }, { g with x := x'', P := P'' }, o', p', _, _, ?_, ?_,
      (frame_xP a3 a5).reps hf b5 (a5.valid hf.P.valid).reps,
      (frame_xP a4 a6).reps hg b6 (a7.reps (a5.valid hf.P.valid).reps), a1.reps ho, a2.reps hp, b1.agree b2, a8,
      b3.agree b4⟩
    · unfold RegularKalman.correct; rw [h1]; rfl
    · unfold RegularKalman.correct; rw [h2]; rfl

/-- Two filters with different temporaries. -/
example : (Ex.filter ℚ).Reps ![1, 2] !![1, 1; 0, 1] !![1, 0; 0, 1] !![1, 0; 0, 2] ∧
    ({ Ex.filter ℚ with tempP := ⟨[0, 0, 0, 0]⟩ } : RegularKalman 2 ℚ).Reps ![1, 2] !![1, 1; 0, 1] !![1, 0; 0, 1]
      !![1, 0; 0, 2] := by
  have h := Ex.filter_reps ℚ
  exact ⟨h, h.x, h.A, h.P, h.Q, h.predictedX, by decide⟩

/-! ## C42 -/

/-- C42: no step changes a buffer length or a surplus cell of the filter. -/
theorem C42_filter_surplus {f f' : RegularKalman n T} (hn : 0 < n) (hf : f.Valid) :
    (f.predict = .ok f' → f.Frame f') ∧ (∀ lambda, f.predictTuned lambda = .ok f' → f.Frame f') ∧
    (∀ (l : Nat) (c c' : Control n l T), c.Valid → f.control c = .ok (f', c') → f.Frame f' ∧ c.Frame c') ∧
    (∀ (bld : Build) (m : Nat) (o o' : RegularObservation n m T), 0 < m → o.Valid →
      f.correct bld o = .ok (f', o') → f.Frame f' ∧ o.Frame o') := by
  refine ⟨fun h => ?_, fun lambda h => ?_, fun l c c' hc h => ?_, fun bld m o o' hm ho h => ?_⟩
  · obtain ⟨g, h1, _, _, h4⟩ := predict_any hn hf hf.x.repsV hf.A.reps hf.P.reps hf.Q.reps
    rw [h] at h1; cases h1; exact h4
  · cases hφ : (MDT.recip (lambda * lambda) : Res T) with
    | error e => rw [predictTuned_error hn hf _ hφ] at h; cases h
    | ok φ =>
      obtain ⟨g, h1, _, _, h4⟩ := predictTuned_any hn hf lambda hφ hf.x.repsV hf.A.reps hf.P.reps hf.Q.reps
      rw [h] at h1; cases h1; exact h4
  · unfold RegularKalman.control at h
    by_cases h0 : l = 0 ∨ n = 0
    · rw [control_empty h0] at h
      cases h
      exact ⟨RegularKalman.Frame.refl f, Control.Frame.refl c⟩
    · obtain ⟨c1, x1, P1, h1, _, _, h4, h5, h6⟩ := control_any hn (by omega) hc hc.B.reps hc.u.repsV hc.Q.reps
        hf.x.repsV hf.P.reps
      rw [h1] at h
      cases h
      exact ⟨frame_xP h5 h6, h4⟩
  · unfold RegularKalman.correct at h
    rcases correct_safe bld hn hm ho hf.x hf.P with ⟨e, h1, _⟩ | ⟨r, h1, h2, h3, h4⟩
    · rw [h1] at h; cases h
    · rw [h1] at h
      cases h
      exact ⟨frame_xP h3 h4, h2⟩

end AnyArith
end Minikalman
