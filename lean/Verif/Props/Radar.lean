import Verif.Proofs.Radar
import Verif.Proofs.Riccati
import Verif.Props.ExtendedSteps

/-!
# Property C73: the radar example (`/repo/crates/minikalman/examples/radar_2d.rs`)

The extended filter needs the Jacobians of the functions its closures compute. The transition Jacobian of the example is
right, and so are the derivatives of the measured angle; the derivatives of the distance and of the velocity are wrong
(the property "the example supplies the Jacobian of its observation" is false of the code). The program runs without
panic and keeps its covariance positive semi-definite, whatever it measures. Exact arithmetic.
-/

set_option linter.unusedSectionVars false

namespace Minikalman

open Matrix Examples

/-- C73: the transition closure computes the motion with constant velocity. -/
theorem C73_transition_closure (dt : ℝ) : Computes (radarTransition dt) (Spec.straight dt) := by
  intro st x out X hx ho
  obtain ⟨o1, h1, r1, l1⟩ := indexSet_reps ho.repsV (0 : Fin 4) (X 0 + X 2 * dt)
  obtain ⟨o2, h2, r2, l2⟩ := indexSet_reps r1 (1 : Fin 4) (X 1 + X 3 * dt)
  obtain ⟨o3, h3, r3, l3⟩ := indexSet_reps r2 (2 : Fin 4) (X 2)
  obtain ⟨o4, h4, r4, l4⟩ := indexSet_reps r3 (3 : Fin 4) (X 3)
  have e0 : x.index 0 = .ok (X 0) := index_reps hx 0
  have e1 : x.index 1 = .ok (X 1) := index_reps hx 1
  have e2 : x.index 2 = .ok (X 2) := index_reps hx 2
  have e3 : x.index 3 = .ok (X 3) := index_reps hx 3
  have h1' : out.indexSet 0 (X 0 + X 2 * dt) = .ok o1 := h1
  have h2' : o1.indexSet 1 (X 1 + X 3 * dt) = .ok o2 := h2
  have h3' : o2.indexSet 2 (X 2) = .ok o3 := h3
  have h4' : o3.indexSet 3 (X 3) = .ok o4 := h4
  refine ⟨(), o4, ?_, ?_, by rw [l4, l3, l2, l1]⟩
  · simp only [radarTransition, e0, e1, e2, e3, res_bind_ok, h1', h2', h3', h4']
    rfl
  · intro i
    rw [r4 i]
    fin_cases i <;> simp [Spec.straight, Function.update]

/-- C73: the transition Jacobian of the example is the Jacobian of the motion, at every state. -/
theorem C73_transition_jacobian (dt : ℝ) {mat : Mat 4 4 ℝ} (hv : mat.Valid) :
    ∃ mat' J, radarTransitionJacobian dt mat = .ok mat' ∧ mat'.Reps J ∧ mat'.data.length = mat.data.length ∧
      ∀ s, Spec.IsJacobian (Spec.straight dt) s J := by
  obtain ⟨m0, h0, r0, t0⟩ := C12_makeIdentity hv
  obtain ⟨m1, h1, r1, l1⟩ := setAt_reps r0 (0 : Fin 4) (2 : Fin 4) dt
  obtain ⟨m2, h2, r2, l2⟩ := setAt_reps r1 (1 : Fin 4) (3 : Fin 4) dt
  have h1' : m0.setAt 0 2 dt = .ok m1 := h1
  have h2' : m1.setAt 1 3 dt = .ok m2 := h2
  refine ⟨m2, _, ?_, r2, by rw [l2, l1, t0.1], fun s i j => ?_⟩
  · simp only [radarTransitionJacobian, h0, res_bind_ok, h1', h2']
  · unfold Spec.Partial
    fin_cases i <;> fin_cases j <;>
      simp [Spec.straight, Function.update, Matrix.one_apply] <;>
      first
      | exact hasDerivAt_const _ _
      | exact hasDerivAt_id' _
      | exact (hasDerivAt_id' _).add_const _
      | simpa using! (((hasDerivAt_id' (s 2)).mul_const dt).const_add (s 0))
      | simpa using! (((hasDerivAt_id' (s 3)).mul_const dt).const_add (s 1))

/-- C73: the observation closure computes what the radar measures. -/
theorem C73_observation_closure (rx ry : ℝ) : Computes (radarObservation rx ry) (Spec.radar rx ry) := by
  intro st x out X hx ho
  obtain ⟨o1, h1, r1, l1⟩ := indexSet_reps ho.repsV (0 : Fin 3) (Spec.distance rx ry X)
  obtain ⟨o2, h2, r2, l2⟩ := indexSet_reps r1 (1 : Fin 3) (Spec.bearing rx ry X)
  obtain ⟨o3, h3, r3, l3⟩ := indexSet_reps r2 (2 : Fin 3) (Spec.radialSpeed rx ry X)
  have e0 : x.getRow 0 = .ok (X 0) := getRow_reps hx 0
  have e1 : x.getRow 1 = .ok (X 1) := getRow_reps hx 1
  have e2 : x.getRow 2 = .ok (X 2) := getRow_reps hx 2
  have e3 : x.getRow 3 = .ok (X 3) := getRow_reps hx 3
  rw [← setRow_eq] at h1 h2 h3
  refine ⟨(), o3, ?_, ?_, by rw [l3, l2, l1]⟩
  · simp only [radarObservation, e0, e1, e2, e3, res_bind_ok]
    change (out.setRow 0 (Spec.distance rx ry X) >>= fun o => o.setRow 1 (Spec.bearing rx ry X) >>= fun o =>
      o.setRow 2 (Spec.radialSpeed rx ry X) >>= fun o => pure ((), o)) = _
    have h1' : out.setRow 0 (Spec.distance rx ry X) = .ok o1 := h1
    have h2' : o1.setRow 1 (Spec.bearing rx ry X) = .ok o2 := h2
    have h3' : o2.setRow 2 (Spec.radialSpeed rx ry X) = .ok o3 := h3
    simp only [h1', res_bind_ok, h2', h3']
    rfl
  · intro i
    rw [r3 i]
    fin_cases i <;> simp [Spec.radar, Function.update]

namespace Examples

theorem dist_deriv {x r q : ℝ} (h : (x - r) ^ 2 + q ≠ 0) :
    HasDerivAt (fun t => √((t - r) ^ 2 + q)) ((x - r) / √((x - r) ^ 2 + q)) x := by
  have h1 := ((((hasDerivAt_id' x).sub_const r).pow 2).add_const q).sqrt h
  refine h1.congr_deriv ?_
  simp
  rw [mul_div_mul_left _ _ two_ne_zero]

theorem dist_deriv' {x r q : ℝ} (h : q + (x - r) ^ 2 ≠ 0) :
    HasDerivAt (fun t => √(q + (t - r) ^ 2)) ((x - r) / √(q + (x - r) ^ 2)) x := by
  have := dist_deriv (x := x) (r := r) (q := q) (by rwa [add_comm])
  simpa only [add_comm q] using this

/-- The derivative of `(a u + b v) / √(a² + b²)` with respect to `a`. -/
theorem speed_deriv {x r b u v : ℝ} (h : (x - r) ^ 2 + b ^ 2 ≠ 0) :
    HasDerivAt (fun t => ((t - r) * u + b * v) / √((t - r) ^ 2 + b ^ 2))
      (b * (b * u - (x - r) * v) / √((x - r) ^ 2 + b ^ 2) ^ 3) x := by
  have hpos : 0 < (x - r) ^ 2 + b ^ 2 := lt_of_le_of_ne (by positivity) (Ne.symm h)
  have hs : √((x - r) ^ 2 + b ^ 2) ≠ 0 := (Real.sqrt_pos.2 hpos).ne'
  have h1 := ((((hasDerivAt_id' x).sub_const r).mul_const u).add_const (b * v)).fun_div (dist_deriv h) hs
  refine h1.congr_deriv ?_
  have e := Real.sq_sqrt hpos.le
  generalize √((x - r) ^ 2 + b ^ 2) = ρ at hs e ⊢
  field_simp
  rw [e]
  ring

theorem speed_deriv' {x r a u v : ℝ} (h : a ^ 2 + (x - r) ^ 2 ≠ 0) :
    HasDerivAt (fun t => (a * u + (t - r) * v) / √(a ^ 2 + (t - r) ^ 2))
      (a * (a * v - (x - r) * u) / √(a ^ 2 + (x - r) ^ 2) ^ 3) x := by
  have := speed_deriv (x := x) (r := r) (b := a) (u := v) (v := u) (by rwa [add_comm])
  simpa only [add_comm (a ^ 2), add_comm (a * u)] using this

theorem bearing_deriv {a b : ℝ} (h : (⟨a, b⟩ : ℂ) ∈ Complex.slitPlane) {f : ℝ → ℂ} {f' : ℂ} {x : ℝ}
    (hf : HasDerivAt f f' x) (hx : f x = ⟨a, b⟩) : HasDerivAt (fun t => Complex.arg (f t)) (f' / ⟨a, b⟩).im x := by
  have h1 := hf.clog_real (by rw [hx]; exact h)
  have h2 := Complex.imCLM.hasFDerivAt.comp_hasDerivAt x h1
  rw [hx] at h2
  refine (h2.congr_of_eventuallyEq (Filter.Eventually.of_forall fun t => ?_))
  exact (Complex.log_im _).symm

theorem mk_deriv_re (b r x : ℝ) : HasDerivAt (fun t : ℝ => (⟨t - r, b⟩ : ℂ)) 1 x := by
  have h := (((hasDerivAt_id' x).sub_const r).ofReal_comp).add_const ((b : ℂ) * Complex.I)
  rw [Complex.ofReal_one] at h
  refine h.congr_of_eventuallyEq (Filter.Eventually.of_forall fun t => ?_)
  simp only [Complex.mk_eq_add_mul_I]

theorem mk_deriv_im (a r x : ℝ) : HasDerivAt (fun t : ℝ => (⟨a, t - r⟩ : ℂ)) Complex.I x := by
  have h := ((((hasDerivAt_id' x).sub_const r).ofReal_comp).mul_const Complex.I).const_add (a : ℂ)
  rw [Complex.ofReal_one, one_mul] at h
  refine h.congr_of_eventuallyEq (Filter.Eventually.of_forall fun t => ?_)
  simp only [Complex.mk_eq_add_mul_I]

theorem partial_unique {n : Nat} {f : (Fin n → ℝ) → ℝ} {s : Fin n → ℝ} {j : Fin n} {d e : ℝ} (h : Spec.Partial f s j d) :
    Spec.Partial f s j e ↔ e = d :=
  ⟨fun h' => HasDerivAt.unique h' h, fun h' => h' ▸ h⟩

/-- The Jacobian of `Spec.radar`. -/
noncomputable def trueJacobian (rx ry : ℝ) (s : Fin 4 → ℝ) : Matrix (Fin 3) (Fin 4) ℝ :=
  let a := s 0 - rx
  let b := s 1 - ry
  let ρ := Spec.distance rx ry s
  !![a / ρ, b / ρ, 0, 0;
    -b / ρ ^ 2, a / ρ ^ 2, 0, 0;
    b * (b * s 2 - a * s 3) / ρ ^ 3, a * (a * s 3 - b * s 2) / ρ ^ 3, a / ρ, b / ρ]

theorem dist_sq (rx ry : ℝ) (s : Fin 4 → ℝ) : Spec.distance rx ry s ^ 2 = (s 0 - rx) ^ 2 + (s 1 - ry) ^ 2 :=
  Real.sq_sqrt (by positivity)

theorem slit_ne {rx ry : ℝ} {s : Fin 4 → ℝ} (hs : rx < s 0 ∨ s 1 ≠ ry) : (s 0 - rx) ^ 2 + (s 1 - ry) ^ 2 ≠ 0 := by
  intro h
  have h1 : (s 0 - rx) ^ 2 = 0 := by nlinarith [sq_nonneg (s 0 - rx), sq_nonneg (s 1 - ry)]
  have h2 : (s 1 - ry) ^ 2 = 0 := by nlinarith [sq_nonneg (s 0 - rx), sq_nonneg (s 1 - ry)]
  rcases hs with h3 | h3
  · have := pow_eq_zero_iff (two_ne_zero) |>.1 h1; linarith
  · have := pow_eq_zero_iff (two_ne_zero) |>.1 h2; exact h3 (by linarith)

/-- The matrix the code writes. -/
noncomputable def coded (rx ry : ℝ) (s : Fin 4 → ℝ) : Matrix (Fin 3) (Fin 4) ℝ :=
  let a := s 0 - rx
  let b := s 1 - ry
  let ρ := Spec.distance rx ry s
  !![s 0 / ρ, s 1 / ρ, 0, 0;
    -b / ρ ^ 2, a / ρ ^ 2, 0, 0;
    b * s 3 / ρ ^ 3, (a * s 3 + b * s 2) / ρ ^ 3, s 0 / ρ, s 1 / ρ]

theorem sqrt_cube (q : ℝ) (h : 0 ≤ q) : √(q ^ 3) = √q ^ 3 := by
  rw [show q ^ 3 = (√q ^ 3) ^ 2 by rw [← pow_mul, mul_comm, pow_mul, Real.sq_sqrt h]]
  exact Real.sqrt_sq (by positivity)

theorem coded_run (rx ry : ℝ) {s : Fin 4 → ℝ} {state : Mat 4 1 ℝ} (hst : state.RepsV s) {mat : Mat 3 4 ℝ}
    (hv : mat.Valid) :
    ∃ mat', radarObservationJacobian rx ry state mat = .ok mat' ∧ mat'.Reps (coded rx ry s) ∧
      mat'.data.length = mat.data.length := by
  have e0 : state.getRow 0 = .ok (s 0) := getRow_reps hst 0
  have e1 : state.getRow 1 = .ok (s 1) := getRow_reps hst 1
  have e2 : state.getRow 2 = .ok (s 2) := getRow_reps hst 2
  have e3 : state.getRow 3 = .ok (s 3) := getRow_reps hst 3
  obtain ⟨m1, h1, r1, l1⟩ := setAt_reps hv.reps (0 : Fin 3) (0 : Fin 4) (s 0 / Spec.distance rx ry s)
  obtain ⟨m2, h2, r2, l2⟩ := setAt_reps r1 (0 : Fin 3) (1 : Fin 4) (s 1 / Spec.distance rx ry s)
  obtain ⟨m3, h3, r3, l3⟩ := setAt_reps r2 (0 : Fin 3) (2 : Fin 4) 0
  obtain ⟨m4, h4, r4, l4⟩ := setAt_reps r3 (0 : Fin 3) (3 : Fin 4) 0
  obtain ⟨m5, h5, r5, l5⟩ := setAt_reps r4 (1 : Fin 3) (0 : Fin 4) (-(s 1 - ry) / ((s 0 - rx) ^ 2 + (s 1 - ry) ^ 2))
  obtain ⟨m6, h6, r6, l6⟩ := setAt_reps r5 (1 : Fin 3) (1 : Fin 4) ((s 0 - rx) / ((s 0 - rx) ^ 2 + (s 1 - ry) ^ 2))
  obtain ⟨m7, h7, r7, l7⟩ := setAt_reps r6 (1 : Fin 3) (2 : Fin 4) 0
  obtain ⟨m8, h8, r8, l8⟩ := setAt_reps r7 (1 : Fin 3) (3 : Fin 4) 0
  obtain ⟨m9, h9, r9, l9⟩ := setAt_reps r8 (2 : Fin 3) (0 : Fin 4)
    ((s 1 - ry) * s 3 / √(((s 0 - rx) ^ 2 + (s 1 - ry) ^ 2) ^ 3))
  obtain ⟨m10, h10, r10, l10⟩ := setAt_reps r9 (2 : Fin 3) (1 : Fin 4)
    (((s 0 - rx) * s 3 + (s 1 - ry) * s 2) / √(((s 0 - rx) ^ 2 + (s 1 - ry) ^ 2) ^ 3))
  obtain ⟨m11, h11, r11, l11⟩ := setAt_reps r10 (2 : Fin 3) (2 : Fin 4) (s 0 / Spec.distance rx ry s)
  obtain ⟨m12, h12, r12, l12⟩ := setAt_reps r11 (2 : Fin 3) (3 : Fin 4) (s 1 / Spec.distance rx ry s)
  refine ⟨m12, ?_, ?_, by rw [l12, l11, l10, l9, l8, l7, l6, l5, l4, l3, l2, l1]⟩
  · simp only [radarObservationJacobian, e0, e1, e2, e3, res_bind_ok]
    simp only [Spec.distance] at h1 h2 h11 h12
    rw [show mat.setAt 0 0 _ = _ from h1, res_bind_ok, show m1.setAt 0 1 _ = _ from h2, res_bind_ok,
      show m2.setAt 0 2 _ = _ from h3, res_bind_ok, show m3.setAt 0 3 _ = _ from h4, res_bind_ok,
      show m4.setAt 1 0 _ = _ from h5, res_bind_ok, show m5.setAt 1 1 _ = _ from h6, res_bind_ok,
      show m6.setAt 1 2 _ = _ from h7, res_bind_ok, show m7.setAt 1 3 _ = _ from h8, res_bind_ok,
      show m8.setAt 2 0 _ = _ from h9, res_bind_ok, show m9.setAt 2 1 _ = _ from h10, res_bind_ok,
      show m10.setAt 2 2 _ = _ from h11, res_bind_ok]
    exact h12
  · intro i j
    rw [r12 i j]
    congr 1
    have e := sqrt_cube ((s 0 - rx) ^ 2 + (s 1 - ry) ^ 2) (by positivity)
    have e' : √((s 0 - rx) ^ 2 + (s 1 - ry) ^ 2) ^ 2 = (s 0 - rx) ^ 2 + (s 1 - ry) ^ 2 := Real.sq_sqrt (by positivity)
    fin_cases i <;> fin_cases j <;> simp [coded, e, e', Spec.distance]

end Examples

/-- C73, what the Jacobian is: the derivatives of distance, bearing and radial speed, at every state that is not at the
radar or straight to the left of it (where the bearing jumps). -/
theorem C73_true_jacobian {rx ry : ℝ} {s : Fin 4 → ℝ} (hs : rx < s 0 ∨ s 1 ≠ ry) :
    Spec.IsJacobian (Spec.radar rx ry) s (trueJacobian rx ry s) := by
  have hne := slit_ne hs
  have hsl : (⟨s 0 - rx, s 1 - ry⟩ : ℂ) ∈ Complex.slitPlane := by
    rw [Complex.mem_slitPlane_iff]
    rcases hs with h | h
    · exact Or.inl (sub_pos.2 h)
    · exact Or.inr (sub_ne_zero.2 h)
  have d := dist_sq rx ry s
  intro i j
  unfold Spec.Partial
  fin_cases i <;> fin_cases j <;>
    simp [Spec.radar, trueJacobian, Spec.distance, Spec.bearing, Spec.radialSpeed, Function.update]
  · exact dist_deriv hne
  · exact dist_deriv' hne
  · exact hasDerivAt_const _ _
  · exact hasDerivAt_const _ _
  · refine (bearing_deriv hsl (mk_deriv_re _ _ _) rfl).congr_deriv ?_
    rw [Real.sq_sqrt (by positivity)]
    simp [Complex.inv_im, Complex.normSq_mk, pow_two]
  · refine (bearing_deriv hsl (mk_deriv_im _ _ _) rfl).congr_deriv ?_
    rw [Real.sq_sqrt (by positivity)]
    simp [Complex.div_im, Complex.normSq_mk, pow_two]
  · exact hasDerivAt_const _ _
  · exact hasDerivAt_const _ _
  · exact speed_deriv hne
  · exact speed_deriv' hne
  · exact ((((hasDerivAt_id' (s 2)).const_mul _).add_const _).div_const _).congr_deriv (by rw [mul_one])
  · exact ((((hasDerivAt_id' (s 3)).const_mul _).const_add _).div_const _).congr_deriv (by rw [mul_one])

/-- C73, what the example supplies instead, and where it is right: at every state as above, the derivatives of the bearing
and all zero entries are right; those of the distance are right only if the radar is at the origin; those of the radial
speed with respect to the velocity likewise; those with respect to the position only where two polynomials in the state
happen to vanish. -/
theorem C73_observation_jacobian_partial {rx ry : ℝ} {s : Fin 4 → ℝ} (hs : rx < s 0 ∨ s 1 ≠ ry) {state : Mat 4 1 ℝ}
    (hst : state.RepsV s) {mat : Mat 3 4 ℝ} (hv : mat.Valid) :
    ∃ mat' J, radarObservationJacobian rx ry state mat = .ok mat' ∧ mat'.Reps J ∧ mat'.data.length = mat.data.length ∧
      (∀ j, Spec.Partial (Spec.bearing rx ry) s j (J 1 j)) ∧
      (Spec.Partial (Spec.distance rx ry) s 0 (J 0 0) ↔ rx = 0) ∧
      (Spec.Partial (Spec.distance rx ry) s 1 (J 0 1) ↔ ry = 0) ∧
      Spec.Partial (Spec.distance rx ry) s 2 (J 0 2) ∧
      Spec.Partial (Spec.distance rx ry) s 3 (J 0 3) ∧
      (Spec.Partial (Spec.radialSpeed rx ry) s 0 (J 2 0) ↔
        (s 1 - ry) * s 3 = (s 1 - ry) * ((s 1 - ry) * s 2 - (s 0 - rx) * s 3)) ∧
      (Spec.Partial (Spec.radialSpeed rx ry) s 1 (J 2 1) ↔
        (s 0 - rx) * s 3 + (s 1 - ry) * s 2 = (s 0 - rx) * ((s 0 - rx) * s 3 - (s 1 - ry) * s 2)) ∧
      (Spec.Partial (Spec.radialSpeed rx ry) s 2 (J 2 2) ↔ rx = 0) ∧
      (Spec.Partial (Spec.radialSpeed rx ry) s 3 (J 2 3) ↔ ry = 0) := by
  obtain ⟨mat', h1, h2, h3⟩ := coded_run rx ry hst hv
  have hJ := C73_true_jacobian hs
  have hd : Spec.distance rx ry s ≠ 0 := (Real.sqrt_pos.2 (lt_of_le_of_ne (by positivity) (slit_ne hs).symm)).ne'
  have hd3 : Spec.distance rx ry s ^ 3 ≠ 0 := pow_ne_zero _ hd
  have r0 : (fun s => Spec.radar rx ry s 0) = Spec.distance rx ry := by funext t; simp [Spec.radar]
  have r1 : (fun s => Spec.radar rx ry s 1) = Spec.bearing rx ry := by funext t; simp [Spec.radar]
  have r2 : (fun s => Spec.radar rx ry s 2) = Spec.radialSpeed rx ry := by funext t; simp [Spec.radar]
  have g0 : ∀ j, Spec.Partial (Spec.distance rx ry) s j (trueJacobian rx ry s 0 j) := fun j => by rw [← r0]; exact hJ 0 j
  have g1 : ∀ j, Spec.Partial (Spec.bearing rx ry) s j (trueJacobian rx ry s 1 j) := fun j => by rw [← r1]; exact hJ 1 j
  have g2 : ∀ j, Spec.Partial (Spec.radialSpeed rx ry) s j (trueJacobian rx ry s 2 j) := fun j => by
    rw [← r2]; exact hJ 2 j
  have e1 : ∀ j, coded rx ry s 1 j = trueJacobian rx ry s 1 j := by
    intro j; fin_cases j <;> simp [coded, trueJacobian]
  have c : ∀ (a r : ℝ), a / Spec.distance rx ry s = (a - r) / Spec.distance rx ry s ↔ r = 0 := by
    intro a r
    rw [div_left_inj' hd]
    constructor <;> intro h <;> linarith
  refine ⟨mat', coded rx ry s, h1, h2, h3, fun j => ?_, ?_, ?_, ?_, ?_, ?_, ?_, ?_, ?_⟩
  · rw [e1 j]; exact g1 j
  · rw [partial_unique (g0 0)]
    simp only [coded, trueJacobian, Matrix.of_apply, Matrix.cons_val]
    exact c (s 0) rx
  · rw [partial_unique (g0 1)]
    simp only [coded, trueJacobian, Matrix.of_apply, Matrix.cons_val]
    exact c (s 1) ry
  · rw [partial_unique (g0 2)]
    simp [coded, trueJacobian]
  · rw [partial_unique (g0 3)]
    simp [coded, trueJacobian]
  · rw [partial_unique (g2 0)]
    simp only [coded, trueJacobian, Matrix.of_apply, Matrix.cons_val]
    exact div_left_inj' hd3
  · rw [partial_unique (g2 1)]
    simp only [coded, trueJacobian, Matrix.of_apply, Matrix.cons_val]
    exact div_left_inj' hd3
  · rw [partial_unique (g2 2)]
    simp only [coded, trueJacobian, Matrix.of_apply, Matrix.cons_val]
    exact c (s 0) rx
  · rw [partial_unique (g2 3)]
    simp only [coded, trueJacobian, Matrix.of_apply, Matrix.cons_val]
    exact c (s 1) ry

/-- C73 is false of the code: with the radar at `(2, 1)`, as in the example, the matrix the example supplies is not the
Jacobian of its observation function at any state at which that exists. -/
theorem C73_observation_jacobian_wrong {s : Fin 4 → ℝ} (hs : 2 < s 0 ∨ s 1 ≠ 1) {state : Mat 4 1 ℝ}
    (hst : state.RepsV s) {mat mat' : Mat 3 4 ℝ} (hv : mat.Valid) (h : radarObservationJacobian 2 1 state mat = .ok mat')
    {J : Matrix (Fin 3) (Fin 4) ℝ} (hJ : mat'.Reps J) : ¬ Spec.IsJacobian (Spec.radar 2 1) s J := by
  obtain ⟨m2, J2, h1, h2, _, _, h3, _⟩ := C73_observation_jacobian_partial hs hst hv
  rw [h] at h1; cases h1
  intro hc
  have e : J 0 0 = J2 0 0 := Option.some.inj ((hJ 0 0).symm.trans (h2 0 0))
  have := hc 0 0
  rw [e] at this
  exact two_ne_zero (h3.1 this)

namespace Examples

/-- The measurement noise of the example. -/
noncomputable def radarR : Matrix (Fin 3) (Fin 3) ℝ := Matrix.diagonal ![1 / 2, 1 / 10, 1 / 5]

/-- The process noise of the example. -/
noncomputable def radarQ : Matrix (Fin 4) (Fin 4) ℝ := Matrix.diagonal fun _ => 1 / 10

theorem radarR_pd : radarR.PosDef := Matrix.PosDef.diagonal fun i => by fin_cases i <;> norm_num

theorem radarQ_psd : radarQ.PosSemidef := Matrix.PosSemidef.diagonal fun _ => by norm_num

section
variable [MDT ℝ]

theorem radarFilter_reps {f : ExtendedKalman 4 ℝ} (hf : f.asRegular.Valid) :
    ∃ f' A, radarFilter f = .ok f' ∧ f'.asRegular.Reps ![0, 0, 1 / 2, 2] A 1 radarQ := by
  obtain ⟨x1, h1, r1, l1⟩ := indexSet_reps (show f.x.RepsV _ from (hf.x).repsV) (0 : Fin 4) 0
  obtain ⟨x2, h2, r2, l2⟩ := indexSet_reps r1 (1 : Fin 4) 0
  obtain ⟨x3, h3, r3, l3⟩ := indexSet_reps r2 (2 : Fin 4) (1 / 2)
  obtain ⟨x4, h4, r4, l4⟩ := indexSet_reps r3 (3 : Fin 4) 2
  obtain ⟨P, h5, r5, _⟩ := C12_makeIdentity (show f.P.Valid from hf.P)
  obtain ⟨Q, h6, r6, _⟩ := C12_makeScalar (show f.Q.Valid from hf.Q) (1 / 10 : ℝ)
  rw [← setRow_eq] at h1 h2 h3 h4
  refine ⟨{ f with x := x4, P := P, Q := Q }, _, ?_, ?_, hf.A.reps, r5, r6, hf.predictedX, hf.tempP⟩
  · unfold radarFilter
    rw [show f.x.setRow 0 0 = _ from h1, res_bind_ok, show x1.setRow 1 0 = _ from h2, res_bind_ok,
      show x2.setRow 2 (1 / 2) = _ from h3, res_bind_ok, show x3.setRow 3 2 = _ from h4, res_bind_ok, h5, res_bind_ok, h6]
    rfl
  · intro i
    refine (r4 i).trans ?_
    fin_cases i <;> simp [Function.update]

theorem radarMeasurement_reps {o : ExtendedObservation 4 3 ℝ} {H z} (ho : o.asRegular.Reps H z 0) :
    ∃ o', radarMeasurement o = .ok o' ∧ o'.asRegular.Reps H z radarR := by
  obtain ⟨R1, h1, r1, l1⟩ := setAt_reps (show o.R.Reps 0 from ho.R) (0 : Fin 3) (0 : Fin 3) (1 / 2)
  obtain ⟨R2, h2, r2, l2⟩ := setAt_reps r1 (1 : Fin 3) (1 : Fin 3) (1 / 10)
  obtain ⟨R3, h3, r3, l3⟩ := setAt_reps r2 (2 : Fin 3) (2 : Fin 3) (1 / 5)
  refine ⟨{ o with R := R3 }, ?_, ho.H, ho.z, ?_, ho.y, ho.S, ho.K, ho.tempSInv, ho.tempHP, ho.tempPHt, ho.tempKHP⟩
  · unfold radarMeasurement
    rw [show o.R.setAt 0 0 (1 / 2) = _ from h1, res_bind_ok, show R1.setAt 1 1 (1 / 10) = _ from h2, res_bind_ok,
      show R2.setAt 2 2 (1 / 5) = _ from h3]
    rfl
  · intro i j
    refine (r3 i j).trans ?_
    fin_cases i <;> fin_cases j <;> simp [radarR]

variable [ExactReal]

theorem radarStep_reps (bld : Build) (rx ry dt : ℝ) {f : ExtendedKalman 4 ℝ} {o : ExtendedObservation 4 3 ℝ}
    {x A P H z} (hf : f.asRegular.Reps x A P radarQ) (hP : P.PosSemidef) (ho : o.asRegular.Reps H z radarR)
    (d : Option (ℝ × ℝ × ℝ)) :
    ∃ f' o' x' A' P' H' z', radarStep bld rx ry dt f o d = .ok (f', o') ∧ f'.asRegular.Reps x' A' P' radarQ ∧
      P'.PosSemidef ∧ o'.asRegular.Reps H' z' radarR := by
  obtain ⟨A1, J, h1, r1, _, _⟩ := C73_transition_jacobian dt (show f.A.Valid from hf.A.valid)
  have hf1 : ({ f with A := A1 } : ExtendedKalman 4 ℝ).asRegular.Reps x J P radarQ :=
    ⟨hf.x, r1, hf.P, hf.Q, hf.predictedX, hf.tempP⟩
  obtain ⟨st, px, h2, r2, l2⟩ := C73_transition_closure dt () f.x f.predictedX x hf.x hf.predictedX
  obtain ⟨f1, h3, r3, _⟩ := C72_predict_nonlinear (by decide) hf1 h2 l2 r2
  have hP1 : (J * P * Jᵀ + radarQ).PosSemidef := predP_psd hP radarQ_psd
  cases d with
  | none =>
    refine ⟨f1, o, _, _, _, _, _, ?_, r3, hP1, ho⟩
    simp only [radarStep, h1, res_bind_ok, h3]
    rfl
  | some d =>
    obtain ⟨z0, z1, z2⟩ := d
    obtain ⟨y1, k1, s1, m1⟩ := indexSet_reps (show o.z.RepsV _ from ho.z) (0 : Fin 3) z0
    obtain ⟨y2, k2, s2, m2⟩ := indexSet_reps s1 (1 : Fin 3) z1
    obtain ⟨y3, k3, s3, m3⟩ := indexSet_reps s2 (2 : Fin 3) z2
    rw [← setRow_eq] at k1 k2 k3
    obtain ⟨H1, h4, r4, _⟩ := coded_run rx ry (state := f1.x) r3.x (mat := o.H) ho.H.valid
    have ho1 : ({ o with z := y3, H := H1 } : ExtendedObservation 4 3 ℝ).asRegular.Reps (coded rx ry (Spec.straight dt x))
        _ radarR := ⟨r4, s3, ho.R, ho.y, ho.S, ho.K, ho.tempSInv, ho.tempHP, ho.tempPHt, ho.tempKHP⟩
    obtain ⟨st', y, h5, r5, l5⟩ := C73_observation_closure rx ry () f1.x o.y _ r3.x ho.y
    have hpd := innovCov_pd (H := coded rx ry (Spec.straight dt x)) hP1 radarR_pd
    obtain ⟨f2, o2, h6, r6, _, r7, _⟩ := C72_correct_nonlinear bld (by decide) r3 ho1 rfl hpd rfl h5 l5 r5
    refine ⟨f2, o2, _, _, _, _, _, ?_, r6, ?_, r7⟩
    · simp only [radarStep, h1, res_bind_ok, h3]
      rw [show o.z.setRow 0 z0 = _ from k1, res_bind_ok, show y1.setRow 1 z1 = _ from k2, res_bind_ok,
        show y2.setRow 2 z2 = _ from k3, res_bind_ok, h4, res_bind_ok, h6]
      rfl
    · exact corrP_psd hP1 radarR_pd.posSemidef ((Matrix.isUnit_iff_isUnit_det _).mp hpd.isUnit)

theorem radarLoop_reps (bld : Build) (rx ry dt : ℝ) (data : List (Option (ℝ × ℝ × ℝ))) {f : ExtendedKalman 4 ℝ}
    {o : ExtendedObservation 4 3 ℝ} {x A P H z} (hf : f.asRegular.Reps x A P radarQ) (hP : P.PosSemidef)
    (ho : o.asRegular.Reps H z radarR) :
    ∃ f' o' x' A' P', radarLoop bld rx ry dt f o data = .ok (f', o') ∧ f'.asRegular.Reps x' A' P' radarQ ∧
      P'.PosSemidef := by
  induction data generalizing f o x A P H z with
  | nil => exact ⟨f, o, x, A, P, rfl, hf, hP⟩
  | cons d data ih =>
    obtain ⟨f1, o1, x1, A1, P1, H1, z1, h1, h2, h3, h4⟩ := radarStep_reps bld rx ry dt hf hP ho d
    obtain ⟨f2, o2, x2, A2, P2, k1, k2, k3⟩ := ih h2 h3 h4
    refine ⟨f2, o2, x2, A2, P2, ?_, k2, k3⟩
    simp only [radarLoop, h1, res_bind_ok, k1]

end
end Examples

/-- C73: whatever the radar position, the time step and the sequence of measurements (made in any of the iterations),
the program does not panic and ends with a positive semi-definite covariance, although its Jacobian is wrong. -/
theorem C73_program_runs [MDT ℝ] [ExactReal] (bld : Build) (rx ry dt : ℝ) (data : List (Option (ℝ × ℝ × ℝ))) :
    ∃ f o x A P Q, radarExample bld rx ry dt data = .ok (f, o) ∧ f.asRegular.Reps x A P Q ∧ P.PosSemidef := by
  have b1 : (buildExtendedKalman bld : Res (ExtendedKalman 4 ℝ)) = .ok ((staticKalman 0).asExtended) := by
    rcases bld with ⟨_ | _, _ | _⟩ <;> rfl
  have b2 : (buildExtendedObservation bld : Res (ExtendedObservation 4 3 ℝ)) = .ok ((staticObservation 0).asExtended) := by
    rcases bld with ⟨_ | _, _ | _⟩ <;> rfl
  have v1 : ((staticKalman 0 : RegularKalman 4 ℝ).asExtended).asRegular.Valid :=
    ⟨Nat.le_refl _, Nat.le_refl _, Nat.le_refl _, Nat.le_refl _, Nat.le_refl _, Nat.le_refl _⟩
  have v2 : ((staticObservation 0 : RegularObservation 4 3 ℝ).asExtended).asRegular.Reps 0 0 0 := by
    refine ⟨?_, ?_, ?_, Nat.le_refl _, Nat.le_refl _, Nat.le_refl _, Nat.le_refl _, Nat.le_refl _, Nat.le_refl _,
      Nat.le_refl _⟩
    · intro i j; fin_cases i <;> fin_cases j <;> rfl
    · intro i; fin_cases i <;> rfl
    · intro i j; fin_cases i <;> fin_cases j <;> rfl
  obtain ⟨f, A, h1, h2⟩ := radarFilter_reps v1
  obtain ⟨o, h3, h4⟩ := radarMeasurement_reps v2
  obtain ⟨f', o', x', A', P', h5, h6, h7⟩ := radarLoop_reps bld rx ry dt data h2 Matrix.PosSemidef.one h4
  refine ⟨f', o', x', A', P', _, ?_, h6, h7⟩
  simp only [radarExample, b1, b2, h1, h3, res_bind_ok, h5]

/-! The hypotheses are met, for example, by the initial state of the example. -/

example : (⟨[0, 0, 1 / 2, 2]⟩ : Mat 4 1 ℝ).RepsV ![0, 0, 1 / 2, 2] ∧
    ((2 : ℝ) < (![0, 0, 1 / 2, 2] : Fin 4 → ℝ) 0 ∨ (![0, 0, 1 / 2, 2] : Fin 4 → ℝ) 1 ≠ 1) ∧
    (⟨List.replicate 12 0⟩ : Mat 3 4 ℝ).Valid := by
  refine ⟨fun i => by fin_cases i <;> rfl, Or.inr (by simp), Nat.le_refl _⟩

end Minikalman
