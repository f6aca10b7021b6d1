import Mathlib.Algebra.Order.BigOperators.Ring.Finset
import Verif.Model.Simple
import Verif.Proofs.OpenLoop
import Verif.Proofs.WorstCase
import Verif.Props.History

/-!
# Property C95: stretches without measurements

Between two measurements any number of predictions, controls and changes of the model act like one prediction; closed forms for
repeated predictions; predictions can be merged, and time steps can be chosen freely; unmeasured uncertainty does not fade by itself.
Exact arithmetic.
-/

namespace Minikalman

open Matrix

variable {n : Nat}

section
variable [MDT ℝ] [ExactReal] (bld : Build) {w : World n ℝ} {s : Spec.State n ℝ}
include bld

/-- C95: calls without corrections have the same effect as one prediction and one control: the state becomes `Φ x + d`, the covariance
becomes `a (Φ P Φᵀ) + V`, where `Φ`, `d`, `a` and `V` do not depend on state and covariance; with covariances as noises, `V` is a
covariance. No call panics. -/
theorem C95_one_transition (h : w.Reps s) {ops : List (Op ℝ)} (hops : ∀ op ∈ ops, op.WellFormed w) (ho : ∀ op ∈ ops, op.OpenLoop) :
    ∃ f : Spec.Transfer n,
      (∀ (v : World n ℝ) (x : Fin n → ℝ) (P : Matrix (Fin n) (Fin n) ℝ), w.SameShape v → v.Reps { s with x := x, P := P } →
        ∃ v', v.run bld ops = .ok v' ∧ v'.kf.x.RepsV (f.Φ *ᵥ x + f.d) ∧ v'.kf.P.Reps (f.a • (f.Φ * P * f.Φᵀ) + f.V)) ∧
      (s.Psd → (∀ op ∈ ops, s.PsdData op) → f.V.PosSemidef) := by
  obtain ⟨_, s1, _, h2, _, _⟩ := run_refines bld h hops (Spec.openLoop_regular ho)
  obtain ⟨f, hf⟩ := Spec.run_transfer ho h2
  refine ⟨f, fun v x P hv hr => ?_, fun hs hd => ?_⟩
  · obtain ⟨v1, t1, k1, k2, k3, _⟩ := run_refines bld hr (fun op hop => (hops op hop).congr hv) (Spec.openLoop_regular ho)
    obtain ⟨t2, l1, _, l2, l3⟩ := hf _ (⟨rfl, rfl, rfl, rfl⟩ : Spec.EqualModel s { s with x := x, P := P })
    rw [k2] at l1
    cases l1
    refine ⟨v1, k1, ?_, ?_⟩
    · have := k3.kf.x; rwa [l2] at this
    · have := k3.kf.P; rwa [l3] at this
  · obtain ⟨t2, l1, _, _, l3⟩ := hf _ (⟨rfl, rfl, rfl, rfl⟩ : Spec.EqualModel s { s with P := 0 })
    have hP : t2.P = f.V := by rw [l3]; simp
    rw [← hP]
    have h0 : ({ s with P := 0 } : Spec.State n ℝ).Psd := ⟨PosSemidef.zero, hs.Q, hs.ctl, hs.obs⟩
    exact (run_cov_inv psd_closed l1 h0 (fun op hop => by have := hd op hop; cases op <;> exact this) (Spec.openLoop_regular ho)).P

/-- C95: after `k` predictions in a row, for every `k`, the state is `A^k x` and the covariance
`A^k P (A^k)ᵀ + Σ_{i<k} A^i Q (A^i)ᵀ`. -/
theorem C95_repeated_predictions (h : w.Reps s) (k : Nat) :
    ∃ w', w.run bld (List.replicate k .predict) = .ok w' ∧ w'.kf.x.RepsV (s.A ^ k *ᵥ s.x) ∧
      w'.kf.P.Reps (s.A ^ k * s.P * (s.A ^ k)ᵀ + ∑ i ∈ Finset.range k, s.A ^ i * s.Q * (s.A ^ i)ᵀ) := by
  obtain ⟨w1, s1, h1, h2, h3, _⟩ := run_refines bld h (ops := List.replicate k .predict)
    (fun op hop => by rw [List.eq_of_mem_replicate hop]; trivial)
    (Spec.openLoop_regular fun op hop => by rw [List.eq_of_mem_replicate hop]; trivial)
  rw [Spec.predict_repeat] at h2
  cases h2
  refine ⟨w1, h1, h3.kf.x, ?_⟩
  have := h3.kf.P
  simpa [Spec.accumulated] using this

/-- C95: `k` tuned predictions: the old covariance is enlarged by `1/λ^(2k)`, the noise of `i` steps ago by `1/λ^(2i)`. -/
theorem C95_repeated_tuned_predictions (h : w.Reps s) {lambda : ℝ} (hl : lambda ≠ 0) (k : Nat) :
    ∃ w', w.run bld (List.replicate k (.predictTuned lambda)) = .ok w' ∧ w'.kf.x.RepsV (s.A ^ k *ᵥ s.x) ∧
      w'.kf.P.Reps ((1 / lambda ^ (2 * k)) • (s.A ^ k * s.P * (s.A ^ k)ᵀ) +
        ∑ i ∈ Finset.range k, (1 / lambda ^ (2 * i)) • (s.A ^ i * s.Q * (s.A ^ i)ᵀ)) := by
  obtain ⟨w1, s1, h1, h2, h3, _⟩ := run_refines bld h (ops := List.replicate k (.predictTuned lambda))
    (fun op hop => by rw [List.eq_of_mem_replicate hop]; trivial)
    (Spec.openLoop_regular fun op hop => by rw [List.eq_of_mem_replicate hop]; exact hl)
  rw [Spec.predictTuned_repeat] at h2
  cases h2
  refine ⟨w1, h1, h3.kf.x, ?_⟩
  have := h3.kf.P
  simpa only [Spec.accumulated, one_div, inv_pow, ← pow_mul] using this

/-- C95: `k` times a prediction and a control with a constant input. -/
theorem C95_repeated_control (h : w.Reps s) {i l : Nat} {c : Spec.Ctl n l ℝ} (hc : s.ctl[i]? = some ⟨l, c⟩) (k : Nat) :
    ∃ w', w.run bld (List.replicate k [.predict, .control i]).flatten = .ok w' ∧
      w'.kf.x.RepsV (s.A ^ k *ᵥ s.x + ∑ j ∈ Finset.range k, s.A ^ j *ᵥ (c.B *ᵥ c.u)) ∧
      w'.kf.P.Reps (s.A ^ k * s.P * (s.A ^ k)ᵀ + ∑ j ∈ Finset.range k, s.A ^ j * (s.Q + c.B * c.Q * c.Bᵀ) * (s.A ^ j)ᵀ) := by
  have hi : i < w.ctl.length := by
    rw [h.ctl.length_eq]
    exact (List.getElem?_eq_some_iff.1 hc).1
  have hm : ∀ op ∈ (List.replicate k [.predict, .control i]).flatten, op = (.predict : Op ℝ) ∨ op = .control i := fun op hop => by
    obtain ⟨l, h1, h2⟩ := List.mem_flatten.1 hop
    rw [List.eq_of_mem_replicate h1] at h2
    simpa using h2
  obtain ⟨w1, s1, h1, h2, h3, _⟩ := run_refines bld h (ops := (List.replicate k [.predict, .control i]).flatten)
    (fun op hop => by rcases hm op hop with rfl | rfl; exacts [trivial, hi])
    (Spec.openLoop_regular fun op hop => by rcases hm op hop with rfl | rfl <;> trivial)
  rw [Spec.predictControl_repeat s hc] at h2
  cases h2
  refine ⟨w1, h1, ?_, ?_⟩
  · have := h3.kf.x
    simpa only [Matrix.sum_mulVec] using this
  · have := h3.kf.P
    simpa [Spec.accumulated] using this

/-- C95: a prediction with `A1`, `Q1` and then one with `A2`, `Q2` are the same as one prediction with `A2 A1` and
`A2 Q1 A2ᵀ + Q2`. -/
theorem C95_merged (bld' : Build) (h : w.Reps s) {a2 q2 a q : List ℝ} (ha2 : a2.length = w.kf.A.data.length)
    (hq2 : q2.length = w.kf.Q.data.length) (ha : a.length = w.kf.A.data.length) (hq : q.length = w.kf.Q.data.length)
    (hA : (Spec.matOf a : Matrix (Fin n) (Fin n) ℝ) = Spec.matOf a2 * s.A)
    (hQ : (Spec.matOf q : Matrix (Fin n) (Fin n) ℝ) = Spec.matOf a2 * s.Q * (Spec.matOf a2)ᵀ + Spec.matOf q2) :
    ∃ w1 w2 s', w.run bld [.predict, .setA a2, .setQ q2, .predict] = .ok w1 ∧
      w.run bld' [.setA a, .setQ q, .predict, .setA a2, .setQ q2] = .ok w2 ∧ w1.Reps s' ∧ w2.Reps s' := by
  obtain ⟨w1, s1, h1, h2, h3, _⟩ := run_refines bld h (ops := [.predict, .setA a2, .setQ q2, .predict])
    (by simp only [List.mem_cons, List.not_mem_nil, or_false, forall_eq_or_imp, forall_eq]; exact ⟨trivial, ha2, hq2, trivial⟩)
    (Spec.openLoop_regular (by
      simp only [List.mem_cons, List.not_mem_nil, or_false, forall_eq_or_imp, forall_eq]; exact ⟨trivial, trivial, trivial, trivial⟩))
  obtain ⟨w2, s2, k1, k2, k3, _⟩ := run_refines bld' h (ops := [.setA a, .setQ q, .predict, .setA a2, .setQ q2])
    (by simp only [List.mem_cons, List.not_mem_nil, or_false, forall_eq_or_imp, forall_eq]; exact ⟨ha, hq, trivial, ha2, hq2⟩)
    (Spec.openLoop_regular (by
      simp only [List.mem_cons, List.not_mem_nil, or_false, forall_eq_or_imp, forall_eq]
      exact ⟨trivial, trivial, trivial, trivial, trivial⟩))
  refine ⟨w1, w2, s1, h1, k1, h3, ?_⟩
  have e : s2 = s1 := by
    simp only [Spec.State.run, Spec.State.step, Option.bind_some, Option.some.injEq] at h2 k2
    rw [← h2, ← k2]
    congr 1
    · rw [hA, Matrix.mulVec_mulVec]
    · simp only [Spec.predP, hA, hQ, Matrix.mul_add, Matrix.add_mul, Matrix.transpose_mul, Matrix.mul_assoc, add_assoc]
  rwa [e] at k3

/-- C95: if the transition matrix is that of a time step `t` of a family with `Φ(a + b) = Φ(a) Φ(b)` (motion with constant velocity or
acceleration, matrix exponentials) and there is no process noise, then `k` predictions are one prediction with the time step `k t`. -/
theorem C95_time_steps (h : w.Reps s) {Φ : ℝ → Matrix (Fin n) (Fin n) ℝ} (h0 : Φ 0 = 1) (hΦ : ∀ a b, Φ (a + b) = Φ a * Φ b) {t : ℝ}
    (hA : s.A = Φ t) (hQ : s.Q = 0) (k : Nat) :
    ∃ w', w.run bld (List.replicate k .predict) = .ok w' ∧ w'.kf.x.RepsV (Φ (k * t) *ᵥ s.x) ∧
      w'.kf.P.Reps (Φ (k * t) * s.P * (Φ (k * t))ᵀ) := by
  have hk : ∀ k : Nat, s.A ^ k = Φ (k * t) := by
    intro k
    induction k with
    | zero => simp [h0]
    | succ k ih => rw [pow_succ, ih, hA, ← hΦ]; push_cast; ring_nf
  obtain ⟨w1, h1, h2, h3⟩ := C95_repeated_predictions bld h k
  refine ⟨w1, h1, by rw [← hk]; exact h2, ?_⟩
  rw [hQ, hk] at h3
  simpa using h3

/-- C95: what is not measured does not become more certain by itself. If `v` is a left eigenvector of the transition matrix for `μ`
(a combination of state variables that is multiplied by `μ` in every time step), then the variance of this combination after `k`
predictions is `μ^(2k)` times the old one plus `Σ μ^(2i)` times that of the process noise; with `|μ| ≥ 1` it is at least the old one
plus `k` times that of the noise, beyond all bounds. -/
theorem C95_unmeasured_direction (h : w.Reps s) (hP : s.P.PosSemidef) (hQ : s.Q.PosSemidef) {v : Fin n → ℝ} {μ : ℝ}
    (hv : s.Aᵀ *ᵥ v = μ • v) (k : Nat) :
    ∃ w' P, w.run bld (List.replicate k .predict) = .ok w' ∧ w'.kf.P.Reps P ∧
      v ⬝ᵥ P *ᵥ v = μ ^ (2 * k) * (v ⬝ᵥ s.P *ᵥ v) + (∑ i ∈ Finset.range k, μ ^ (2 * i)) * (v ⬝ᵥ s.Q *ᵥ v) ∧
      (1 ≤ |μ| → v ⬝ᵥ s.P *ᵥ v + k * (v ⬝ᵥ s.Q *ᵥ v) ≤ v ⬝ᵥ P *ᵥ v) := by
  obtain ⟨w1, h1, h2, h3⟩ := C95_repeated_predictions bld h k
  have e := Spec.accumulated_direction (Q := s.Q) hv k s.P
  simp only [Spec.accumulated, one_pow, one_smul] at e
  refine ⟨w1, _, h1, h3, e, fun hμ => ?_⟩
  rw [e]
  have p : ∀ i : Nat, 1 ≤ μ ^ (2 * i) := fun i => by
    rw [pow_mul, ← sq_abs]
    exact one_le_pow₀ (one_le_pow₀ hμ)
  have hp : 0 ≤ v ⬝ᵥ s.P *ᵥ v := Spec.quad_nonneg hP v
  have hq : 0 ≤ v ⬝ᵥ s.Q *ᵥ v := Spec.quad_nonneg hQ v
  have hs : (k : ℝ) ≤ ∑ i ∈ Finset.range k, μ ^ (2 * i) := by
    calc (k : ℝ) = ∑ _i ∈ Finset.range k, (1 : ℝ) := by simp
      _ ≤ _ := Finset.sum_le_sum fun i _ => p i
  nlinarith [mul_le_mul_of_nonneg_right (p k) hp, mul_le_mul_of_nonneg_right hs hq]

end

/-! ## The test filter -/

namespace Examples

/-- Motion with constant acceleration for the time `t`. -/
noncomputable def motion (t : ℝ) : Matrix (Fin 3) (Fin 3) ℝ := !![1, t, t ^ 2 / 2; 0, 1, t; 0, 0, 1]

theorem motion_zero : motion 0 = 1 := by
  ext i j
  fin_cases i <;> fin_cases j <;> simp [motion]

theorem motion_add (a b : ℝ) : motion (a + b) = motion a * motion b := by
  ext i j
  fin_cases i <;> fin_cases j <;> simp [motion, Matrix.mul_apply, Fin.sum_univ_three] <;> ring

/-- What `create_test_filter` sets up. -/
noncomputable def simpleState (dt : ℝ) : Spec.State 3 ℝ where
  x := 0
  A := motion dt
  P := Matrix.diagonal fun _ => 1 / 10
  Q := 0
  ctl := [⟨1, ⟨!![dt ^ 2 / 2; dt; 1], ![0], !![1]⟩⟩]
  obs := [⟨2, ⟨!![1, 0, 0; 1 / 3, 1 / 3, 1 / 3], ![0, 0], 1⟩⟩]

theorem createTestFilter_reps [Inhabited ℝ] (hd : (default : ℝ) = 0) [MDT ℝ] (bld : Build) (dt : ℝ) :
    ∃ w : World 3 ℝ, createTestFilter bld (1 / 2) (1 / 10) (1 / 3) dt = .ok w ∧ w.Reps (simpleState dt) := by
  obtain ⟨a, b⟩ := bld
  have : ∃ w : World 3 ℝ, createTestFilter ⟨a, b⟩ (1 / 2) (1 / 10) (1 / 3) dt = .ok w ∧
      w = ⟨⟨⟨[0, 0, 0]⟩, ⟨[1, dt, 1 / 2 * dt * dt, 0, 1, dt, 0, 0, 1]⟩, ⟨[1 / 10, 0, 0, 0, 1 / 10, 0, 0, 0, 1 / 10]⟩,
        ⟨List.replicate 9 default⟩, ⟨List.replicate 3 default⟩, ⟨List.replicate 9 default⟩⟩,
        [⟨1, ⟨⟨[1 / 2 * dt * dt, dt, 1]⟩, ⟨[0]⟩, ⟨[1]⟩, ⟨List.replicate 3 default⟩⟩⟩],
        [⟨2, { z := ⟨List.replicate 2 default⟩, H := ⟨[1, 0, 0, 1 / 3, 1 / 3, 1 / 3]⟩, R := ⟨[1, 0, 0, 1]⟩,
               y := ⟨List.replicate 2 default⟩, S := ⟨List.replicate 4 default⟩, K := ⟨List.replicate 6 default⟩,
               tempSInv := ⟨List.replicate 4 default⟩, tempHP := ⟨List.replicate 6 default⟩,
               tempPHt := ⟨List.replicate 6 default⟩, tempKHP := ⟨List.replicate 9 default⟩ }⟩]⟩ := by
    cases a <;> cases b <;> exact ⟨_, rfl, rfl⟩
  obtain ⟨w, h1, rfl⟩ := this
  refine ⟨_, h1, by decide, ?_, .cons (.mk ?_) .nil, .cons (.mk (by decide) ?_) .nil⟩
  · refine ⟨fun i => ?_, fun i j => ?_, fun i j => ?_, fun i j => ?_, Nat.le_refl _, Nat.le_refl _⟩
    · fin_cases i <;> rfl
    · fin_cases i <;> fin_cases j <;> (simp [simpleState, motion]; try ring)
    · fin_cases i <;> fin_cases j <;> simp [simpleState]
    · fin_cases i <;> fin_cases j <;> simp [simpleState, hd]
  · refine ⟨fun i j => ?_, fun i => ?_, fun i j => ?_, Nat.le_refl _⟩
    · fin_cases i <;> fin_cases j <;> (simp; try ring)
    · fin_cases i; rfl
    · fin_cases i; fin_cases j; rfl
  · refine ⟨fun i j => ?_, fun i => ?_, fun i j => ?_, Nat.le_refl _, Nat.le_refl _, Nat.le_refl _, Nat.le_refl _, Nat.le_refl _,
      Nat.le_refl _, Nat.le_refl _⟩
    · fin_cases i <;> fin_cases j <;> simp
    · fin_cases i <;> simp [hd]
    · fin_cases i <;> fin_cases j <;> simp

/-- C95 for the filter of `tests/simple.rs` with any time step `dt`: after any number `k` of predictions all states are zero, and the
variances of position, velocity and acceleration are those that the test expects for `dt = 1`, `k = 10` (260.1, 10.1 and 0.1). -/
theorem C95_simple_test [Inhabited ℝ] (hd : (default : ℝ) = 0) [MDT ℝ] [ExactReal] (bld : Build) (dt : ℝ) (k : Nat) :
    ∃ w w' P, createTestFilter bld (1 / 2) (1 / 10) (1 / 3) dt = .ok w ∧ w.run bld (List.replicate k .predict) = .ok w' ∧
      w'.kf.x.RepsV 0 ∧ w'.kf.P.Reps P ∧ P 0 0 = (1 + (k * dt) ^ 2 + (k * dt) ^ 4 / 4) / 10 ∧ P 1 1 = (1 + (k * dt) ^ 2) / 10 ∧
      P 2 2 = 1 / 10 := by
  obtain ⟨w, h1, h2⟩ := createTestFilter_reps hd bld dt
  obtain ⟨w', h3, h4, h5⟩ := C95_time_steps bld h2 motion_zero motion_add (t := dt) rfl rfl k
  refine ⟨w, w', _, h1, h3, ?_, h5, ?_, ?_, ?_⟩
  · simpa [simpleState] using h4
  all_goals
    simp [simpleState, motion, Matrix.mul_apply, Fin.sum_univ_three]
  · ring
  · ring

/-- The numbers in the test. -/
example : (1 + ((10 : Nat) * 1) ^ 2 + ((10 : Nat) * 1) ^ 4 / 4) / 10 = (260.1 : ℝ) ∧ (1 + ((10 : Nat) * 1) ^ 2) / 10 = (10.1 : ℝ) := by
  norm_num

end Examples

/-! ## Non-vacuity -/

namespace Ex

/-- The hypotheses of the theorems for `Ex.world`: a stretch with all kinds of calls. -/
example : (world ℝ).Reps (state ℝ) ∧ (state ℝ).Psd ∧
    (∀ op ∈ ([.predict, .control 0, .setA [1, 2, 0, 1], .predictTuned 2, .setU 0 [5], .control 0, .setZ 1 [7], .predict] : List (Op ℝ)),
      op.WellFormed (world ℝ)) ∧
    (∀ op ∈ ([.predict, .control 0, .setA [1, 2, 0, 1], .predictTuned 2, .setU 0 [5], .control 0, .setZ 1 [7], .predict] : List (Op ℝ)),
      op.OpenLoop) := by
  refine ⟨world_reps ℝ, state_psd, ?_, ?_⟩
  · simp only [List.mem_cons, List.not_mem_nil, or_false, forall_eq_or_imp, forall_eq]
    exact ⟨trivial, Nat.zero_lt_one, rfl, trivial, rfl, Nat.zero_lt_one, rfl, trivial⟩
  · simp only [List.mem_cons, List.not_mem_nil, or_false, forall_eq_or_imp, forall_eq]
    exact ⟨trivial, trivial, trivial, two_ne_zero, trivial, trivial, trivial, trivial⟩

/-- Two predictions that are merged: the hypotheses of `C95_merged`. -/
example : [(1 : ℝ), 2, 0, 1].length = (world ℝ).kf.A.data.length ∧ [(1 : ℝ), 0, 0, 1].length = (world ℝ).kf.Q.data.length ∧
    (Spec.matOf [(1 : ℝ), 3, 0, 1] : Matrix (Fin 2) (Fin 2) ℝ) = Spec.matOf [(1 : ℝ), 2, 0, 1] * (state ℝ).A ∧
    (Spec.matOf [(10 : ℝ), 4, 4, 3] : Matrix (Fin 2) (Fin 2) ℝ) =
      Spec.matOf [(1 : ℝ), 2, 0, 1] * (state ℝ).Q * (Spec.matOf [(1 : ℝ), 2, 0, 1])ᵀ + Spec.matOf [(1 : ℝ), 0, 0, 1] := by
  refine ⟨rfl, rfl, ?_, ?_⟩
  · ext i j
    fin_cases i <;> fin_cases j <;> simp [Spec.matOf, state, Matrix.mul_apply, Fin.sum_univ_two]
    norm_num
  · ext i j
    fin_cases i <;> fin_cases j <;> simp [Spec.matOf, state, Matrix.mul_apply, Fin.sum_univ_two] <;> norm_num

/-- A left eigenvector for the eigenvalue 1: the velocity. -/
example : (state ℝ).Aᵀ *ᵥ ![0, 1] = (1 : ℝ) • ![0, 1] := by
  ext i
  fin_cases i <;> simp [state, Matrix.mulVec, dotProduct, Fin.sum_univ_two]

end Ex
end Minikalman
