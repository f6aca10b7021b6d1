import Verif.Proofs.Convergence
import Verif.Props.ExtendedHistory
import Verif.Props.Steady

/-!
# Property C97: the extended filter converges locally

While the reported covariances stay bounded and the process noise is not zero, an extended filter that starts close enough to the truth
and is given accurate Jacobians converges to it exponentially, whatever the nonlinear system is; with bounded disturbances its error
stays bounded.
-/

namespace Minikalman

open Matrix Spec

variable {σ : Type} {n : Nat}

/-- C97 without disturbances: if the initial error is at most `N0` reported standard deviations in every direction, then after `k`
predictions and any number of corrections (at most `B.b` after each prediction) the error is at most `√p μᵏ N0`, with the explicit rate
`μ` of `Bounds.rate`. No step panics. -/
theorem C97_shrinking_error [MDT ℝ] [ExactReal] (bld : Build) {w : XWorld n ℝ σ} {s : State n ℝ} (h : w.Reps s) (hs : s.Psd)
    {B : Bounds} (hB : B.Valid) (hε : B.ε = 0) (hp : (B.p • (1 : Matrix (Fin n) (Fin n) ℝ) - s.P).PosSemidef) {N0 μ : ℝ} (h0 : 0 ≤ N0)
    (hμ : μ ≤ 1) (hr : B.rate N0 ≤ μ) {ops : List (XOp n ℝ σ)} {sops : List (Spec.XOp n ℝ)} (hi : List.Forall₂ XOp.Implements ops sops)
    (hops : ∀ op ∈ ops, op.WellFormed w) (hl : ∀ op ∈ sops, op.linear.NonzeroLambda) (hd : ∀ op ∈ sops, s.PsdData op.linear)
    {ξ ξ' : Fin n → ℝ} (hx : Within (N0 ^ 2) s.P (s.x - ξ)) {k : Nat} (ht : Tracked B s ξ 0 sops k ξ') :
    ∃ w1 x, w.run bld ops = .ok w1 ∧ w1.kf.x.RepsV x ∧ len (x - ξ') ≤ √B.p * (μ ^ k * N0) := by
  obtain ⟨i1, i2⟩ := shrinks hB hε h0 hμ hr
  obtain ⟨w1, s1, h1, h2, h3, _⟩ := xrun_refines bld h hi hops (xpsd_regularRun hs hl hd)
  obtain ⟨s2, c, N, r1, r2, r3, r4, r5⟩ := tracked_within hB
    (I := fun j c N => N * (1 + B.κ * B.p * N0 / √B.r) ^ c ≤ μ ^ j * N0) i1 i2 ht (j := 0) h0 (by simp) hs hl hd hp hx
  rw [h2] at r1
  cases r1
  refine ⟨w1, s1.x, h1, h3.kf.x, (short_within hB.p r2 r4 r5).trans (mul_le_mul_of_nonneg_left ?_ (Real.sqrt_nonneg _))⟩
  rw [Nat.zero_add] at r3
  refine (le_mul_of_one_le_right r2 (one_le_pow₀ ?_)).trans r3
  have : 0 ≤ B.κ * B.p * N0 / √B.r := div_nonneg (mul_nonneg (mul_nonneg hB.κ hB.p.le) h0) (Real.sqrt_nonneg _)
  linarith

/-- C97: exponential convergence. For all bounds there are a radius `δ > 0` and a rate `μ < 1` that depend on nothing else, such that
every extended filter within the bounds, for every nonlinear system, started with an error of at most `δ`, has an error of at most
`√(p / p0) μᵏ` times the initial error after `k` predictions; `p0` is a lower bound of the initial covariance. -/
theorem C97_exponential_convergence [MDT ℝ] [ExactReal] {B : Bounds} (hB : B.Valid) (hε : B.ε = 0) {p0 : ℝ} (hp0 : 0 < p0) :
    ∃ δ > 0, ∃ μ < 1, 0 ≤ μ ∧ ∀ (n : Nat) (σ : Type) (bld : Build) (w : XWorld n ℝ σ) (s : State n ℝ), w.Reps s → s.Psd →
      (s.P - p0 • (1 : Matrix (Fin n) (Fin n) ℝ)).PosSemidef → (B.p • (1 : Matrix (Fin n) (Fin n) ℝ) - s.P).PosSemidef →
      ∀ (ops : List (XOp n ℝ σ)) (sops : List (Spec.XOp n ℝ)), List.Forall₂ XOp.Implements ops sops → (∀ op ∈ ops, op.WellFormed w) →
        (∀ op ∈ sops, op.linear.NonzeroLambda) → (∀ op ∈ sops, s.PsdData op.linear) →
        ∀ (ξ ξ' : Fin n → ℝ) (k : Nat), len (s.x - ξ) ≤ δ → Tracked B s ξ 0 sops k ξ' →
          ∃ w1 x, w.run bld ops = .ok w1 ∧ w1.kf.x.RepsV x ∧ len (x - ξ') ≤ √(B.p / p0) * μ ^ k * len (s.x - ξ) := by
  obtain ⟨μ, h1, h2⟩ := exists_between hB.forget_lt
  obtain ⟨N0, h3, h4⟩ := exists_radius h1
  refine ⟨√p0 * N0, mul_pos (Real.sqrt_pos.2 hp0) h3, μ, h2, (Real.sqrt_nonneg _).trans h1.le, ?_⟩
  intro n σ bld w s h hs hq hp ops sops hi hops hl hd ξ ξ' k hx ht
  have hsq : 0 < √p0 := Real.sqrt_pos.2 hp0
  have k1 : 0 ≤ len (s.x - ξ) / √p0 := div_nonneg (len_nonneg _) hsq.le
  have k2 : len (s.x - ξ) / √p0 ≤ N0 := by
    rw [div_le_iff₀ hsq]
    linarith
  obtain ⟨w1, x, r1, r2, r3⟩ := C97_shrinking_error bld h hs hB hε hp k1 h2.le ((rate_mono hB k1 k2).trans h4) hi hops hl hd
    (within_short hp0 (lower_quad hq) le_rfl) ht
  refine ⟨w1, x, r1, r2, r3.trans (le_of_eq ?_)⟩
  rw [Real.sqrt_div hB.p.le]
  ring

/-- C97 with disturbances of length at most `ε`: an error of at most `N0` reported standard deviations in every direction stays at most
`√p N0` for ever, if `N0` satisfies the stated inequality, which leaves room for the disturbances and for the curvature. No step
panics. -/
theorem C97_bounded_error [MDT ℝ] [ExactReal] (bld : Build) {w : XWorld n ℝ σ} {s : State n ℝ} (h : w.Reps s) (hs : s.Psd)
    {B : Bounds} (hB : B.Valid) (hp : (B.p • (1 : Matrix (Fin n) (Fin n) ℝ) - s.P).PosSemidef) {N0 : ℝ} (h0 : 0 ≤ N0)
    (hN : √(1 - B.q / B.p) * N0 + (B.κ * B.p * N0 ^ 2 + B.ε) * (1 / √B.q + B.b / √B.r) ≤ N0)
    {ops : List (XOp n ℝ σ)} {sops : List (Spec.XOp n ℝ)} (hi : List.Forall₂ XOp.Implements ops sops)
    (hops : ∀ op ∈ ops, op.WellFormed w) (hl : ∀ op ∈ sops, op.linear.NonzeroLambda) (hd : ∀ op ∈ sops, s.PsdData op.linear)
    {ξ ξ' : Fin n → ℝ} (hx : Within (N0 ^ 2) s.P (s.x - ξ)) {k : Nat} (ht : Tracked B s ξ 0 sops k ξ') :
    ∃ w1 x, w.run bld ops = .ok w1 ∧ w1.kf.x.RepsV x ∧ len (x - ξ') ≤ √B.p * N0 := by
  obtain ⟨i1, i2⟩ := stays hB hN
  obtain ⟨w1, s1, h1, h2, h3, _⟩ := xrun_refines bld h hi hops (xpsd_regularRun hs hl hd)
  obtain ⟨s2, c, N, r1, r2, r3, r4, r5⟩ := tracked_within hB
    (I := fun _ c N => N + c * ((B.κ * B.p * N0 ^ 2 + B.ε) / √B.r) ≤ N0) (fun _ => i1) (fun _ => i2) ht (j := 0) h0 (by simp) hs hl hd hp hx
  rw [h2] at r1
  cases r1
  refine ⟨w1, s1.x, h1, h3.kf.x, (short_within hB.p r2 r4 r5).trans (mul_le_mul_of_nonneg_left ?_ (Real.sqrt_nonneg _))⟩
  have := mul_nonneg (Nat.cast_nonneg (α := ℝ) c) (div_nonneg (hB.noise N0) (Real.sqrt_nonneg B.r))
  linarith

/-- Without curvature the bound of `C97_bounded_error` is proportional to the disturbances and holds for all initial errors below it. -/
theorem C97_linear_radius {B : Bounds} (hB : B.Valid) (hκ : B.κ = 0) {N0 : ℝ}
    (hN : B.ε * (1 / √B.q + B.b / √B.r) / (1 - √(1 - B.q / B.p)) ≤ N0) :
    √(1 - B.q / B.p) * N0 + (B.κ * B.p * N0 ^ 2 + B.ε) * (1 / √B.q + B.b / √B.r) ≤ N0 := by
  have h1 : 0 < 1 - √(1 - B.q / B.p) := sub_pos.2 hB.forget_lt
  rw [div_le_iff₀ h1] at hN
  rw [hκ, zero_mul, zero_mul, zero_add]
  linarith

/-! ## Non-vacuity: a nonlinear sensor -/

namespace Ex

/-- The system halves its state in every step. -/
noncomputable def decay : (Fin 1 → ℝ) → Fin 1 → ℝ := fun x _ => x 0 / 2

/-- A quadratic sensor (in every component). -/
noncomputable def lens : (m : Nat) → (Fin 1 → ℝ) → Fin m → ℝ := fun _ x _ => x 0 + x 0 ^ 2 / 8

/-- Curvature 1/8, variances at most 1, process noise 1/2, measurement noise 1, one correction per prediction, no disturbances. -/
noncomputable def lensBounds : Bounds := ⟨1 / 8, 1, 1 / 2, 1, 0, 1⟩

theorem lensBounds_valid : lensBounds.Valid := by
  constructor <;> norm_num [lensBounds]

/-- The filter, whatever its estimate, observation matrix and measurement are. -/
noncomputable def lensState (x h z : ℝ) (P : Matrix (Fin 1) (Fin 1) ℝ) : State 1 ℝ :=
  ⟨fun _ => x, one1 (1 / 2), P, one1 (1 / 2), [], [⟨1, ⟨one1 h, fun _ => z, one1 1⟩⟩]⟩

/-- One cycle: the system and the filter move, the true state `ξ` is measured, the Jacobian is taken at the estimate `x`. -/
noncomputable def lensCycle (x ξ : ℝ) : List (Spec.XOp 1 ℝ) :=
  [.predict decay, .assign (.z 0 [ξ / 2 + (ξ / 2) ^ 2 / 8]), .assign (.H 0 [1 + x / 2 / 4]), .correct 0 lens]

/-- The same calls of the program. -/
noncomputable def lensCalls (x ξ : ℝ) : List (XOp 1 ℝ Unit) :=
  [.predict (closureOf decay), .assign (.z 0 [ξ / 2 + (ξ / 2) ^ 2 / 8]), .assign (.H 0 [1 + x / 2 / 4]),
    .correct 0 (fun m => closureOf (lens m))]

/-- The program. -/
noncomputable def lensWorld : XWorld 1 ℝ Unit :=
  World.asExtended (n := 1) (T := ℝ)
    ⟨⟨⟨[3]⟩, ⟨[1 / 2]⟩, ⟨[1]⟩, ⟨[1 / 2]⟩, ⟨[7]⟩, ⟨[7]⟩⟩, [],
      [⟨1, { H := ⟨[1]⟩, z := ⟨[0]⟩, R := ⟨[1]⟩, y := ⟨[9]⟩, S := ⟨[9]⟩, K := ⟨[9]⟩, tempSInv := ⟨[9]⟩, tempHP := ⟨[9]⟩, tempPHt := ⟨[9]⟩,
              tempKHP := ⟨[9]⟩ }⟩]⟩ ()

theorem lensWorld_reps : lensWorld.Reps (lensState 3 1 0 (one1 1)) := by
  refine ⟨by decide, ⟨fun i => ?_, fun i j => ?_, fun i j => ?_, fun i j => ?_, Nat.le_refl _, Nat.le_refl _⟩, .nil,
    .cons (.mk (by decide) ⟨fun i j => ?_, fun i => ?_, fun i j => ?_, Nat.le_refl _, Nat.le_refl _, Nat.le_refl _, Nat.le_refl _,
      Nat.le_refl _, Nat.le_refl _, Nat.le_refl _⟩) .nil⟩
  all_goals fin_cases i
  all_goals try fin_cases j
  all_goals try simp [lensWorld, World.asExtended, RegularKalman.asExtended, XWorld.asRegular, ExtendedKalman.asRegular, lensState, one1,
    ExtendedObservation.asRegular, RegularObservation.asExtended]

theorem len_one (v : Fin 1 → ℝ) : len v = |v 0| := by
  rw [len, dotProduct, Fin.sum_univ_one, ← sq, Real.sqrt_sq_eq_abs]

theorem one1_apply (a : ℝ) (v : Fin 1 → ℝ) : one1 a *ᵥ v = fun _ => a * v 0 := by
  funext i
  fin_cases i
  simp [one1, Matrix.mulVec, dotProduct]

theorem one1_one : (1 : Matrix (Fin 1) (Fin 1) ℝ) = one1 1 := by simp [one1]

theorem one1_smul (a b : ℝ) : a • one1 b = one1 (a * b) := by
  simp [one1, ← Matrix.diagonal_smul]

theorem one1_eq (M : Matrix (Fin 1) (Fin 1) ℝ) : M = one1 (M 0 0) := by
  ext i j
  fin_cases i; fin_cases j
  simp [one1]

theorem curved_decay (x ξ : Fin 1 → ℝ) : Curved (1 / 8) decay (one1 (1 / 2)) x ξ := by
  unfold Curved
  rw [len_one, one1_apply]
  simp only [decay, Pi.sub_apply, Pi.add_apply]
  rw [show ξ 0 / 2 - (x 0 / 2 + 1 / 2 * (ξ 0 - x 0)) = 0 by ring, abs_zero]
  positivity

theorem curved_lens (x ξ : Fin 1 → ℝ) : Curved (1 / 8) (lens 1) (one1 (1 + x 0 / 4)) x ξ := by
  unfold Curved
  rw [len_one, len_one, one1_apply, sq_abs]
  simp only [lens, Pi.sub_apply, Pi.add_apply]
  rw [show ξ 0 + ξ 0 ^ 2 / 8 - (x 0 + x 0 ^ 2 / 8 + (1 + x 0 / 4) * (ξ 0 - x 0)) = 1 / 8 * (ξ 0 - x 0) ^ 2 by ring,
    abs_of_nonneg (by positivity)]

theorem lens_setZ (x h z z' : ℝ) (P : Matrix (Fin 1) (Fin 1) ℝ) :
    (lensState x h z P).xstep (.assign (.z 0 [z'])) = some (lensState x h z' P) := by
  have e : (vecOf [z'] : Fin 1 → ℝ) = fun _ => z' := by
    funext i; fin_cases i; rfl
  simp only [State.xstep, Assign.toOp, State.step, lensState, List.getElem?_cons_zero, Option.map_some, List.set_cons_zero, e]

theorem lens_setH (x h h' z : ℝ) (P : Matrix (Fin 1) (Fin 1) ℝ) :
    (lensState x h z P).xstep (.assign (.H 0 [h'])) = some (lensState x h' z P) := by
  have e : (matOf [h'] : Matrix (Fin 1) (Fin 1) ℝ) = one1 h' := by
    ext i j; fin_cases i; fin_cases j; simp [matOf, one1]
  simp only [State.xstep, Assign.toOp, State.step, lensState, List.getElem?_cons_zero, Option.map_some, List.set_cons_zero, e]

/-- The estimate after the correction. -/
noncomputable def lensNext (x h z : ℝ) (P : Matrix (Fin 1) (Fin 1) ℝ) : ℝ :=
  ((fun _ => x) + gain (one1 h) P (one1 1) *ᵥ ((fun _ => z) - lens 1 (fun _ => x)) : Fin 1 → ℝ) 0

theorem lens_correct (x h z : ℝ) (P : Matrix (Fin 1) (Fin 1) ℝ) :
    (lensState x h z P).xstep (.correct 0 lens) = some (lensState (lensNext x h z P) h z (corrP (one1 h) P (one1 1))) := by
  have e : ((fun _ => x) + gain (one1 h) P (one1 1) *ᵥ ((fun _ => z) - lens 1 (fun _ => x)) : Fin 1 → ℝ) =
      fun _ => lensNext x h z P := by
    funext i
    rw [Subsingleton.elim i 0, lensNext]
  simp only [State.xstep, lensState, List.getElem?_cons_zero, Option.map_some, e]

/-- Any number of cycles is a history the theorems speak of. -/
theorem lens_tracked : ∀ (k : Nat) (x h z ξ : ℝ) (P : Matrix (Fin 1) (Fin 1) ℝ), P.PosSemidef → (one1 1 - P).PosSemidef →
    ∃ sops ops ξ', Tracked lensBounds (lensState x h z P) (fun _ => ξ) 0 sops k ξ' ∧ List.Forall₂ XOp.Implements ops sops ∧
      (∀ op ∈ ops, op.WellFormed lensWorld) ∧ (∀ op ∈ sops, op.linear.NonzeroLambda) ∧
      (∀ op ∈ sops, (lensState 3 1 0 (one1 1)).PsdData op.linear) ∧ sops.length = 4 * k
  | 0, x, h, z, ξ, P, _, _ => ⟨[], [], _, .nil, .nil, fun _ h => (List.not_mem_nil h).elim, fun _ h => (List.not_mem_nil h).elim,
      fun _ h => (List.not_mem_nil h).elim, rfl⟩
  | k + 1, x, h, z, ξ, P, hP, hP1 => by
    have hQ : (predP (one1 (1 / 2)) P (one1 (1 / 2))).PosSemidef := predP_psd hP (one1_psd (by norm_num))
    have hle : (one1 1 - predP (one1 (1 / 2)) P (one1 (1 / 2))).PosSemidef := by
      rw [one1_eq P, one1_sub] at hP1
      have h0 : 0 ≤ 1 - P 0 0 := by
        have := hP1.diag_nonneg (i := 0)
        simpa [one1] using this
      rw [one1_eq P, predP, one1_transpose, one1_mul, one1_mul, one1_add, one1_sub]
      exact one1_psd (by linarith)
    have hR : (one1 1).PosDef := one1_pd one_pos
    have hS := innovCov_pd (H := one1 (1 + x / 2 / 4)) hQ hR
    obtain ⟨sops, ops, ξ', h1, h2, h3, h4, h5, h6⟩ := lens_tracked k
      (lensNext (x / 2) (1 + x / 2 / 4) (ξ / 2 + (ξ / 2) ^ 2 / 8) (predP (one1 (1 / 2)) P (one1 (1 / 2)))) (1 + x / 2 / 4) (ξ / 2 + (ξ / 2) ^ 2 / 8) (ξ / 2)
      (corrP (one1 (1 + x / 2 / 4)) (predP (one1 (1 / 2)) P (one1 (1 / 2))) (one1 1)) (corrP_psd hQ hR.posSemidef (pd_det hS))
      (psd_sub_trans (corrP_le (psd_symm hQ) (pd_symm hR) hS) hle)
    refine ⟨lensCycle x ξ ++ sops, lensCalls x ξ ++ ops, ξ', ?_, ?_, ?_, ?_, ?_, ?_⟩
    · have hz1 : len (0 : Fin 1 → ℝ) ≤ lensBounds.ε := by simp [len, lensBounds]
      have e1 := lens_setZ (x / 2) h z (ξ / 2 + (ξ / 2) ^ 2 / 8) (predP (one1 (1 / 2)) P (one1 (1 / 2)))
      have e2 := lens_setH (x / 2) h (1 + x / 2 / 4) (ξ / 2 + (ξ / 2) ^ 2 / 8) (predP (one1 (1 / 2)) P (one1 (1 / 2)))
      have e3 := lens_correct (x / 2) (1 + x / 2 / 4) (ξ / 2 + (ξ / 2) ^ 2 / 8) (predP (one1 (1 / 2)) P (one1 (1 / 2)))
      have e4 : decay (fun _ => ξ) + 0 = fun _ => ξ / 2 := by
        rw [add_zero]; rfl
      have hcv : Curved lensBounds.κ (lens 1) (one1 (1 + x / 2 / 4)) (fun _ => x / 2) (fun _ => ξ / 2) :=
        curved_lens (fun _ => x / 2) (fun _ => ξ / 2)
      have hzz : (fun _ => ξ / 2 + (ξ / 2) ^ 2 / 8 : Fin 1 → ℝ) = lens 1 (fun _ => ξ / 2) + 0 := by
        rw [add_zero]; rfl
      have hrr : (one1 1 - lensBounds.r • (1 : Matrix (Fin 1) (Fin 1) ℝ)).PosSemidef := by
        rw [show lensBounds.r = 1 from rfl, one_smul, one1_one, sub_self]
        exact Matrix.PosSemidef.zero
      have t3 : Tracked lensBounds (lensState (x / 2) (1 + x / 2 / 4) (ξ / 2 + (ξ / 2) ^ 2 / 8) (predP (one1 (1 / 2)) P (one1 (1 / 2))))
          (fun _ => ξ / 2) 1 (.correct 0 lens :: sops) k ξ' :=
        Tracked.correct (o := ⟨one1 (1 + x / 2 / 4), fun _ => ξ / 2 + (ξ / 2) ^ 2 / 8, one1 1⟩) 0 lens rfl 0 hz1 hzz hcv hrr e3 h1
      have t2 := Tracked.assign (.z 0 [ξ / 2 + (ξ / 2) ^ 2 / 8]) trivial e1 (.assign (.H 0 [1 + x / 2 / 4]) trivial e2 t3)
      rw [← e4] at t2
      have hcd : Curved lensBounds.κ decay (one1 (1 / 2)) (fun _ => x) (fun _ => ξ) := curved_decay _ _
      have hqq : (one1 (1 / 2) - lensBounds.q • (1 : Matrix (Fin 1) (Fin 1) ℝ)).PosSemidef := by
        rw [show lensBounds.q = 1 / 2 from rfl, one1_one, one1_smul, one1_sub]
        exact one1_psd (by norm_num)
      have hpp : (lensBounds.p • (1 : Matrix (Fin 1) (Fin 1) ℝ) - predP (one1 (1 / 2)) P (one1 (1 / 2))).PosSemidef := by
        rw [show lensBounds.p = 1 from rfl, one_smul, one1_one]
        exact hle
      exact Tracked.predict (s := lensState x h z P) (s1 := lensState (x / 2) h z (predP (one1 (1 / 2)) P (one1 (1 / 2)))) decay 0 hz1 hcd
        hqq rfl hpp t2
    · exact .cons (.predict (computes_closureOf _)) (.cons .assign (.cons .assign (.cons (.correct fun m => computes_closureOf (lens m)) h2)))
    · intro op hop
      rcases List.mem_append.1 hop with hop | hop
      · simp only [lensCalls, List.mem_cons, List.not_mem_nil, or_false] at hop
        rcases hop with rfl | rfl | rfl | rfl
        · trivial
        · rfl
        · rfl
        · exact Nat.zero_lt_one
      · exact h3 op hop
    · intro op hop
      rcases List.mem_append.1 hop with hop | hop
      · simp only [lensCycle, List.mem_cons, List.not_mem_nil, or_false] at hop
        rcases hop with rfl | rfl | rfl | rfl <;> trivial
      · exact h4 op hop
    · intro op hop
      rcases List.mem_append.1 hop with hop | hop
      · simp only [lensCycle, List.mem_cons, List.not_mem_nil, or_false] at hop
        rcases hop with rfl | rfl | rfl | rfl <;> trivial
      · exact h5 op hop
    · rw [List.length_append, h6]
      simp only [lensCycle, List.length_cons, List.length_nil]
      omega

theorem lensState_psd : (lensState 3 1 0 (one1 1)).Psd := by
  refine ⟨one1_psd zero_le_one, one1_psd (by norm_num), fun c hc => (List.not_mem_nil hc).elim, fun o ho => ?_⟩
  obtain rfl := List.mem_singleton.1 ho
  exact one1_pd one_pos

/-- For this sensor `N0 = 1 / 2` meets the condition with a rate below `1`. -/
theorem lens_rate : lensBounds.rate (1 / 2) ≤ 9 / 10 := by
  have h1 : √(1 / 2 : ℝ) ≤ 0.7072 := by
    rw [show (0.7072 : ℝ) = √(0.7072 ^ 2) by rw [Real.sqrt_sq (by norm_num)]]
    exact Real.sqrt_le_sqrt (by norm_num)
  have h2 : (0.7 : ℝ) ≤ √(1 / 2) := by
    rw [show (0.7 : ℝ) = √(0.7 ^ 2) by rw [Real.sqrt_sq (by norm_num)]]
    exact Real.sqrt_le_sqrt (by norm_num)
  have e : lensBounds.rate (1 / 2) = (√(1 / 2) + 1 / 16 / √(1 / 2)) * (1 + 1 / 16) := by
    simp only [Bounds.rate, Bounds.forget, lensBounds, Real.sqrt_one]
    norm_num
  rw [e]
  have h3 : (1 / 16 : ℝ) / √(1 / 2) ≤ 1 / 16 / 0.7 := div_le_div_of_nonneg_left (by norm_num) (by norm_num) h2
  have h4 : √(1 / 2 : ℝ) + 1 / 16 / √(1 / 2) ≤ 0.7072 + 1 / 16 / 0.7 := add_le_add h1 h3
  calc _ ≤ (0.7072 + 1 / 16 / 0.7 : ℝ) * (1 + 1 / 16) := mul_le_mul_of_nonneg_right h4 (by norm_num)
    _ ≤ 9 / 10 := by norm_num

/-- The filter with the nonlinear sensor starts at `3` while the truth is `2.6`; after `k` cycles the error is at most `0.9ᵏ / 2`. -/
example [MDT ℝ] [ExactReal] (bld : Build) (k : Nat) :
    ∃ ops ξ' w1 x, lensWorld.run bld ops = .ok w1 ∧ ops.length = 4 * k ∧ w1.kf.x.RepsV x ∧ len (x - ξ') ≤ (9 / 10) ^ k * (1 / 2) := by
  obtain ⟨sops, ops, ξ', h1, h2, h3, h4, h5, h6⟩ := lens_tracked k 3 1 0 2.6 (one1 1) (one1_psd zero_le_one) (by
    rw [sub_self]; exact Matrix.PosSemidef.zero)
  obtain ⟨w1, x, r1, r2, r3⟩ := C97_shrinking_error bld lensWorld_reps lensState_psd lensBounds_valid rfl (by
    show ((1 : ℝ) • (1 : Matrix (Fin 1) (Fin 1) ℝ) - one1 1).PosSemidef
    rw [one_smul, one1_one, sub_self]
    exact Matrix.PosSemidef.zero) (N0 := 1 / 2) (by norm_num) (by norm_num) lens_rate h2 h3 h4 h5 (fun y => by
      show (y ⬝ᵥ ((fun _ => 3) - fun _ => 2.6 : Fin 1 → ℝ)) ^ 2 ≤ (1 / 2) ^ 2 * (y ⬝ᵥ one1 1 *ᵥ y)
      rw [one1_apply]
      simp [dotProduct]
      nlinarith [sq_nonneg (y 0)]) h1
  refine ⟨ops, ξ', w1, x, r1, by rw [h2.length_eq, h6], r2, ?_⟩
  rwa [show lensBounds.p = 1 from rfl, Real.sqrt_one, one_mul] at r3

/-- With disturbances of up to `1 / 100` errors of up to `1 / 2` standard deviations stay there. -/
example : ∃ B : Bounds, B.Valid ∧ 0 < B.ε ∧ 0 < B.κ ∧
    √(1 - B.q / B.p) * (1 / 2) + (B.κ * B.p * (1 / 2) ^ 2 + B.ε) * (1 / √B.q + B.b / √B.r) ≤ 1 / 2 := by
  refine ⟨⟨1 / 8, 1, 3 / 4, 1, 1 / 100, 1⟩, ?_, by norm_num, by norm_num, ?_⟩
  · constructor <;> norm_num
  · show √(1 - 3 / 4 / 1 : ℝ) * (1 / 2) + (1 / 8 * 1 * (1 / 2) ^ 2 + 1 / 100) * (1 / √(3 / 4) + (1 : Nat) / √1) ≤ 1 / 2
    have e1 : √(1 - 3 / 4 / 1 : ℝ) = 1 / 2 := by
      rw [show (1 - 3 / 4 / 1 : ℝ) = (1 / 2) ^ 2 by norm_num, Real.sqrt_sq (by norm_num)]
    have e2 : (1 / 2 : ℝ) ≤ √(3 / 4) := by
      rw [show (1 / 2 : ℝ) = √((1 / 2) ^ 2) by rw [Real.sqrt_sq (by norm_num)]]
      exact Real.sqrt_le_sqrt (by norm_num)
    have e3 : (1 : ℝ) / √(3 / 4) ≤ 2 := by
      calc (1 : ℝ) / √(3 / 4) ≤ 1 / (1 / 2) := div_le_div_of_nonneg_left (by norm_num) (by norm_num) e2
        _ = 2 := by norm_num
    rw [e1, Real.sqrt_one]
    push_cast
    nlinarith

end Ex
end Minikalman
