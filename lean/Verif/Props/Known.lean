import Verif.Proofs.Known
import Verif.Props.Late

/-!
# Property C118: what is known exactly

Which quantities the filter claims to know exactly (zero variance), after any history: exactly those that were known exactly at the
beginning and have not been affected by process noise since then. Measurements neither make anything known exactly nor
change what is.
-/

namespace Minikalman

open Matrix

variable {n m : Nat}

/-- C118: in exact arithmetic, run any calls except assignments of the estimate and the covariance, with positive semi-definite
covariances and positive definite measurement noises. The quantity `H ξ` of the state at the end has variance zero, `H P' = 0`, if
and only if at the beginning the uncertainty of the state (displacements in the range of `P`) did not affect it and no process noise
in between affects it. In this case the estimate of it is where the calls in between carry the initial estimate, whatever was
measured. -/
theorem C118_known_exactly [MDT ℝ] [ExactReal] (bld : Build) {w : World n ℝ} {s : Spec.State n ℝ} (h : w.Reps s)
    (hs : s.Psd) {ops : List (Op ℝ)} (hk : ∀ op ∈ ops, op.SetsNoEstimate) (hops : ∀ op ∈ ops, op.WellFormed w)
    (hl : ∀ op ∈ ops, op.NonzeroLambda) (hd : ∀ op ∈ ops, s.PsdData op) (H : Matrix (Fin m) (Fin n) ℝ) :
    ∃ w' x' P', w.run bld ops = .ok w' ∧ w'.kf.x.RepsV x' ∧ w'.kf.P.Reps P' ∧
      (H * P' = 0 ↔ (∀ ξ v, H *ᵥ s.evolved ops (ξ + s.P *ᵥ v) = H *ᵥ s.evolved ops ξ) ∧ s.Unaffected H ops) ∧
      (H * P' = 0 → H *ᵥ x' = H *ᵥ s.evolved ops s.x) := by
  obtain ⟨w', s', h1, h2, h3, _⟩ := run_refines bld h hops (psd_regularRun hs hl hd)
  obtain ⟨a, b⟩ := Spec.known_run hs hk hl hd h2 H
  exact ⟨w', s'.x, s'.P, h1, h3.kf.x, h3.kf.P, a, b⟩

/-- C118, what is uncertain stays uncertain: if the covariance is positive definite, then no quantity is ever known exactly, however
many corrections there are, with whatever observation objects. -/
theorem C118_never_certain [MDT ℝ] [ExactReal] (bld : Build) {w : World n ℝ} {s : Spec.State n ℝ} (h : w.Reps s)
    (hs : s.Psd) (hP : s.P.PosDef) {is : List Nat} (hops : ∀ i ∈ is, i < s.obs.length) (v : Fin n → ℝ) (hv : v ≠ 0) :
    ∃ w' P', w.run bld (is.map .correct) = .ok w' ∧ w'.kf.P.Reps P' ∧ 0 < v ⬝ᵥ P' *ᵥ v := by
  have hlen : w.obs.length = s.obs.length := h.obs.length_eq
  have hall : ∀ op ∈ is.map (Op.correct (T := ℝ)), op.SetsNoEstimate ∧ op.WellFormed w ∧ op.NonzeroLambda ∧
      s.PsdData op := by
    intro op ho
    obtain ⟨i, hi, rfl⟩ := List.mem_map.1 ho
    exact ⟨trivial, by simpa [Op.WellFormed, hlen] using hops i hi, trivial, trivial⟩
  have reg := psd_regularRun hs (fun o ho => (hall o ho).2.2.1) fun o ho => (hall o ho).2.2.2
  obtain ⟨w', s', h1, h2, h3, _⟩ := run_refines bld h (fun o ho => (hall o ho).2.1) reg
  obtain ⟨a, _⟩ := Spec.known_run hs (fun o ho => (hall o ho).1) (fun o ho => (hall o ho).2.2.1)
    (fun o ho => (hall o ho).2.2.2) h2 (Matrix.replicateRow (Fin 1) v)
  have hp' := run_cov_inv psd_closed h2 hs (fun o ho => (hall o ho).2.2.2) reg
  refine ⟨w', s'.P, h1, h3.kf.P, ?_⟩
  have nn : 0 ≤ v ⬝ᵥ s'.P *ᵥ v := by simpa using hp'.P.dotProduct_mulVec_nonneg v
  refine lt_of_le_of_ne nn fun e => hv ?_
  have z := (Spec.quad_zero hp'.P v).2 e.symm
  have g := (Spec.rows_zero (G := Matrix.replicateRow (Fin 1) v) (psd_symm hp'.P)).2 fun _ => z
  have ev : ∀ (l : List Nat) (t : Spec.State n ℝ) (ξ : Fin n → ℝ), t.evolved (l.map .correct) ξ = ξ := by
    intro l
    induction l with
    | nil => intro t ξ; rfl
    | cons i l ih =>
      intro t ξ
      simp only [List.map_cons, Spec.State.evolved]
      cases t.step (.correct i) with
      | none => rfl
      | some t' => exact ih t' ξ
  have k := (a.1 g).1 0
  simp only [ev, zero_add, Matrix.mulVec_zero] at k
  have k2 := k (s.P⁻¹ *ᵥ v)
  rw [Matrix.mulVec_mulVec, Matrix.mulVec_mulVec, Matrix.mul_assoc, Matrix.mul_nonsing_inv _ (pd_det hP), Matrix.mul_one] at k2
  have k3 : v ⬝ᵥ v = 0 := congrFun k2 0
  exact dotProduct_self_eq_zero.1 k3

/-- The hypotheses of `C118_known_exactly` are met by the history of `Props/History` without its assignment of the estimate. -/
example : (Ex.world ℝ).Reps (Ex.state ℝ) ∧ (Ex.state ℝ).Psd ∧
    (∀ op ∈ (Ex.ops ℝ).take 9, op.SetsNoEstimate ∧ op.WellFormed (Ex.world ℝ) ∧ op.NonzeroLambda ∧ (Ex.state ℝ).PsdData op) := by
  refine ⟨Ex.world_reps ℝ, Ex.state_psd, fun op ho => ⟨?_, Ex.ops_wellFormed ℝ op (List.mem_of_mem_take ho),
    (Ex.ops_psdData op (List.mem_of_mem_take ho)).2, (Ex.ops_psdData op (List.mem_of_mem_take ho)).1⟩⟩
  simp only [Ex.ops, List.take, List.mem_cons, List.not_mem_nil, or_false] at ho
  rcases ho with rfl | rfl | rfl | rfl | rfl | rfl | rfl | rfl | rfl <;> trivial

/-- A velocity that is known to be exactly 2 stays 2 through predictions and measurements of position and velocity, as long as no
process noise acts on it; then it is unknown again. -/
example : Ex.outcome ((Ex.world ℚ).run ⟨true, false⟩
      [.setP [1, 0, 0, 0, 0], .setQ [1, 0, 0, 0], .setR 0 [7], .setR 1 [1], .predict, .correct 0, .correct 1]) =
        .ok ([31 / 9, 2, 77], [14 / 9, 0, 0, 0, 0]) ∧
    Ex.outcome ((Ex.world ℚ).run ⟨true, false⟩
      [.setP [1, 0, 0, 0, 0], .setQ [1, 0, 0, 1], .setR 0 [7], .setR 1 [3], .predict, .correct 0, .correct 1]) =
        .ok ([31 / 9, 5 / 2, 77], [14 / 9, 0, 0, 3 / 4, 0]) :=
  ⟨by decide +kernel, by decide +kernel⟩

end Minikalman
