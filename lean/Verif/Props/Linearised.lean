import Verif.Proofs.Linearised
import Verif.Props.ExtendedHistory
import Verif.Props.WorstCase

/-!
# Property C94: the extended filter is the regular filter of the linearised system

Whatever the functions are, a history of the extended filter is a history of the regular filter, for the system linearised where the
extended filter is at the time (`Spec/Linearised`); and its error is bounded by the reported covariance times the energy of everything
that is not in the linearised system.
-/

namespace Minikalman

open Matrix

variable {σ : Type} {n : Nat}

/-- C94: a program with an extended filter, and a program with a regular filter that has the same buffers and one more control (which
acts on the state directly and without noise). If the second makes the calls for the linearised system, both end with the same state,
covariance, model matrices and measurements; no step of either panics. -/
theorem C94_linearised_system [MDT ℝ] [ExactReal] (bld bld' : Build) {w : XWorld n ℝ σ} {s : Spec.State n ℝ} (h : w.Reps s)
    {c : Control n n ℝ} {u : Fin n → ℝ} (hc : c.Reps 1 u 0) (hu : c.u.data.length = n)
    (hz : ∀ o ∈ w.obs, o.2.z.data.length = o.1) {ops : List (XOp n ℝ σ)} {sops : List (Spec.XOp n ℝ)}
    (hi : List.Forall₂ XOp.Implements ops sops) (hops : ∀ op ∈ ops, op.WellFormed w) (hr : s.XRegularRun sops) :
    ∃ w' v' s' u', w.run bld ops = .ok w' ∧
      ({ w.asRegular with ctl := [⟨n, c⟩] } : World n ℝ).run bld' (s.linearisedRun sops) = .ok v' ∧
      w'.Reps s' ∧ v'.Reps (s'.steered u') := by
  refine linearised_refines bld bld' h (u := u) (v := { w.asRegular with ctl := [⟨n, c⟩] }) ?_ ⟨World.SameShape.refl _, ?_, ?_⟩ hi hops hr
  · exact ⟨h.states, h.kf, .cons (.mk hc) .nil, h.obs⟩
  · exact congrArg some hu
  · intro i
    show ((w.obs.map fun o => (⟨o.1, o.2.asRegular⟩ : (m : Nat) × RegularObservation n m ℝ))[i]?).map _ = _
    show _ = ((w.obs.map fun o => (⟨o.1, o.2.asRegular⟩ : (m : Nat) × RegularObservation n m ℝ))[i]?).map Sigma.fst
    rw [List.getElem?_map]
    cases hw : w.obs[i]? with
    | none => rfl
    | some o => exact congrArg some (hz o (List.mem_of_getElem? hw))

/-- C94: the error of the extended filter after a history is within `c0 + c` of the reported covariance, if the initial error was within
`c0` of the initial covariance and the disturbances (noise and everything the linearisation leaves out) had the total energy `c`; no step
panics. -/
theorem C94_worst_case_error [MDT ℝ] [ExactReal] (bld : Build) {w : XWorld n ℝ σ} {s : Spec.State n ℝ} (h : w.Reps s) (hs : s.Psd)
    {ops : List (XOp n ℝ σ)} {sops : List (Spec.XOp n ℝ)} (hi : List.Forall₂ XOp.Implements ops sops)
    (hops : ∀ op ∈ ops, op.WellFormed w) (hl : ∀ op ∈ sops, op.linear.NonzeroLambda) (hd : ∀ op ∈ sops, s.PsdData op.linear)
    {ξ ξ' : Fin n → ℝ} {c0 c : ℝ} (hc0 : 0 ≤ c0) (h0 : Spec.Within c0 s.P (s.x - ξ)) (ht : Spec.XReality s ξ sops c ξ') :
    ∃ w1 x P, w.run bld ops = .ok w1 ∧ w1.kf.x.RepsV x ∧ w1.kf.P.Reps P ∧ 0 ≤ c ∧ Spec.Within (c0 + c) P (x - ξ') ∧
      ∀ i, |x i - ξ' i| ≤ √((c0 + c) * P i i) := by
  obtain ⟨w1, s1, h1, h2, h3, _⟩ := xrun_refines bld h hi hops (xpsd_regularRun hs hl hd)
  obtain ⟨hc, s2, h4, h5⟩ := Spec.xreality_within ht hc0 hs hl hd h0
  rw [h2] at h4
  cases h4
  exact ⟨w1, s1.x, s1.P, h1, h3.kf.x, h3.kf.P, hc, h5, fun i => h5.entry i⟩

/-- C94 with positive definite covariances: `(x - ξ)ᵀ P⁻¹ (x - ξ)` grows at most by the energy of the disturbances. -/
theorem C94_mahalanobis [MDT ℝ] [ExactReal] (bld : Build) {w : XWorld n ℝ σ} {s : Spec.State n ℝ} (h : w.Reps s) (hs : s.Psd)
    (hP0 : s.P.PosDef) {ops : List (XOp n ℝ σ)} {sops : List (Spec.XOp n ℝ)} (hi : List.Forall₂ XOp.Implements ops sops)
    (hops : ∀ op ∈ ops, op.WellFormed w) (hl : ∀ op ∈ sops, op.linear.NonzeroLambda) (hd : ∀ op ∈ sops, s.PsdData op.linear)
    {ξ ξ' : Fin n → ℝ} {c : ℝ} (ht : Spec.XReality s ξ sops c ξ') :
    ∃ w1 x P, w.run bld ops = .ok w1 ∧ w1.kf.x.RepsV x ∧ w1.kf.P.Reps P ∧
      (P.PosDef → (x - ξ') ⬝ᵥ P⁻¹ *ᵥ (x - ξ') ≤ (s.x - ξ) ⬝ᵥ s.P⁻¹ *ᵥ (s.x - ξ) + c) := by
  have h0 : 0 ≤ (s.x - ξ) ⬝ᵥ s.P⁻¹ *ᵥ (s.x - ξ) := Spec.quad_nonneg hP0.inv.posSemidef _
  obtain ⟨w1, x, P, h1, h2, h3, hc, h4, _⟩ := C94_worst_case_error bld h hs hi hops hl hd h0
    ((Spec.within_iff h0 hP0 _).2 le_rfl) ht
  exact ⟨w1, x, P, h1, h2, h3, fun hP => (Spec.within_iff (add_nonneg h0 hc) hP _).1 h4⟩

/-! ## Non-vacuity -/

namespace Ex

/-- A control that acts on the state directly. -/
noncomputable def direct : Control 2 2 ℝ := ⟨⟨[1, 0, 0, 1]⟩, ⟨[3, 4]⟩, ⟨[0, 0, 0, 0]⟩, ⟨[9, 9, 9, 9]⟩⟩

theorem direct_reps : direct.Reps 1 ![3, 4] 0 := by
  refine ⟨fun i j => ?_, fun i => ?_, fun i j => ?_, Nat.le_refl _⟩
  · fin_cases i <;> fin_cases j <;> simp [direct]
  · fin_cases i <;> rfl
  · fin_cases i <;> fin_cases j <;> rfl

/-- The hypotheses of `C94_linearised_system` are met by a history with two nonlinear functions. -/
example : xworld.Reps xstate ∧ direct.Reps 1 ![3, 4] 0 ∧ direct.u.data.length = 2 ∧ (∀ o ∈ xworld.obs, o.2.z.data.length = o.1) ∧
    List.Forall₂ XOp.Implements xops sops ∧ (∀ op ∈ xops, op.WellFormed xworld) ∧ xstate.XRegularRun sops := by
  refine ⟨xworld_reps, direct_reps, rfl, ?_, xops_implement, xops_wellFormed,
    xpsd_regularRun xstate_psd (fun op h => (sops_psdData op h).2) (fun op h => (sops_psdData op h).1)⟩
  simp [xworld, World.asExtended, world, RegularObservation.asExtended, obs, obs2]

/-- A prediction and a measurement with nonlinear functions. -/
noncomputable def shortOps : List (Spec.XOp 2 ℝ) := [.predict trans, .correct 0 meas]

/-- The system was at `(1, 1)` and moved to `trans (1, 1) = (1, 2)` without noise; the disturbance is what the linearisation at the
estimate `(1, 2)` leaves out. The measured value was `5` instead of `meas (1, 2) = 3`. -/
theorem xreality : Spec.XReality xstate ![1, 1] shortOps (2 + (3 + 0)) ![1, 2] := by
  refine .predict (ξ1 := ![1, 2]) trans 2 (by norm_num) ?_ rfl (.correct 0 meas (m := 1) (o := ⟨!![1, 0], ![5], !![3]⟩) rfl 3
    (by norm_num) ?_ rfl .nil)
  · have e : (![1, 2] : Fin 2 → ℝ) - (trans xstate.x + xstate.A *ᵥ (![1, 1] - xstate.x)) = ![0, -2] := by
      ext i
      fin_cases i <;> simp [xstate, state, trans, Matrix.vecHead, Matrix.vecTail] <;> norm_num
    rw [e]
    intro y
    show (y ⬝ᵥ (![0, -2] : Fin 2 → ℝ)) ^ 2 ≤ 2 * (y ⬝ᵥ (!![1, 0; 0, 2] : Matrix (Fin 2) (Fin 2) ℝ) *ᵥ y)
    simp [dotProduct, Fin.sum_univ_two, Matrix.mulVec]
    nlinarith [sq_nonneg (y 0), sq_nonneg (y 1)]
  · have e : (![5] : Fin 1 → ℝ) - (meas 1 (trans xstate.x) + (!![1, 0] : Matrix (Fin 1) (Fin 2) ℝ) *ᵥ (![1, 2] - trans xstate.x)) =
        ![-3] := by
      ext i
      fin_cases i
      simp [xstate, state, trans, meas, Matrix.vecHead, Matrix.vecTail]
      norm_num
    show Spec.Within 3 (!![3] : Matrix (Fin 1) (Fin 1) ℝ) ((![5] : Fin 1 → ℝ) - (meas 1 (trans xstate.x) +
      (!![1, 0] : Matrix (Fin 1) (Fin 2) ℝ) *ᵥ (![1, 2] - trans xstate.x)))
    rw [e]
    intro y
    simp [dotProduct, Matrix.mulVec]
    nlinarith [sq_nonneg (y 0)]

/-- The hypotheses of `C94_worst_case_error` are met. -/
example : xworld.Reps xstate ∧ xstate.Psd ∧
    List.Forall₂ XOp.Implements ([.predict (closureOf trans), .correct 0 (fun m => closureOf (meas m))] : List (XOp 2 ℝ Unit)) shortOps ∧
    (∀ op ∈ ([.predict (closureOf trans), .correct 0 (fun m => closureOf (meas m))] : List (XOp 2 ℝ Unit)), op.WellFormed xworld) ∧
    (∀ op ∈ shortOps, op.linear.NonzeroLambda) ∧ (∀ op ∈ shortOps, xstate.PsdData op.linear) ∧
    Spec.Within 1 xstate.P (xstate.x - ![1, 1]) ∧ Spec.XReality xstate ![1, 1] shortOps (2 + (3 + 0)) ![1, 2] := by
  refine ⟨xworld_reps, xstate_psd, .cons (.predict (computes_closureOf _)) (.cons (.correct fun m => computes_closureOf (meas m)) .nil),
    ?_, ?_, ?_, initial_within, xreality⟩
  · simp only [List.mem_cons, List.not_mem_nil, or_false, forall_eq_or_imp, forall_eq]
    exact ⟨trivial, Nat.zero_lt_two⟩
  · simp only [shortOps, List.mem_cons, List.not_mem_nil, or_false, forall_eq_or_imp, forall_eq]
    exact ⟨trivial, trivial⟩
  · simp only [shortOps, List.mem_cons, List.not_mem_nil, or_false, forall_eq_or_imp, forall_eq]
    exact ⟨trivial, trivial⟩

end Ex
end Minikalman
