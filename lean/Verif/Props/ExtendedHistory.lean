import Verif.Props.Extended

/-!
# Properties C52 to C55: whole histories of the extended filter

A program holds one extended filter and any number of observations (`XWorld`) and performs an arbitrary list of API
calls (`XOp`) with arbitrary closures, including overwriting any user supplied buffer (the Jacobians in particular).
-/

set_option linter.unusedSectionVars false

namespace Minikalman

open Matrix

variable {T σ : Type} {n : Nat}

/-! ## Example program -/

/-- A closure that computes the function `g`: it writes `g x` to the first cells of its output and leaves the rest. -/
def closureOf [Zero T] {k : Nat} (g : (Fin n → T) → Fin k → T) (st : σ) (x : Mat n 1 T) (out : Mat k 1 T) :
    Res (σ × Mat k 1 T) :=
  .ok (st, ⟨List.ofFn (g (Spec.vecOf x.data)) ++ out.data.drop k⟩)

/-- Every function is computed by some closure: the hypotheses of C52 exclude no function. -/
theorem computes_closureOf [Zero T] {k : Nat} (g : (Fin n → T) → Fin k → T) :
    Computes (σ := σ) (closureOf g) g := by
  intro st x out X hx ho
  have hX : Spec.vecOf x.data = X := by
    funext i; simp only [Spec.vecOf, hx i, Option.getD_some]
  have hl : k ≤ out.data.length := by have : k * 1 ≤ out.data.length := ho; omega
  refine ⟨st, _, rfl, fun i => ?_, ?_⟩
  · rw [hX, List.getElem?_append_left (by simp)]
    simp
  · simp; omega

namespace Ex

/-- The example program with an extended filter and two sensors. -/
noncomputable def xworld : XWorld 2 ℝ Unit := (world ℝ).asExtended ()

/-- The textbook filter it holds. -/
noncomputable def xstate : Spec.State 2 ℝ := { state ℝ with ctl := [] }

/-- A nonlinear state transition `(a, b) ↦ (a b, a + b²)`. -/
noncomputable def trans : (Fin 2 → ℝ) → Fin 2 → ℝ := fun x => ![x 0 * x 1, x 0 + x 1 * x 1]

/-- A nonlinear measurement `(a, b) ↦ a² + b` (in every component). -/
noncomputable def meas : (m : Nat) → (Fin 2 → ℝ) → Fin m → ℝ := fun _ x _ => x 0 * x 0 + x 1

/-- A history with nonlinear functions, whose Jacobians are reassigned. -/
noncomputable def xops : List (XOp 2 ℝ Unit) :=
  [.predict (closureOf trans), .assign (.H 0 [2, 1]), .correct 0 (fun m => closureOf (meas m)),
    .assign (.A [2, 1, 1, 4]), .predictTuned 2 (closureOf trans), .correct 1 (fun m => closureOf (meas m))]

/-- The same history of the textbook filter. -/
noncomputable def sops : List (Spec.XOp 2 ℝ) :=
  [.predict trans, .assign (.H 0 [2, 1]), .correct 0 meas, .assign (.A [2, 1, 1, 4]), .predictTuned 2 trans,
    .correct 1 meas]

theorem xworld_reps : xworld.Reps xstate :=
  ⟨by decide, filter_reps ℝ, .nil,
    .cons (.mk (by decide) (obs_reps ℝ)) (.cons (.mk (by decide) (obs2_reps ℝ)) .nil)⟩

theorem xops_implement : List.Forall₂ XOp.Implements xops sops :=
  .cons (.predict (computes_closureOf _)) (.cons .assign (.cons (.correct fun m => computes_closureOf (meas m))
    (.cons .assign (.cons (.predictTuned (computes_closureOf _))
      (.cons (.correct fun m => computes_closureOf (meas m)) .nil)))))

theorem xops_wellFormed : ∀ op ∈ xops, op.WellFormed xworld := by
  simp only [xops, List.mem_cons, List.not_mem_nil, or_false, forall_eq_or_imp, forall_eq]
  exact ⟨trivial, rfl, Nat.zero_lt_two, rfl, trivial, Nat.one_lt_two⟩

theorem xstate_psd : xstate.Psd := ⟨state_psd.P, state_psd.Q, by simp [xstate], state_psd.obs⟩

theorem sops_psdData : ∀ op ∈ sops, xstate.PsdData op.linear ∧ op.linear.NonzeroLambda := by
  simp only [sops, List.mem_cons, List.not_mem_nil, or_false, forall_eq_or_imp, forall_eq, Op.NonzeroLambda,
    Spec.State.CovData, and_self, true_and, and_true, Spec.XOp.linear, Assign.toOp]
  norm_num

end Ex

/-! ## C52 -/

/-- C52: in exact real arithmetic the program refines the textbook extended filter over whole histories, for arbitrary
state transition and measurement functions. -/
theorem C52_refines_textbook_ekf [MDT ℝ] [ExactReal] (bld : Build) {w : XWorld n ℝ σ} {s : Spec.State n ℝ} (h : w.Reps s)
    {ops : List (XOp n ℝ σ)} {sops : List (Spec.XOp n ℝ)} (hi : List.Forall₂ XOp.Implements ops sops)
    (hops : ∀ op ∈ ops, op.WellFormed w) (hr : s.XRegularRun sops) :
    ∃ w' s', w.run bld ops = .ok w' ∧ s.xrun sops = some s' ∧ w'.Reps s' := by
  obtain ⟨w', s', h1, h2, h3, _⟩ := xrun_refines bld h hi hops hr
  exact ⟨w', s', h1, h2, h3⟩

example : Ex.xworld.Reps Ex.xstate ∧ List.Forall₂ XOp.Implements Ex.xops Ex.sops ∧
    (∀ op ∈ Ex.xops, op.WellFormed Ex.xworld) ∧ Ex.xstate.XRegularRun Ex.sops :=
  ⟨Ex.xworld_reps, Ex.xops_implement, Ex.xops_wellFormed, xpsd_regularRun Ex.xstate_psd
    (fun op h => (Ex.sops_psdData op h).2) (fun op h => (Ex.sops_psdData op h).1)⟩

/-! ## C53 -/

/-- C53: symmetric covariances of the extended filter stay symmetric over every history whose corrections have positive
definite innovation covariances, whatever the functions. -/
theorem C53_covariance_symmetric [MDT ℝ] [ExactReal] (bld : Build) {w : XWorld n ℝ σ} {s : Spec.State n ℝ} (h : w.Reps s)
    (hs : s.Symm) {ops : List (XOp n ℝ σ)} {sops : List (Spec.XOp n ℝ)} (hi : List.Forall₂ XOp.Implements ops sops)
    (hops : ∀ op ∈ ops, op.WellFormed w) (hd : ∀ op ∈ sops, s.SymmData op.linear) (hr : s.XRegularRun sops) :
    ∃ w' P', w.run bld ops = .ok w' ∧ w'.kf.P.Reps P' ∧ P'ᵀ = P' := by
  obtain ⟨w', s', h1, h2, h3, _⟩ := xrun_refines bld h hi hops hr
  exact ⟨w', s'.P, h1, h3.kf.P, (xrun_cov_inv symm_closed h2 hs hd hr).P⟩

/-- C53: with positive semi-definite `P`, `Q` and positive definite measurement noises (initially and in all
assignments) no history of the extended filter panics, the covariance is positive semi-definite at the end, and every
innovation covariance met on the way is positive definite, whatever the functions and the Jacobians. -/
theorem C53_covariance_psd [MDT ℝ] [ExactReal] (bld : Build) {w : XWorld n ℝ σ} {s : Spec.State n ℝ} (h : w.Reps s)
    (hs : s.Psd) {ops : List (XOp n ℝ σ)} {sops : List (Spec.XOp n ℝ)} (hi : List.Forall₂ XOp.Implements ops sops)
    (hops : ∀ op ∈ ops, op.WellFormed w) (hd : ∀ op ∈ sops, s.PsdData op.linear)
    (hl : ∀ op ∈ sops, op.linear.NonzeroLambda) :
    s.XRegularRun sops ∧
    ∃ w' s', w.run bld ops = .ok w' ∧ s.xrun sops = some s' ∧ w'.Reps s' ∧ s'.P.PosSemidef := by
  have hr := xpsd_regularRun hs hl hd
  obtain ⟨w', s', h1, h2, h3, _⟩ := xrun_refines bld h hi hops hr
  exact ⟨hr, w', s', h1, h2, h3, (xrun_cov_inv psd_closed h2 hs hd hr).P⟩

example : Ex.xworld.Reps Ex.xstate ∧ Ex.xstate.Psd ∧ List.Forall₂ XOp.Implements Ex.xops Ex.sops ∧
    (∀ op ∈ Ex.xops, op.WellFormed Ex.xworld) ∧ (∀ op ∈ Ex.sops, Ex.xstate.PsdData op.linear) ∧
    ∀ op ∈ Ex.sops, op.linear.NonzeroLambda :=
  ⟨Ex.xworld_reps, Ex.xstate_psd, Ex.xops_implement, Ex.xops_wellFormed, fun op h => (Ex.sops_psdData op h).1,
    fun op h => (Ex.sops_psdData op h).2⟩

/-! ## C54, C55 -/

section Any
variable [Zero T] [One T] [Add T] [Sub T] [Mul T] [Neg T] [MDT T]

/-- C54: two histories of the extended filter with the same matrices (Jacobians and noises) but different functions,
states and measurements (and different garbage in temporaries and different captured state) either panic alike or
end with the same covariance and matrices, in any arithmetic. -/
theorem C54_covariance_independent_of_functions (bld : Build) {w w' : XWorld n T σ} (hw : w.Valid) (hw' : w'.Valid)
    (h : w.asRegular.CovEq w'.asRegular) {ops ops' : List (XOp n T σ)} (hs : List.Forall₂ XOp.SameUpToData ops ops')
    (hops : ∀ op ∈ ops, op.WellFormed w) (hops' : ∀ op ∈ ops', op.WellFormed w')
    (hk : ∀ op ∈ ops, op.KeepsLength ∧ op.Total) (hk' : ∀ op ∈ ops', op.KeepsLength ∧ op.Total) :
    (∃ e, w.run bld ops = .error e ∧ w'.run bld ops' = .error e) ∨
    ∃ v v', w.run bld ops = .ok v ∧ w'.run bld ops' = .ok v' ∧ v.asRegular.CovEq v'.asRegular :=
  xrun_cov bld hw hw' h hs hops hops' hk hk'

/-- C55: a history of the extended filter on valid objects, with closures that keep the length of their output buffer,
can only panic because a closure panics or because `recip` or `square_root` of the element type panics; otherwise
all objects are valid and of the same shape at the end. -/
theorem C55_history_only_closure_or_scalar_panics (bld : Build) {w : XWorld n T σ} (hw : w.Valid)
    {ops : List (XOp n T σ)} (hops : ∀ op ∈ ops, op.WellFormed w) (hk : ∀ op ∈ ops, op.KeepsLength) :
    (∃ e, w.run bld ops = .error e ∧ (ScalarPanic T e ∨ ∃ op ∈ ops, op.ClosurePanic e)) ∨
    ∃ w', w.run bld ops = .ok w' ∧ w'.Valid ∧ w.asRegular.SameShape w'.asRegular :=
  xrun_safe bld hw hops hk

/-- C55 for element types with total `recip` and `square_root` (floats) and closures that do not panic. -/
theorem C55_history_never_panics [TotalScalar T] (bld : Build) {w : XWorld n T σ} (hw : w.Valid)
    {ops : List (XOp n T σ)} (hops : ∀ op ∈ ops, op.WellFormed w) (hk : ∀ op ∈ ops, op.KeepsLength ∧ op.Total) :
    ∃ w', w.run bld ops = .ok w' ∧ w'.Valid ∧ w.asRegular.SameShape w'.asRegular := by
  rcases xrun_safe bld hw hops (fun op h => (hk op h).1) with ⟨e, _, h | ⟨op, h1, h2⟩⟩ | h
  · exact absurd h (not_scalarPanic e)
  · have ht := (hk op h1).2
    cases op with
    | predict g => obtain ⟨a, b, c, h2⟩ := h2; obtain ⟨r, hr⟩ := ht a b c; rw [h2] at hr; cases hr
    | predictTuned l g => obtain ⟨a, b, c, h2⟩ := h2; obtain ⟨r, hr⟩ := ht a b c; rw [h2] at hr; cases hr
    | correct i g => obtain ⟨m, a, b, c, h2⟩ := h2; obtain ⟨r, hr⟩ := ht m a b c; rw [h2] at hr; cases hr
    | assign a => exact h2.elim
  · exact h

/-- A closure that overwrites its output buffer, one cell after the other, with `f i x` (never panics, keeps the length of
any buffer). -/
def Ex.fill {k : Nat} (f : Nat → Mat n 1 T → T) : Nat → Mat n 1 T → Mat k 1 T → Res (Nat × Mat k 1 T) :=
  fun st x out => .ok (st + 1, ⟨out.data.mapIdx fun i _ => f i x⟩)

theorem Ex.fill_ok {k : Nat} (f : Nat → Mat n 1 T → T) :
    KeepsLength (Ex.fill (k := k) f) ∧ ∀ st x out, ∃ r, Ex.fill (k := k) f st x out = .ok r := by
  refine ⟨?_, fun st x out => ⟨_, rfl⟩⟩
  intro st x out st' out' h
  cases h
  simp

end Any

/-- Two programs and histories with different functions and the hypotheses of C54 (and of C55). -/
example (f f' : Nat → Mat 2 1 ℚ → ℚ) :
    ((Ex.world ℚ).asExtended 0).Valid ∧
    ((Ex.world ℚ).asExtended (0 : Nat)).asRegular.CovEq
      ({ (Ex.world ℚ).asExtended 0 with env := 5 } : XWorld 2 ℚ Nat).asRegular ∧
    List.Forall₂ XOp.SameUpToData
      [.predict (Ex.fill f), .correct 0 (fun _ => Ex.fill f), .assign (.z 0 [3]), .predictTuned 2 (Ex.fill f)]
      [.predict (Ex.fill f'), .correct 0 (fun _ => Ex.fill f'), .assign (.z 0 [4]), .predictTuned 2 (Ex.fill f')] ∧
    ∀ op ∈ ([.predict (Ex.fill f), .correct 0 (fun _ => Ex.fill f), .assign (.z 0 [3]), .predictTuned 2 (Ex.fill f)] :
      List (XOp 2 ℚ Nat)), op.KeepsLength ∧ op.Total ∧ op.WellFormed ((Ex.world ℚ).asExtended 0) := by
  refine ⟨⟨by decide, (Ex.filter_reps ℚ).valid, by simp [XWorld.asRegular], (Ex.world_reps ℚ).valid.obs⟩,
    ⟨.refl _, .refl _, .refl _, .nil, .cons (.mk (.refl _) (.refl _)) (.cons (.mk (.refl _) (.refl _)) .nil)⟩,
    .cons (.predict _ _) (.cons (.correct 0 _ _) (.cons (.assignZ 0 _ _) (.cons (.predictTuned 2 _ _) .nil))), ?_⟩
  simp only [List.mem_cons, List.not_mem_nil, or_false, forall_eq_or_imp, forall_eq]
  exact ⟨⟨(Ex.fill_ok f).1, (Ex.fill_ok f).2, trivial⟩, ⟨fun m => (Ex.fill_ok f).1, fun m => (Ex.fill_ok f).2, Nat.zero_lt_two⟩,
    ⟨trivial, trivial, rfl⟩, ⟨(Ex.fill_ok f).1, (Ex.fill_ok f).2, trivial⟩⟩

end Minikalman
