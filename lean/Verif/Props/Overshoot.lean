import Verif.Proofs.Overshoot
import Verif.Spec.GaussNewton
import Verif.Props.ExtendedHistory
import Verif.Props.Parts
import Mathlib.Analysis.Calculus.FDeriv.Pi
import Mathlib.Analysis.Calculus.FDeriv.Mul

/-!
# Property C115: an extended filter with one state does not overshoot if the slopes are not too small

And with the exact Jacobian, it may.
-/

set_option linter.unusedSectionVars false

namespace Minikalman

open Matrix

variable {σ : Type} [MDT ℝ] [ExactReal]

/-- C115: let all transitions map the range from `L` to `U` to itself, all measurements be values of their functions at points of the range, and let the
slopes that are supplied as Jacobians of the measurement functions be at least their steepest slopes in the range (`XInRangeRun`). In exact arithmetic, after
any history of calls with any covariances, the filter has not panicked and its estimate is in the range. -/
theorem C115_stays_in_range (bld : Build) {w : XWorld 1 ℝ σ} {s : Spec.State 1 ℝ} (h : w.Reps s) (hs : s.Psd) {L U : ℝ} (hx : L ≤ s.x 0 ∧ s.x 0 ≤ U)
    {ops : List (XOp 1 ℝ σ)} {sops : List (Spec.XOp 1 ℝ)} (hi : List.Forall₂ XOp.Implements ops sops) (hops : ∀ op ∈ ops, op.WellFormed w)
    (hl : ∀ op ∈ sops, op.linear.NonzeroLambda) (hd : ∀ op ∈ sops, s.PsdData op.linear) (ht : s.XInRangeRun L U sops) :
    ∃ w' x', w.run bld ops = .ok w' ∧ w'.kf.x.RepsV x' ∧ L ≤ x' 0 ∧ x' 0 ≤ U := by
  obtain ⟨w1, s1, h1, h2, h3, _⟩ := xrun_refines bld h hi hops (xpsd_regularRun hs hl hd)
  exact ⟨w1, s1.x, h1, h3.kf.x, Spec.xrun_inRange hs hx ht hl hd h2⟩

/-- C115, one correction: the measurement is the value of the function at `y`, and between the estimate and `y` the function is not steeper than the slope
that is supplied. Then the correction moves the estimate towards `y`, and not beyond. -/
theorem C115_between (bld : Build) {w : XWorld 1 ℝ σ} {s : Spec.State 1 ℝ} (h : w.Reps s) (hs : s.Psd) {i : Nat}
    {c : (m : Nat) → σ → Mat 1 1 ℝ → Mat m 1 ℝ → Res (σ × Mat m 1 ℝ)} {F : (m : Nat) → (Fin 1 → ℝ) → Fin m → ℝ} (hc : ∀ m, Computes (c m) (F m))
    (hop : i < w.obs.length) {p : Spec.Obs 1 1 ℝ} (hp : s.obs[i]? = some ⟨1, p⟩) {y : ℝ} (hy : F 1 (fun _ => y) 0 = p.z 0)
    (hF : Spec.NotSteeper (min (s.x 0) y) (max (s.x 0) y) (p.H 0 0) (fun a => F 1 (fun _ => a) 0)) :
    ∃ w' x', w.step bld (.correct i c) = .ok w' ∧ w'.kf.x.RepsV x' ∧ min (s.x 0) y ≤ x' 0 ∧ x' 0 ≤ max (s.x 0) y := by
  obtain ⟨w', s', h1, h2, h3, _⟩ := xstep_refines bld h (sop := .correct i F) (.correct hc) hop (psd_regular hs trivial)
  simp only [Spec.State.xstep, hp] at h2
  cases h2
  exact ⟨w', _, h1, h3.kf.x, Spec.xcorr_between hs.P (hs.obs _ (List.mem_of_getElem? hp)) hF ⟨min_le_left _ _, le_max_left _ _⟩
    ⟨min_le_right _ _, le_max_right _ _⟩ hy⟩

/-! ## Non-vacuity -/

namespace Ex

/-- A quadratic sensor. -/
noncomputable def quad (m : Nat) (x : Fin 1 → ℝ) : Fin m → ℝ := fun _ => x 0 * x 0

/-- A filter with a quadratic sensor that measured 9, with the slope `h`. -/
noncomputable def quadState (h : ℝ) : Spec.State 1 ℝ := ⟨![1], !![1], !![1], !![1], [], [⟨1, !![h], ![9], !![1]⟩]⟩

/-- The program. -/
noncomputable def quadWorld (h : ℝ) : XWorld 1 ℝ Unit where
  kf := ⟨⟨[1]⟩, ⟨[1]⟩, ⟨[1]⟩, ⟨[1]⟩, ⟨[0]⟩, ⟨[0]⟩⟩
  obs := [⟨1, ⟨⟨[h]⟩, ⟨[9]⟩, ⟨[1]⟩, ⟨[0]⟩, ⟨[0]⟩, ⟨[0]⟩, ⟨[0]⟩, ⟨[0]⟩, ⟨[0]⟩, ⟨[0]⟩⟩⟩]
  env := ()

theorem quadWorld_reps (h : ℝ) : (quadWorld h).Reps (quadState h) := by
  refine ⟨by decide, ⟨?_, ?_, ?_, ?_, Nat.le_refl _, Nat.le_refl _⟩, .nil,
    .cons (.mk Nat.one_pos ⟨?_, ?_, ?_, Nat.le_refl _, Nat.le_refl _, Nat.le_refl _, Nat.le_refl _, Nat.le_refl _,
      Nat.le_refl _, Nat.le_refl _⟩) .nil⟩
  all_goals first | (intro i j; fin_cases i; fin_cases j; rfl) | (intro i; fin_cases i; rfl)

theorem quadState_psd (h : ℝ) : (quadState h).Psd := by
  have h1 : (!![1] : Matrix (Fin 1) (Fin 1) ℝ).PosDef := by
    rw [show (!![1] : Matrix (Fin 1) (Fin 1) ℝ) = Matrix.diagonal fun _ => 1 by ext i j; fin_cases i; fin_cases j; rfl]
    exact Matrix.PosDef.diagonal fun _ => one_pos
  refine ⟨h1.posSemidef, h1.posSemidef, by simp [quadState], ?_⟩
  intro o ho
  simp only [quadState, List.mem_singleton] at ho
  subst ho
  exact h1

/-- 6 is the steepest slope of the quadratic sensor between 0 and 3. -/
theorem quad_notSteeper : Spec.NotSteeper 0 3 6 (fun a => quad 1 (fun _ => a) 0) := by
  intro a b h1 h2 h3
  show 0 ≤ 6 * (b * b - a * a) ∧ 6 * (b * b - a * a) ≤ 6 * 6 * (b - a)
  constructor <;> nlinarith [mul_nonneg (sub_nonneg.2 h2) (by linarith : (0 : ℝ) ≤ a + b), mul_nonneg (sub_nonneg.2 h2) (by linarith : (0 : ℝ) ≤ 6 - (a + b))]

/-- The transition of the example. -/
noncomputable def settle (x : Fin 1 → ℝ) : Fin 1 → ℝ := fun i => x i / 2 + 1

theorem quad_inRange (k : Nat) : ∀ s : Spec.State 1 ℝ, s.obs = (quadState 6).obs →
    s.XInRangeRun 0 3 (List.replicate k [Spec.XOp.correct 0 quad, .predict settle]).flatten := by
  induction k with
  | zero => intro s _; trivial
  | succ k ih =>
    intro s hs
    refine ⟨?_, fun s1 h1 => ⟨?_, fun s2 h2 => ih s2 ?_⟩⟩
    · intro o ho
      rw [hs] at ho
      cases ho
      exact ⟨_, rfl, quad_notSteeper, 3, by norm_num, by norm_num, by show (3 : ℝ) * 3 = 9; norm_num⟩
    · intro x h1 h2
      show 0 ≤ x 0 / 2 + 1 ∧ x 0 / 2 + 1 ≤ 3
      constructor <;> linarith
    · cases h2
      show s1.obs = _
      simp only [Spec.State.xstep, hs] at h1
      cases h1
      rfl

end Ex

open Ex in
/-- With the steepest slope 6 between 0 and 3, the estimate of the example stays there, after any number of corrections and predictions. -/
example (bld : Build) (k : Nat) : ∃ w' x',
    (quadWorld 6).run bld (List.replicate k [XOp.correct 0 fun m => closureOf (quad m), .predict (closureOf settle)]).flatten = .ok w' ∧
      w'.kf.x.RepsV x' ∧ 0 ≤ x' 0 ∧ x' 0 ≤ 3 := by
  refine C115_stays_in_range bld (quadWorld_reps 6) (quadState_psd 6) (by show (0 : ℝ) ≤ 1 ∧ (1 : ℝ) ≤ 3; norm_num)
    (sops := (List.replicate k [Spec.XOp.correct 0 quad, .predict settle]).flatten) ?_ ?_ ?_ ?_ (quad_inRange k _ rfl)
  · induction k with
    | zero => exact .nil
    | succ k ih => exact .cons (.correct fun m => computes_closureOf _) (.cons (.predict (computes_closureOf _)) ih)
  · intro op ho
    have ho := loop_mem' ho
    simp only [List.mem_cons, List.not_mem_nil, or_false] at ho
    rcases ho with rfl | rfl
    · exact Nat.zero_lt_one
    · trivial
  · intro op ho
    have ho := loop_mem' ho
    simp only [List.mem_cons, List.not_mem_nil, or_false] at ho
    rcases ho with rfl | rfl <;> trivial
  · intro op ho
    have ho := loop_mem' ho
    simp only [List.mem_cons, List.not_mem_nil, or_false] at ho
    rcases ho with rfl | rfl <;> trivial

open Ex in
/-- C115, the exact Jacobian is not enough: the sensor `x²` measured 9 where the estimate is 1 and the slope is 2; the true state is 3. The correction with this
slope leads to 4.2, beyond the true state. -/
theorem C115_exact_jacobian_overshoots (bld : Build) : Spec.IsDerivative (quad 1) !![2] ![1] ∧ (quadWorld 2).Reps (quadState 2) ∧ (quadState 2).Psd ∧
    quad 1 ![3] = ![9] ∧ ∃ w' x', (quadWorld 2).run bld [.correct 0 fun m => closureOf (quad m)] = .ok w' ∧ w'.kf.x.RepsV x' ∧ x' 0 = 21 / 5 ∧ 3 < x' 0 := by
  refine ⟨?_, quadWorld_reps 2, quadState_psd 2, ?_, ?_⟩
  · unfold Spec.IsDerivative
    rw [hasFDerivAt_pi']
    intro i
    have h0 : HasFDerivAt (fun x : Fin 1 → ℝ => x 0) (ContinuousLinearMap.proj 0 : (Fin 1 → ℝ) →L[ℝ] ℝ) ![1] :=
      (ContinuousLinearMap.proj 0 : (Fin 1 → ℝ) →L[ℝ] ℝ).hasFDerivAt
    refine (h0.mul h0).congr_fderiv ?_
    ext v
    fin_cases i
    simp [dotProduct]
    ring
  · ext i; fin_cases i; show (3 : ℝ) * 3 = 9; norm_num
  · obtain ⟨w', s', h1, h2, h3, _⟩ := xrun_refines bld (quadWorld_reps 2) (ops := [.correct 0 fun m => closureOf (quad m)]) (sops := [.correct 0 quad])
      (.cons (.correct fun m => computes_closureOf _) .nil)
      (by intro op ho; obtain rfl := List.mem_singleton.1 ho; exact Nat.zero_lt_one)
      (xpsd_regularRun (quadState_psd 2) (by intro op ho; obtain rfl := List.mem_singleton.1 ho; trivial)
        (by intro op ho; obtain rfl := List.mem_singleton.1 ho; trivial))
    cases h2
    have e : ((quadState 2).x + Spec.gain !![2] (quadState 2).P !![1] *ᵥ (![9] - quad 1 (quadState 2).x)) 0 = 21 / 5 := by
      rw [Pi.add_apply, mulVec_one, Spec.gain_one, Pi.sub_apply]
      simp [quadState, quad]
      norm_num
    exact ⟨w', _, h1, h3.kf.x, e, lt_of_lt_of_eq (by norm_num) e.symm⟩

end Minikalman
