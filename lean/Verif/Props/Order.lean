import Verif.Proofs.Fusion
import Verif.Props.History
import Verif.Props.RoundingCorrect

/-!
# Properties C75, C76: the order of calls, and information adds up

C75: exchanging adjacent independent calls (`Spec/Order`) does not change what a program ends with. C76: measurements
that are not separated by predictions or control inputs add up their information (`Spec/Fusion`); repeating a measurement
is the same as measuring once with the mean value and the noise divided by the number of repetitions.
-/

namespace Minikalman

open Matrix

variable {T : Type} {n m : Nat}

/-! ## C75 -/

/-- C75: in exact arithmetic, a history and any reordering of it (exchange of adjacent corrections, of adjacent control
inputs, and of an assignment with a call that does not touch what is assigned) both run without panicking and end with
the same state vector, covariance and all other vectors and matrices. -/
theorem C75_reordering [MDT ℝ] [ExactReal] (bld bld' : Build) {w : World n ℝ} {s : Spec.State n ℝ} (h : w.Reps s)
    (hs : s.Psd) {ops ops' : List (Op ℝ)} (hops : ∀ op ∈ ops, op.WellFormed w) (hl : ∀ op ∈ ops, op.NonzeroLambda)
    (hd : ∀ op ∈ ops, s.PsdData op) (ho : Reordered Op.Independent ops ops') :
    ∃ w1 w1' s1, w.run bld ops = .ok w1 ∧ w.run bld' ops' = .ok w1' ∧ w1.Reps s1 ∧ w1'.Reps s1 := by
  have hp := ho.perm
  obtain ⟨w1, s1, h1, h2, h3, _⟩ := run_refines bld h hops (psd_regularRun hs hl hd)
  obtain ⟨w1', s1', h1', h2', h3', _⟩ := run_refines bld' h (fun o h => hops o (hp.mem_iff.2 h))
    (psd_regularRun hs (fun o h => hl o (hp.mem_iff.2 h)) (fun o h => hd o (hp.mem_iff.2 h)))
  rw [← Spec.spec_reordered ho hs hl hd, h2] at h2'
  cases h2'
  exact ⟨w1, w1', s1, h1, h1', h3, h3'⟩

/-- C75, simultaneous measurements: any number of corrections in a row may be done in any order (also several with the
same observation object), whatever happened before and whatever happens afterwards. -/
theorem C75_measurement_order [MDT ℝ] [ExactReal] (bld bld' : Build) {w : World n ℝ} {s : Spec.State n ℝ}
    (h : w.Reps s) (hs : s.Psd) {before after : List (Op ℝ)} {is js : List Nat} (hp : is.Perm js)
    (hops : ∀ op ∈ before ++ is.map .correct ++ after, op.WellFormed w)
    (hl : ∀ op ∈ before ++ is.map .correct ++ after, op.NonzeroLambda)
    (hd : ∀ op ∈ before ++ is.map .correct ++ after, s.PsdData op) :
    ∃ w1 w1' s1, w.run bld (before ++ is.map .correct ++ after) = .ok w1 ∧
      w.run bld' (before ++ js.map .correct ++ after) = .ok w1' ∧ w1.Reps s1 ∧ w1'.Reps s1 := by
  refine C75_reordering bld bld' h hs hops hl hd (.append_right after (.append_left before ?_))
  refine .of_perm (hp.map _) ?_
  simp only [List.mem_map]
  rintro _ ⟨i, _, rfl⟩ _ ⟨j, _, rfl⟩
  exact .corrections i j

/-- C75, control inputs: any number of control inputs in a row may be applied in any order. -/
theorem C75_control_order [MDT ℝ] [ExactReal] (bld bld' : Build) {w : World n ℝ} {s : Spec.State n ℝ}
    (h : w.Reps s) (hs : s.Psd) {before after : List (Op ℝ)} {is js : List Nat} (hp : is.Perm js)
    (hops : ∀ op ∈ before ++ is.map .control ++ after, op.WellFormed w)
    (hl : ∀ op ∈ before ++ is.map .control ++ after, op.NonzeroLambda)
    (hd : ∀ op ∈ before ++ is.map .control ++ after, s.PsdData op) :
    ∃ w1 w1' s1, w.run bld (before ++ is.map .control ++ after) = .ok w1 ∧
      w.run bld' (before ++ js.map .control ++ after) = .ok w1' ∧ w1.Reps s1 ∧ w1'.Reps s1 := by
  refine C75_reordering bld bld' h hs hops hl hd (.append_right after (.append_left before ?_))
  refine .of_perm (hp.map _) ?_
  simp only [List.mem_map]
  rintro _ ⟨i, _, rfl⟩ _ ⟨j, _, rfl⟩
  exact .controls i j

/-- C75, assignments: in any arithmetic, exchanging assignments with calls that do not touch what is assigned changes
nothing at all: the two runs end in the very same state of all buffers, temporaries and surplus cells included, or panic
in the same way. -/
theorem C75_assignment_order [Zero T] [One T] [Add T] [Sub T] [Mul T] [Neg T] [MDT T] (bld : Build) {w : World n T}
    (hw : w.Valid) {ops ops' : List (Op T)} (hops : ∀ op ∈ ops, op.WellFormed w) (ho : Reordered Op.Beside ops ops') :
    w.run bld ops = w.run bld ops' := beside_run bld ho hw hops

namespace Ex

/-- `ops` of `Props/History` in another order: the measurement is set earlier and used first, the control value is set
before the corrections, the noise before the prediction. -/
def opsReordered (T : Type) [Field T] : List (Op T) :=
  [.setZ 1 [7], .predict, .control 0, .correct 1, .correct 0, .setU 0 [-1], .control 0, .setR 0 [4], .predictTuned 2,
    .setA [1, 2, 0, 1], .setX [0, 0, 13], .correct 0]

theorem beside {T : Type} {a b : Op T} {c : Cell} (h : a.assigns = some c) (hb : c ∉ b.touches := by simp [Op.touches]) :
    a.AssignsBeside b := ⟨c, h, hb⟩

theorem ops_reordered (T : Type) [Field T] : Reordered Op.Independent (ops T) (opsReordered T) := by
  have s1 : Reordered Op.Independent (ops T) [.predict, .control 0, .setZ 1 [7], .correct 0, .correct 1, .setU 0 [-1],
      .control 0, .predictTuned 2, .setR 0 [4], .setX [0, 0, 13], .setA [1, 2, 0, 1], .correct 0] :=
    .cons _ (.cons _ (.swap (.right (beside rfl)) _))
  have s2 : Reordered Op.Independent [.predict, .control 0, .setZ 1 [7], .correct 0, .correct 1, .setU 0 [-1],
      .control 0, .predictTuned 2, .setR 0 [4], .setX [0, 0, 13], .setA [1, 2, 0, 1], .correct 0]
      [.predict, .setZ 1 [7], .control 0, .correct 0, .correct 1, .setU 0 [-1],
      .control 0, .predictTuned 2, .setR 0 [4], .setX [0, 0, 13], .setA [1, 2, 0, 1], (.correct 0 : Op T)] :=
    .cons _ (.swap (.right (beside rfl)) _)
  have s3 : Reordered Op.Independent
      [.predict, .setZ 1 [7], .control 0, .correct 0, .correct 1, .setU 0 [-1],
      .control 0, .predictTuned 2, .setR 0 [4], .setX [0, 0, 13], .setA [1, 2, 0, 1], (.correct 0 : Op T)]
      [.setZ 1 [7], .predict, .control 0, .correct 0, .correct 1, .setU 0 [-1],
      .control 0, .predictTuned 2, .setR 0 [4], .setX [0, 0, 13], .setA [1, 2, 0, 1], .correct 0] :=
    .swap (.right (beside rfl)) _
  have s4 : Reordered Op.Independent
      [.setZ 1 [7], .predict, .control 0, .correct 0, .correct 1, .setU 0 [-1],
      .control 0, .predictTuned 2, .setR 0 [4], .setX [0, 0, 13], .setA [1, 2, 0, 1], (.correct 0 : Op T)]
      [.setZ 1 [7], .predict, .control 0, .correct 1, .correct 0, .setU 0 [-1],
      .control 0, .predictTuned 2, .setR 0 [4], .setX [0, 0, 13], .setA [1, 2, 0, 1], .correct 0] :=
    .cons _ (.cons _ (.cons _ (.swap (.corrections 0 1) _)))
  have s5 : Reordered Op.Independent
      [.setZ 1 [7], .predict, .control 0, .correct 1, .correct 0, .setU 0 [-1],
      .control 0, .predictTuned 2, .setR 0 [4], .setX [0, 0, 13], .setA [1, 2, 0, 1], (.correct 0 : Op T)]
      (opsReordered T) :=
    .cons _ (.cons _ (.cons _ (.cons _ (.cons _ (.cons _ (.cons _ (.trans (.swap (.right (beside rfl)) _)
      (.cons _ (.cons _ (.swap (.right (beside rfl)) _))))))))))
  exact s1.trans (s2.trans (s3.trans (s4.trans s5)))

end Ex

/-- The hypotheses of `C75_reordering` are met by the history of `Props/History` and a reordering of it. -/
example : (Ex.world ℝ).Reps (Ex.state ℝ) ∧ (Ex.state ℝ).Psd ∧ (∀ op ∈ Ex.ops ℝ, op.WellFormed (Ex.world ℝ)) ∧
    (∀ op ∈ Ex.ops ℝ, op.NonzeroLambda) ∧ (∀ op ∈ Ex.ops ℝ, (Ex.state ℝ).PsdData op) ∧
    Reordered Op.Independent (Ex.ops ℝ) (Ex.opsReordered ℝ) :=
  ⟨Ex.world_reps ℝ, Ex.state_psd, Ex.ops_wellFormed ℝ, fun op h => (Ex.ops_psdData op h).2,
    fun op h => (Ex.ops_psdData op h).1, Ex.ops_reordered ℝ⟩

/-- What a run ends with, for comparisons. -/
def Ex.outcome {n : Nat} {T : Type} (r : Res (World n T)) : Res (List T × List T) :=
  r.map fun w => (w.kf.x.data, w.kf.P.data)

/-- Two orders of two corrections of correlated states, on rational numbers. -/
example : Ex.outcome ((Ex.world ℚ).run ⟨true, false⟩
      [.setP [4, 3, 3, 3, 0], .setR 0 [9 / 4], .setR 1 [1], .correct 0, .correct 1]) =
        .ok ([115 / 32, 127 / 32, 77], [63 / 64, 27 / 64, 27 / 64, 39 / 64, 0]) ∧
    Ex.outcome ((Ex.world ℚ).run ⟨true, false⟩
      [.setP [4, 3, 3, 3, 0], .setR 1 [1], .setR 0 [9 / 4], .correct 1, .correct 0]) =
        .ok ([115 / 32, 127 / 32, 77], [63 / 64, 27 / 64, 27 / 64, 39 / 64, 0]) :=
  ⟨by decide +kernel, by decide +kernel⟩

/-- The other pairs of calls do not commute: prediction and correction, prediction and control input, control input and
correction, an assignment and a call that uses it. -/
example : Ex.outcome ((Ex.world ℚ).run ⟨true, false⟩ [.setR 0 [33 / 16], .predict, .correct 0]) =
        .ok ([113 / 27, 194 / 81, 77], [11 / 9, 11 / 27, 11 / 27, 227 / 81, 78]) ∧
      Ex.outcome ((Ex.world ℚ).run ⟨true, false⟩ [.setR 0 [33 / 16], .correct 0, .predict]) =
        .ok ([211 / 49, 2, 77], [131 / 49, 1, 1, 3, 78]) ∧
    Ex.outcome ((Ex.world ℚ).run ⟨true, false⟩ [.predict, .control 0]) =
        .ok ([6, 8, 77], [4, 3, 3, 7, 78]) ∧
      Ex.outcome ((Ex.world ℚ).run ⟨true, false⟩ [.control 0, .predict]) =
        .ok ([12, 8, 77], [12, 7, 7, 7, 78]) ∧
    Ex.outcome ((Ex.world ℚ).run ⟨true, false⟩ [.setR 0 [7 / 9], .control 0, .correct 0]) =
        .ok ([118 / 25, 218 / 25, 77], [14 / 25, 14 / 25, 14 / 25, 89 / 25, 78]) ∧
      Ex.outcome ((Ex.world ℚ).run ⟨true, false⟩ [.setR 0 [7 / 9], .correct 0, .control 0]) =
        .ok ([25 / 4, 8, 77], [23 / 16, 2, 2, 5, 78]) ∧
    Ex.outcome ((Ex.world ℚ).run ⟨true, false⟩ [.setZ 0 [9], .correct 0]) =
        .ok ([3, 2, 77], [3 / 4, 0, 0, 1, 78]) ∧
      Ex.outcome ((Ex.world ℚ).run ⟨true, false⟩ [.correct 0, .setZ 0 [9]]) =
        .ok ([2, 2, 77], [3 / 4, 0, 0, 1, 78]) :=
  ⟨by decide +kernel, by decide +kernel, by decide +kernel, by decide +kernel, by decide +kernel, by decide +kernel,
    by decide +kernel, by decide +kernel⟩

/-! ## C76 -/

/-- C76: in exact arithmetic, if the covariance is positive definite and a history consists of corrections and of
assignments of anything but state and covariance, then the program does not panic, its covariance `P'` stays positive
definite, and each correction has added its `Hᵀ R⁻¹ H` to the inverse covariance and its `Hᵀ R⁻¹ z` to the information
vector: `P'⁻¹ = P⁻¹ + Σ Hᵀ R⁻¹ H` and `P'⁻¹ x' = P⁻¹ x + Σ Hᵀ R⁻¹ z`. -/
theorem C76_information_adds_up [MDT ℝ] [ExactReal] (bld : Build) {w : World n ℝ} {s : Spec.State n ℝ} (h : w.Reps s)
    (hs : s.Psd) (hP : s.P.PosDef) {ops : List (Op ℝ)} (hops : ∀ op ∈ ops, op.WellFormed w)
    (hd : ∀ op ∈ ops, s.PsdData op) (hm : ∀ op ∈ ops, op.Measures) :
    ∃ w' x' P', w.run bld ops = .ok w' ∧ w'.kf.x.RepsV x' ∧ w'.kf.P.Reps P' ∧ P'.PosDef ∧
      P'⁻¹ = s.P⁻¹ + s.gatheredMatrix ops ∧ P'⁻¹ *ᵥ x' = s.P⁻¹ *ᵥ s.x + s.gatheredVector ops := by
  have hl : ∀ op ∈ ops, op.NonzeroLambda := by
    intro op ho
    have := hm op ho
    cases op <;> trivial
  obtain ⟨w', s', h1, h2, h3, _⟩ := run_refines bld h hops (psd_regularRun hs hl hd)
  obtain ⟨a, b, c⟩ := Spec.info_run hs hP hd hm h2
  exact ⟨w', s'.x, s'.P, h1, h3.kf.x, h3.kf.P, a, b, c⟩

/-- C76, two sensors for the same quantity: correcting with two measurements of the same `H x` with noises `R₁` and `R₂`
ends with the same state and covariance as correcting once with the weighted mean `R (R₁⁻¹ z₁ + R₂⁻¹ z₂)` and the
combined noise `R`, `R⁻¹ = R₁⁻¹ + R₂⁻¹`. The covariance may be singular. -/
theorem C76_fusion [MDT ℝ] [ExactReal] (bld bld' : Build) {w : World n ℝ} {s : Spec.State n ℝ} (h : w.Reps s)
    (hs : s.Psd) {i j : Nat} {H : Matrix (Fin m) (Fin n) ℝ} {z₁ z₂ : Fin m → ℝ} {R₁ R₂ R : Matrix (Fin m) (Fin m) ℝ}
    (hi : s.obs[i]? = some ⟨m, ⟨H, z₁, R₁⟩⟩) (hj : s.obs[j]? = some ⟨m, ⟨H, z₂, R₂⟩⟩) (hR : R.PosDef)
    (he : R⁻¹ = R₁⁻¹ + R₂⁻¹) {z r : List ℝ} (hz : Spec.vecOf z = R *ᵥ (R₁⁻¹ *ᵥ z₁ + R₂⁻¹ *ᵥ z₂))
    (hr : Spec.matOf r = R) (hzl : (Op.setZ i z).WellFormed w) (hrl : (Op.setR i r).WellFormed w) :
    ∃ w1 w1' x P, w.run bld [.correct i, .correct j] = .ok w1 ∧
      w.run bld' [.setZ i z, .setR i r, .correct i] = .ok w1' ∧
      w1.kf.x.RepsV x ∧ w1.kf.P.Reps P ∧ w1'.kf.x.RepsV x ∧ w1'.kf.P.Reps P := by
  have h₁ : R₁.PosDef := hs.obs _ (List.mem_of_getElem? hi)
  have h₂ : R₂.PosDef := hs.obs _ (List.mem_of_getElem? hj)
  have hil : i < s.obs.length := (List.getElem?_eq_some_iff.1 hi).1
  have hlen : w.obs.length = s.obs.length := h.obs.length_eq
  have hjl : j < s.obs.length := (List.getElem?_eq_some_iff.1 hj).1
  obtain ⟨w1, s1, a1, a2, a3, _⟩ := run_refines bld h (ops := [.correct i, .correct j])
    (by simp only [List.mem_cons, List.not_mem_nil, or_false, forall_eq_or_imp, forall_eq, Op.WellFormed]; omega)
    (psd_regularRun hs (by simp [Op.NonzeroLambda]) (by simp [Spec.State.CovData]))
  have hdata : s.PsdData (.setR i r) := by
    intro k hk
    rw [List.getElem?_map, hi] at hk
    cases hk
    rw [hr]; exact hR
  obtain ⟨w2, s2, b1, b2, b3, _⟩ := run_refines bld' h (ops := [.setZ i z, .setR i r, .correct i])
    (by
      simp only [List.mem_cons, List.not_mem_nil, or_false, forall_eq_or_imp, forall_eq]
      refine ⟨hzl, hrl, ?_⟩
      simp only [Op.WellFormed]; omega)
    (psd_regularRun hs (by simp [Op.NonzeroLambda])
      (by
        simp only [List.mem_cons, List.not_mem_nil, or_false, forall_eq_or_imp, forall_eq]
        exact ⟨trivial, hdata, trivial⟩))
  simp only [Spec.State.run, Spec.State.step, hi, hj, Option.map_some, Option.bind_some, Option.some.injEq] at a2
  simp only [Spec.State.run, Spec.State.step, hi, Option.map_some, Option.bind_some, List.getElem?_set_self hil,
    List.set_set, Option.some.injEq] at b2
  subst a2 b2
  refine ⟨w1, w2, _, _, a1, b1, a3.kf.x, a3.kf.P, ?_, ?_⟩
  · have := b3.kf.x
    simp only [hz, hr] at this
    rwa [Spec.fuse_corrX hs.P h₁ h₂ hR he]
  · have := b3.kf.P
    simp only [hr] at this
    rwa [Spec.fuse_corrP hs.P h₁ h₂ hR he]

/-- C76, repeated measurements: correcting with `k ≥ 1` measured values of the same observation one after the other ends
with the same state and covariance as correcting once with their mean and the noise `R / k`. The covariance may be
singular. -/
theorem C76_repetition_averages [MDT ℝ] [ExactReal] (bld bld' : Build) {w : World n ℝ} {s : Spec.State n ℝ}
    (h : w.Reps s) (hs : s.Psd) {i : Nat} {H : Matrix (Fin m) (Fin n) ℝ} {z₀ : Fin m → ℝ}
    {R : Matrix (Fin m) (Fin m) ℝ} (hi : s.obs[i]? = some ⟨m, ⟨H, z₀, R⟩⟩) {zs : List (List ℝ)} (hzs : zs ≠ [])
    (hzl : ∀ z ∈ zs, (Op.setZ i z).WellFormed w) {z r : List ℝ}
    (hz : Spec.vecOf z = (zs.length : ℝ)⁻¹ • (zs.map (Spec.vecOf : List ℝ → Fin m → ℝ)).sum)
    (hr : Spec.matOf r = (zs.length : ℝ)⁻¹ • R) (hzl' : (Op.setZ i z).WellFormed w)
    (hrl : (Op.setR i r).WellFormed w) :
    ∃ w1 w1' x P, w.run bld (zs.flatMap fun z => [.setZ i z, .correct i]) = .ok w1 ∧
      w.run bld' [.setZ i z, .setR i r, .correct i] = .ok w1' ∧
      w1.kf.x.RepsV x ∧ w1.kf.P.Reps P ∧ w1'.kf.x.RepsV x ∧ w1'.kf.P.Reps P := by
  have hR : R.PosDef := hs.obs _ (List.mem_of_getElem? hi)
  have hil : i < s.obs.length := (List.getElem?_eq_some_iff.1 hi).1
  have hlen : w.obs.length = s.obs.length := h.obs.length_eq
  have hk : (0 : ℝ) < zs.length := by
    have : zs.length ≠ 0 := by simpa using hzs
    positivity
  have hwf : ∀ op ∈ zs.flatMap fun z => [Op.setZ i z, .correct i],
      op.WellFormed w ∧ op.NonzeroLambda ∧ s.PsdData op := by
    intro op ho
    obtain ⟨z, hz, ho⟩ := List.mem_flatMap.1 ho
    simp only [List.mem_cons, List.not_mem_nil, or_false] at ho
    rcases ho with rfl | rfl
    · exact ⟨hzl z hz, trivial, trivial⟩
    · exact ⟨by simp only [Op.WellFormed]; omega, trivial, trivial⟩
  obtain ⟨w1, s1, a1, a2, a3, _⟩ := run_refines bld h (fun o ho => (hwf o ho).1)
    (psd_regularRun hs (fun o ho => (hwf o ho).2.1) (fun o ho => (hwf o ho).2.2))
  have hdata : s.PsdData (.setR i r) := by
    intro k hk'
    rw [List.getElem?_map, hi] at hk'
    cases hk'
    rw [hr]; exact hR.smul (by positivity)
  obtain ⟨w2, s2, b1, b2, b3, _⟩ := run_refines bld' h (ops := [.setZ i z, .setR i r, .correct i])
    (by
      simp only [List.mem_cons, List.not_mem_nil, or_false, forall_eq_or_imp, forall_eq]
      refine ⟨hzl', hrl, ?_⟩
      simp only [Op.WellFormed]; omega)
    (psd_regularRun hs (by simp [Op.NonzeroLambda])
      (by
        simp only [List.mem_cons, List.not_mem_nil, or_false, forall_eq_or_imp, forall_eq]
        exact ⟨trivial, hdata, trivial⟩))
  obtain ⟨s', _, c1, c2, c3, _⟩ := Spec.average_run hs hi zs hzs
  rw [Spec.oneByOne, a2] at c1
  cases c1
  simp only [Spec.State.run, Spec.State.step, hi, Option.map_some, Option.bind_some, List.getElem?_set_self hil,
    List.set_set, Option.some.injEq] at b2
  subst b2
  refine ⟨w1, w2, _, _, a1, b1, a3.kf.x, a3.kf.P, ?_, ?_⟩
  · have := b3.kf.x
    simp only [hz, hr] at this
    rwa [c3]
  · have := b3.kf.P
    simp only [hr] at this
    rwa [c2]

namespace Ex

theorem state_pd : (state ℝ).P.PosDef := by
  rw [show (state ℝ).P = 1 by ext i j; fin_cases i <;> fin_cases j <;> simp [state]]
  exact Matrix.PosDef.one

/-- Corrections with assignments in between. -/
def opsMeasure : List (Op ℝ) := [.correct 0, .correct 1, .setZ 1 [7], .setR 0 [4], .correct 0, .correct 1]

end Ex

/-- The hypotheses of `C76_information_adds_up`. -/
example : (Ex.world ℝ).Reps (Ex.state ℝ) ∧ (Ex.state ℝ).Psd ∧ (Ex.state ℝ).P.PosDef ∧
    (∀ op ∈ Ex.opsMeasure, op.WellFormed (Ex.world ℝ) ∧ (Ex.state ℝ).PsdData op ∧ op.Measures) := by
  refine ⟨Ex.world_reps ℝ, Ex.state_psd, Ex.state_pd, ?_⟩
  intro op ho
  simp only [Ex.opsMeasure, List.mem_cons, List.not_mem_nil, or_false] at ho
  have hR := (Ex.ops_psdData (.setR 0 [4]) (by simp [Ex.ops])).1
  rcases ho with rfl | rfl | rfl | rfl | rfl | rfl
  · exact ⟨by simp [Op.WellFormed, Ex.world], trivial, trivial⟩
  · exact ⟨by simp [Op.WellFormed, Ex.world], trivial, trivial⟩
  · exact ⟨by simp [Op.WellFormed, Ex.world, Ex.obs2], trivial, trivial⟩
  · exact ⟨by simp [Op.WellFormed, Ex.world, Ex.obs], hR, trivial⟩
  · exact ⟨by simp [Op.WellFormed, Ex.world], trivial, trivial⟩
  · exact ⟨by simp [Op.WellFormed, Ex.world], trivial, trivial⟩

/-- The hypotheses of `C76_repetition_averages`: two measured values 2 and 5 with noise 3. -/
example : (Ex.state ℝ).obs[0]? = some ⟨1, ⟨!![1, 0], ![5], !![3]⟩⟩ ∧
    (∀ z ∈ [[2], [5]], (Op.setZ 0 z).WellFormed (Ex.world ℝ)) ∧
    (Spec.vecOf [7 / 2] : Fin 1 → ℝ) =
      (([[2], [5]] : List (List ℝ)).length : ℝ)⁻¹ • (([[2], [5]] : List (List ℝ)).map (Spec.vecOf : List ℝ → Fin 1 → ℝ)).sum ∧
    (Spec.matOf [3 / 2] : Matrix (Fin 1) (Fin 1) ℝ) = (([[2], [5]] : List (List ℝ)).length : ℝ)⁻¹ • !![3] ∧
    (Op.setZ 0 [7 / 2]).WellFormed (Ex.world ℝ) ∧ (Op.setR 0 [3 / 2]).WellFormed (Ex.world ℝ) := by
  refine ⟨rfl, by simp [Op.WellFormed, Ex.world, Ex.obs], ?_, ?_, by simp [Op.WellFormed, Ex.world, Ex.obs],
    by simp [Op.WellFormed, Ex.world, Ex.obs]⟩
  · ext i; fin_cases i; simp [Spec.vecOf]; norm_num
  · ext i j; fin_cases i; fin_cases j; simp [Spec.matOf]; norm_num

/-- The two programs of `C76_fusion` on rational numbers (numbers chosen so that all roots are rational): values 2 and 6
with noises 1 and 3 are one value 3 with noise 3/4. -/
example : Ex.outcome ((Ex.world ℚ).run ⟨true, false⟩
      [.setP [69 / 100, 0, 0, 1, 0], .setR 0 [1], .setR 1 [3], .setH 1 [1, 0], .setZ 0 [2], .setZ 1 [6], .correct 0,
        .correct 1]) = .ok ([47 / 24, 2, 77], [23 / 64, 0, 0, 1, 0]) ∧
    Ex.outcome ((Ex.world ℚ).run ⟨true, false⟩
      [.setP [69 / 100, 0, 0, 1, 0], .setZ 0 [3], .setR 0 [3 / 4], .correct 0]) =
        .ok ([47 / 24, 2, 77], [23 / 64, 0, 0, 1, 0]) := ⟨by decide +kernel, by decide +kernel⟩

/-- The hypotheses of `C76_fusion`, with noises 3 and 6 combined to 2. -/
example : (!![2] : Matrix (Fin 1) (Fin 1) ℝ)⁻¹ = !![3]⁻¹ + !![6]⁻¹ ∧ (!![2] : Matrix (Fin 1) (Fin 1) ℝ).PosDef := by
  constructor
  · simp only [Matrix.inv_subsingleton]
    ext i j; fin_cases i; fin_cases j; simp; norm_num
  · rw [show (!![2] : Matrix (Fin 1) (Fin 1) ℝ) = Matrix.diagonal fun _ => 2 by
      ext i j; fin_cases i; fin_cases j; rfl]
    exact Matrix.PosDef.diagonal fun _ => by norm_num

end Minikalman
