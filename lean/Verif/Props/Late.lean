import Verif.Proofs.Late
import Verif.Props.Order

/-!
# Property C116: a measurement that arrives late

A correction can be postponed over predictions, control inputs, assignments and corrections with other measurements, if the
postponed measurement is expressed in terms of the state at the end and what it measures is not affected by process noise
(`Spec/Late`); without process noise this is always so. If process noise affects it, the claim is false.
-/

namespace Minikalman

open Matrix

variable {n m : Nat}

/-- C116: in exact arithmetic, let `ops` be predictions, control inputs, corrections with other observation objects, and
assignments of transition matrices, process noises, control inputs or other observation objects. If `h'`, `z'`
say about the state at the end of `ops` what `H`, `z` of observation object `i` say about the state at its beginning —
the deviations `H' ξ' - z'` and `H ξ - z` are the same for every true state `ξ` that is at `ξ'` at the end — and no process noise in between changes `H' ξ'`, then the
program that corrects at once and the program that corrects at the end both run without panicking and end with the same state
vector, covariance and all other vectors and matrices. -/
theorem C116_late_measurement [MDT ℝ] [ExactReal] (bld bld' : Build) {w : World n ℝ} {s : Spec.State n ℝ} (h : w.Reps s)
    (hs : s.Psd) {i : Nat} {o : Spec.Obs n m ℝ} (ho : s.obs[i]? = some ⟨m, o⟩) {ops : List (Op ℝ)}
    (hb : ∀ op ∈ ops, op.LeavesOut i) (hops : ∀ op ∈ ops, op.WellFormed w) (hd : ∀ op ∈ ops, s.PsdData op)
    {h' z' : List ℝ} (hh : (Op.setH i h').WellFormed w) (hz : (Op.setZ i z').WellFormed w)
    (hn : s.Unaffected (Spec.matOf h' : Matrix (Fin m) (Fin n) ℝ) ops)
    (hm : ∀ ξ : Fin n → ℝ,
      (Spec.matOf h' : Matrix (Fin m) (Fin n) ℝ) *ᵥ s.evolved ops ξ - Spec.vecOf z' = o.H *ᵥ ξ - o.z) :
    ∃ w₁ w₂ s', w.run bld (.correct i :: (ops ++ [.setH i h', .setZ i z'])) = .ok w₁ ∧
      w.run bld' (ops ++ [.setH i h', .setZ i z', .correct i]) = .ok w₂ ∧ w₁.Reps s' ∧ w₂.Reps s' := by
  have hi : i < w.obs.length := by
    rw [h.obs.length_eq]; exact (List.getElem?_eq_some_iff.1 ho).1
  have hlo : ∀ op ∈ ops, op.NonzeroLambda := by
    intro op h1
    have := hb op h1
    cases op <;> trivial
  have w1f : ∀ op ∈ Op.correct i :: (ops ++ [.setH i h', .setZ i z']), op.WellFormed w := by
    intro op h1
    simp only [List.mem_cons, List.mem_append, List.not_mem_nil, or_false] at h1
    rcases h1 with rfl | h1 | rfl | rfl
    · exact hi
    · exact hops op h1
    · exact hh
    · exact hz
  have w2f : ∀ op ∈ ops ++ [.setH i h', .setZ i z', .correct i], op.WellFormed w := by
    intro op h1
    simp only [List.mem_cons, List.mem_append, List.not_mem_nil, or_false] at h1
    rcases h1 with h1 | rfl | rfl | rfl
    · exact hops op h1
    · exact hh
    · exact hz
    · exact hi
  have reg : ∀ l : List (Op ℝ), (∀ op ∈ l, op ∈ ops ∨ op = .setH i h' ∨ op = .setZ i z' ∨ op = .correct i) →
      s.RegularRun l := by
    intro l hl
    refine psd_regularRun hs (fun op h1 => ?_) fun op h1 => ?_
    · rcases hl op h1 with h2 | rfl | rfl | rfl
      · exact hlo op h2
      all_goals trivial
    · rcases hl op h1 with h2 | rfl | rfl | rfl
      · exact hd op h2
      all_goals trivial
  obtain ⟨w₁, s₁, a1, a2, a3, _⟩ := run_refines bld h w1f (reg _ (by
    intro op h1
    simp only [List.mem_cons, List.mem_append, List.not_mem_nil, or_false] at h1
    tauto))
  obtain ⟨w₂, s₂, b1, b2, b3, _⟩ := run_refines bld' h w2f (reg _ (by
    intro op h1
    simp only [List.mem_cons, List.mem_append, List.not_mem_nil, or_false] at h1
    tauto))
  refine ⟨w₁, w₂, s₂, a1, b1, ?_, b3⟩
  suffices e : s₁ = s₂ by rw [← e]; exact a3
  -- the two runs of the textbook filter
  have app : ∀ (l l' : List (Op ℝ)) (t : Spec.State n ℝ), t.run (l ++ l') = (t.run l).bind fun t' => t'.run l' := by
    intro l
    induction l with
    | nil => intro l' t; rfl
    | cons a l ih =>
      intro l' t
      simp only [List.cons_append, Spec.State.run, Option.bind_assoc]
      congr 1
      funext t'
      exact ih l' t'
  rw [app, Option.bind_eq_some_iff] at b2
  obtain ⟨t₂, c1, c2⟩ := b2
  have h0 : s.step (.correct i) =
      some { s with x := Spec.corrX o.H s.P o.R s.x o.z, P := Spec.corrP o.H s.P o.R } := by
    simp only [Spec.State.step, ho, Option.map_some]
  obtain ⟨t₁, d1, d2⟩ := Spec.owes_run (i := i) (R := o.R)
    (s₂ := s) (s₁ := { s with x := Spec.corrX o.H s.P o.R s.x o.z, P := Spec.corrP o.H s.P o.R })
    ⟨rfl, rfl, rfl, rfl, rfl, rfl, ⟨o, ho, rfl⟩⟩ hs hn hb hd c1 hm
  simp only [Spec.State.run, h0, Option.bind_some] at a2
  rw [app, d1, Option.bind_some] at a2
  obtain ⟨o', ho', hR⟩ := d2.has
  have ho₁ : t₁.obs[i]? = some ⟨m, o'⟩ := by rw [d2.obs]; exact ho'
  have hlen : i < t₂.obs.length := (List.getElem?_eq_some_iff.1 ho').1
  have hlen₁ : i < t₁.obs.length := (List.getElem?_eq_some_iff.1 ho₁).1
  simp only [Spec.State.run, Spec.State.step, ho₁, Option.map_some, Option.bind_some, List.getElem?_set_self hlen₁,
    Option.some.injEq] at a2
  simp only [Spec.State.run, Spec.State.step, ho', Option.map_some, Option.bind_some, List.getElem?_set_self hlen,
    List.getElem?_set_self, List.length_set, hlen, Option.some.injEq] at c2
  rw [← a2, ← c2]
  obtain ⟨x₁, A₁, P₁, Q₁, ctl₁, obs₁⟩ := t₁
  obtain ⟨x₂, A₂, P₂, Q₂, ctl₂, obs₂⟩ := t₂
  obtain ⟨e1, e2, e3, e4, e5, e6, _⟩ := d2
  simp only at e1 e2 e3 e4 e5 e6 hR ⊢
  subst e1 e2 e3 e4 e5 e6
  rw [hR]

/-- C116, without process noise: if the process noise and the noises of all control inputs are zero and stay so, any late measurement
that is expressed in terms of the state at the end gives the same result as the measurement in time. -/
theorem C116_without_noise [MDT ℝ] [ExactReal] (bld bld' : Build) {w : World n ℝ} {s : Spec.State n ℝ} (h : w.Reps s)
    (hs : s.Psd) (hn : s.Noiseless) {i : Nat} {o : Spec.Obs n m ℝ} (ho : s.obs[i]? = some ⟨m, o⟩) {ops : List (Op ℝ)}
    (hb : ∀ op ∈ ops, op.LeavesOut i) (hq : ∀ v, Op.setQ v ∉ ops) (hqc : ∀ j v, Op.setQc j v ∉ ops)
    (hops : ∀ op ∈ ops, op.WellFormed w) (hd : ∀ op ∈ ops, s.PsdData op)
    {h' z' : List ℝ} (hh : (Op.setH i h').WellFormed w) (hz : (Op.setZ i z').WellFormed w)
    (hm : ∀ ξ : Fin n → ℝ,
      (Spec.matOf h' : Matrix (Fin m) (Fin n) ℝ) *ᵥ s.evolved ops ξ - Spec.vecOf z' = o.H *ᵥ ξ - o.z) :
    ∃ w₁ w₂ s', w.run bld (.correct i :: (ops ++ [.setH i h', .setZ i z'])) = .ok w₁ ∧
      w.run bld' (ops ++ [.setH i h', .setZ i z', .correct i]) = .ok w₂ ∧ w₁.Reps s' ∧ w₂.Reps s' :=
  C116_late_measurement bld bld' h hs ho hb hops hd hh hz (Spec.noiseless_unaffected hb hq hqc _ hn) hm

/-- C116: if the transition matrix and all that are assigned in between are invertible, there is exactly one way to express the
late measurement in terms of the state at the end. -/
theorem C116_expressible {s : Spec.State n ℝ} {i : Nat} {ops : List (Op ℝ)} (hb : ∀ op ∈ ops, op.LeavesOut i)
    (hA : IsUnit s.A.det) (hu : ∀ v, Op.setA v ∈ ops → IsUnit (Spec.matOf v : Matrix (Fin n) (Fin n) ℝ).det)
    (H : Matrix (Fin m) (Fin n) ℝ) (z : Fin m → ℝ) :
    ∃! p : Matrix (Fin m) (Fin n) ℝ × (Fin m → ℝ), ∀ ξ, p.1 *ᵥ s.evolved ops ξ - p.2 = H *ᵥ ξ - z := by
  obtain ⟨Φ, c, hΦ, h⟩ := Spec.evolved_isUnit hb hu s hA
  refine ⟨(H * Φ⁻¹, z + (H * Φ⁻¹) *ᵥ c), fun ξ => ?_, fun p hp => ?_⟩
  · simp only [h, Matrix.mulVec_add, Matrix.mulVec_mulVec]
    rw [Matrix.mul_assoc, Matrix.nonsing_inv_mul _ hΦ, Matrix.mul_one]
    abel
  · have h1 : ∀ ξ, (p.1 * Φ) *ᵥ ξ - (p.2 - p.1 *ᵥ c) = H *ᵥ ξ - z := by
      intro ξ
      rw [← hp ξ, h, Matrix.mulVec_add, Matrix.mulVec_mulVec]
      abel
    obtain ⟨h2, h3⟩ := Spec.affine_ext h1
    have h4 : p.1 = H * Φ⁻¹ := by rw [← h2, Matrix.mul_assoc, Matrix.mul_nonsing_inv _ hΦ, Matrix.mul_one]
    refine Prod.ext h4 ?_
    rw [← h3, ← h4]
    simp

namespace Ex

/-- The objects of `Props/History` without process noise. -/
def quietWorld (T : Type) [Field T] : World 2 T :=
  ⟨{ filter T with Q := ⟨[0, 0, 0, 0]⟩ }, [⟨1, { control T with Q := ⟨[0]⟩ }⟩], [⟨1, obs T⟩, ⟨1, obs2 T⟩]⟩

/-- The textbook filter it holds. -/
def quietState (T : Type) [Field T] : Spec.State 2 T := { state T with Q := 0, ctl := [⟨1, !![1; 2], ![3], 0⟩] }

theorem quiet_reps (T : Type) [Field T] : (quietWorld T).Reps (quietState T) :=
  ⟨by decide, { filter_reps T with Q := by intro i j; fin_cases i <;> fin_cases j <;> rfl },
    .cons (.mk { control_reps T with Q := by intro i j; fin_cases i; fin_cases j; rfl }) .nil, (world_reps T).obs⟩

theorem quiet_psd : (quietState ℝ).Psd := by
  refine ⟨state_psd.P, Matrix.PosSemidef.zero, ?_, state_psd.obs⟩
  simp only [quietState, List.mem_singleton]
  rintro c rfl
  exact Matrix.PosSemidef.zero

theorem quiet_noiseless : (quietState ℝ).Noiseless := by
  refine ⟨rfl, ?_⟩
  simp only [quietState, List.mem_singleton]
  rintro c rfl
  rfl

/-- Two predictions with different transition matrices, a measurement of the velocity and a control input happen before the
measurement of the position arrives. -/
def between (T : Type) [Field T] : List (Op T) :=
  [.predict, .correct 1, .setU 0 [-1], .control 0, .setA [1, 2, 0, 1], .predict]

theorem between_evolved (ξ : Fin 2 → ℝ) :
    (Spec.matOf [1, -3] : Matrix (Fin 1) (Fin 2) ℝ) *ᵥ (quietState ℝ).evolved (between ℝ) ξ - Spec.vecOf [6] =
      (!![1, 0] : Matrix (Fin 1) (Fin 2) ℝ) *ᵥ ξ - ![5] := by
  have hA : (Spec.matOf [1, 2, 0, 1] : Matrix (Fin 2) (Fin 2) ℝ) = !![1, 2; 0, 1] := by
    ext i j; fin_cases i <;> fin_cases j <;> rfl
  have hH : (Spec.matOf [1, -3] : Matrix (Fin 1) (Fin 2) ℝ) = !![1, -3] := by
    ext i j; fin_cases i; fin_cases j <;> rfl
  have hz : (Spec.vecOf [6] : Fin 1 → ℝ) = ![6] := by ext i; fin_cases i; rfl
  have hu : (Spec.vecOf [-1] : Fin 1 → ℝ) = ![-1] := by ext i; fin_cases i; rfl
  simp only [between, quietState, state, Spec.State.evolved, Spec.State.evolve, Spec.State.step, List.getElem?_cons_succ,
    List.getElem?_cons_zero, Option.map_some, List.set_cons_zero, hA, hH, hz, hu]
  ext i
  fin_cases i
  simp [dotProduct, Fin.sum_univ_two, -Matrix.mulVec_mulVec, Matrix.vecHead, Matrix.vecTail]
  ring

end Ex

/-- The hypotheses of `C116_without_noise` are met: a measurement `5` of the position arrives after the calls `between`, and is
then `6` for the position minus three times the velocity. -/
example : (Ex.quietWorld ℝ).Reps (Ex.quietState ℝ) ∧ (Ex.quietState ℝ).Psd ∧ (Ex.quietState ℝ).Noiseless ∧
    (Ex.quietState ℝ).obs[0]? = some ⟨1, !![1, 0], ![5], !![3]⟩ ∧ (∀ op ∈ Ex.between ℝ, op.LeavesOut 0) ∧
    (∀ v, Op.setQ v ∉ Ex.between ℝ) ∧ (∀ j v, Op.setQc j v ∉ Ex.between ℝ) ∧
    (∀ op ∈ Ex.between ℝ, op.WellFormed (Ex.quietWorld ℝ)) ∧ (∀ op ∈ Ex.between ℝ, (Ex.quietState ℝ).PsdData op) ∧
    (Op.setH 0 [1, -3] : Op ℝ).WellFormed (Ex.quietWorld ℝ) ∧ (Op.setZ 0 [6] : Op ℝ).WellFormed (Ex.quietWorld ℝ) ∧
    ∀ ξ : Fin 2 → ℝ, (Spec.matOf [1, -3] : Matrix (Fin 1) (Fin 2) ℝ) *ᵥ (Ex.quietState ℝ).evolved (Ex.between ℝ) ξ -
      Spec.vecOf [6] = (!![1, 0] : Matrix (Fin 1) (Fin 2) ℝ) *ᵥ ξ - ![5] := by
  refine ⟨Ex.quiet_reps ℝ, Ex.quiet_psd, Ex.quiet_noiseless, rfl, ?_, by simp [Ex.between], by simp [Ex.between], ?_, ?_, rfl, rfl, Ex.between_evolved⟩
  all_goals simp only [Ex.between, List.mem_cons, List.not_mem_nil, or_false, forall_eq_or_imp, forall_eq]
  · exact ⟨trivial, Nat.one_ne_zero, trivial, trivial, trivial, trivial⟩
  · exact ⟨trivial, Nat.one_lt_two, rfl, Nat.zero_lt_one, rfl, trivial⟩
  · exact ⟨trivial, trivial, trivial, trivial, trivial, trivial⟩

/-- The two programs of this example on rational numbers. -/
example : Ex.outcome ((Ex.quietWorld ℚ).run ⟨true, false⟩
      (.correct 0 :: (Ex.between ℚ ++ [.setH 0 [1, -3], .setZ 0 [6]]))) =
        .ok ([11 / 3, 2 / 9, 77], [35 / 4, 8 / 3, 8 / 3, 8 / 9, 78]) ∧
    Ex.outcome ((Ex.quietWorld ℚ).run ⟨true, false⟩ (Ex.between ℚ ++ [.setH 0 [1, -3], .setZ 0 [6], .correct 0])) =
        .ok ([11 / 3, 2 / 9, 77], [35 / 4, 8 / 3, 8 / 3, 8 / 9, 78]) :=
  ⟨by decide +kernel, by decide +kernel⟩

namespace Ex

/-- Only the position is disturbed by the process noise. -/
def rough (T : Type) [Field T] : List (Op T) :=
  [.setQ [1, 0, 0, 0], .setQc 0 [0], .predict, .correct 0, .control 0, .predict]

theorem rough_evolved (ξ : Fin 2 → ℝ) :
    (Spec.matOf [0, 1] : Matrix (Fin 1) (Fin 2) ℝ) *ᵥ (state ℝ).evolved (rough ℝ) ξ - Spec.vecOf [10] =
      (!![0, 1] : Matrix (Fin 1) (Fin 2) ℝ) *ᵥ ξ - ![4] := by
  have hH : (Spec.matOf [0, 1] : Matrix (Fin 1) (Fin 2) ℝ) = !![0, 1] := by
    ext i j; fin_cases i; fin_cases j <;> rfl
  have hz : (Spec.vecOf [10] : Fin 1 → ℝ) = ![10] := by ext i; fin_cases i; rfl
  simp only [rough, state, Spec.State.evolved, Spec.State.evolve, Spec.State.step, List.getElem?_cons_succ,
    List.getElem?_cons_zero, Option.map_some, List.set_cons_zero, hH, hz]
  ext i
  fin_cases i
  simp [dotProduct, Fin.sum_univ_two, -Matrix.mulVec_mulVec, Matrix.vecHead, Matrix.vecTail]
  ring

theorem rough_unaffected :
    (state ℝ).Unaffected (Spec.matOf [0, 1] : Matrix (Fin 1) (Fin 2) ℝ) (rough ℝ) := by
  have hH : (Spec.matOf [0, 1] : Matrix (Fin 1) (Fin 2) ℝ) = !![0, 1] := by
    ext i j; fin_cases i; fin_cases j <;> rfl
  have hQ : (Spec.matOf [1, 0, 0, 0] : Matrix (Fin 2) (Fin 2) ℝ) = !![1, 0; 0, 0] := by
    ext i j; fin_cases i <;> fin_cases j <;> rfl
  have hQc : (Spec.matOf [0] : Matrix (Fin 1) (Fin 1) ℝ) = 0 := by
    ext i j; fin_cases i; fin_cases j; rfl
  simp only [rough, state, Spec.State.Unaffected, Spec.State.evolved, Spec.State.evolve, Spec.State.step,
    Spec.State.Displaces, List.getElem?_cons_succ, List.getElem?_cons_zero, Option.map_some, List.set_cons_zero,
    Option.some.injEq, forall_eq', hH, hQ, hQc, false_imp_iff, implies_true, and_true, forall_exists_index, and_imp,
    forall_apply_eq_imp_iff, true_and]
  refine ⟨⟨?_, ?_⟩, ?_⟩ <;> intros <;> ext i <;> fin_cases i <;> subst_vars <;>
    simp [dotProduct, Fin.sum_univ_two, -Matrix.mulVec_mulVec, Matrix.vecHead, Matrix.vecTail]

end Ex

/-- The hypotheses of `C116_late_measurement` are met with process noise, if the late measurement concerns something it does not
disturb: a measurement `4` of the velocity arrives after the calls `rough`, with two predictions with noise in the position and
a control input that adds `6` to the velocity. -/
example : (Ex.world ℝ).Reps (Ex.state ℝ) ∧ (Ex.state ℝ).Psd ∧
    (Ex.state ℝ).obs[1]? = some ⟨1, !![0, 1], ![4], !![8]⟩ ∧ (∀ op ∈ Ex.rough ℝ, op.LeavesOut 1) ∧
    (∀ op ∈ Ex.rough ℝ, op.WellFormed (Ex.world ℝ)) ∧ (∀ op ∈ Ex.rough ℝ, (Ex.state ℝ).PsdData op) ∧
    (Op.setH 1 [0, 1] : Op ℝ).WellFormed (Ex.world ℝ) ∧ (Op.setZ 1 [10] : Op ℝ).WellFormed (Ex.world ℝ) ∧
    (Ex.state ℝ).Unaffected (Spec.matOf [0, 1] : Matrix (Fin 1) (Fin 2) ℝ) (Ex.rough ℝ) ∧
    ∀ ξ : Fin 2 → ℝ, (Spec.matOf [0, 1] : Matrix (Fin 1) (Fin 2) ℝ) *ᵥ (Ex.state ℝ).evolved (Ex.rough ℝ) ξ -
      Spec.vecOf [10] = (!![0, 1] : Matrix (Fin 1) (Fin 2) ℝ) *ᵥ ξ - ![4] := by
  have hQ : (Spec.matOf [1, 0, 0, 0] : Matrix (Fin 2) (Fin 2) ℝ).PosSemidef := by
    rw [show (Spec.matOf [1, 0, 0, 0] : Matrix (Fin 2) (Fin 2) ℝ) = Matrix.diagonal ![1, 0] by
      ext i j; fin_cases i <;> fin_cases j <;> rfl]
    refine Matrix.PosSemidef.diagonal fun i => ?_
    fin_cases i <;> simp
  have hQc : (Spec.matOf [0] : Matrix (Fin 1) (Fin 1) ℝ) = 0 := by
    ext i j; fin_cases i; fin_cases j; rfl
  refine ⟨Ex.world_reps ℝ, Ex.state_psd, rfl, ?_, ?_, ?_, rfl, rfl, Ex.rough_unaffected, Ex.rough_evolved⟩
  all_goals simp only [Ex.rough, List.mem_cons, List.not_mem_nil, or_false, forall_eq_or_imp, forall_eq]
  · exact ⟨trivial, trivial, trivial, Nat.zero_ne_one, trivial, trivial⟩
  · exact ⟨rfl, rfl, trivial, Nat.zero_lt_two, Nat.zero_lt_one, trivial⟩
  · refine ⟨hQ, ?_, trivial, trivial, trivial, trivial⟩
    intro l hl
    simp [Ex.state] at hl
    subst hl
    rw [hQc]
    exact Matrix.PosSemidef.zero

/-- If process noise affects what is measured, it matters when a measurement is processed: the same calls end with different estimates. -/
example : Ex.outcome ((Ex.world ℚ).run ⟨true, false⟩
      [.setR 0 [105 / 64], .correct 0, .predict, .setH 0 [1, -1], .setZ 0 [5]]) =
        .ok ([763 / 169, 2, 77], [443 / 169, 1, 1, 3, 78]) ∧
    Ex.outcome ((Ex.world ℚ).run ⟨true, false⟩
      [.setR 0 [105 / 64], .predict, .setH 0 [1, -1], .setZ 0 [5], .correct 0]) =
        .ok ([1595 / 361, 210 / 361, 77], [827 / 361, 617 / 361, 617 / 361, 827 / 361, 78]) :=
  ⟨by decide +kernel, by decide +kernel⟩

end Minikalman
