import Verif.Proofs.Examples

/-!
# Property C71: the gravity programs find the acceleration, whatever the measurement errors are

The programs of `/repo/crates/minikalman/tests/gravity.rs`, `tests/gravity_q_tuned.rs` and `examples/gravity.rs`, in exact
arithmetic, with any measurement errors up to a bound. The tests and the example assert `9 < g < 10` for one series of
errors (random ones in the example).
-/

set_option linter.unusedSectionVars false

namespace Minikalman

open Matrix Examples

namespace Examples

def start : Sym3 := ⟨1 / 10, 0, 0, 1, 0, 1⟩

theorem start_psd : start.mat.PosSemidef := by
  rw [show start.mat = Matrix.diagonal ![1 / 10, 1, 1] by
    ext i j; fin_cases i <;> fin_cases j <;> simp [start, Sym3.mat]]
  exact Matrix.PosSemidef.diagonal fun i => by fin_cases i <;> simp

section
variable [MDT ℝ]

theorem gravityFilter_reps {f : RegularKalman 3 ℝ} (hf : f = staticKalman 0) :
    ∃ f', gravityFilter (1 / 2) (1 / 10) 6 f = .ok f' ∧ f'.Reps ![0, 0, 6] mA start.mat 0 := by
  subst hf
  refine ⟨_, rfl, ?_, ?_, ?_, ?_, Nat.le_refl _, Nat.le_refl _⟩
  · intro i; fin_cases i <;> rfl
  · intro i j
    fin_cases i <;> fin_cases j <;> first | rfl | (show some _ = some _; congr 1; simp [mA])
  · intro i j
    fin_cases i <;> fin_cases j <;> (show some _ = some _; congr 1; simp [start, Sym3.mat])
  · intro i j; fin_cases i <;> fin_cases j <;> rfl

theorem gravityObservation_reps {o : RegularObservation 3 1 ℝ} (ho : o = staticObservation 0) :
    ∃ o', gravityObservation (1 / 2) o = .ok o' ∧ o'.Reps mH ![0] mR := by
  subst ho
  refine ⟨_, rfl, ?_, ?_, ?_, Nat.le_refl _, Nat.le_refl _, Nat.le_refl _, Nat.le_refl _, Nat.le_refl _, Nat.le_refl _,
    Nat.le_refl _⟩
  · intro i j; fin_cases i; fin_cases j <;> rfl
  · intro i; fin_cases i; rfl
  · intro i j; fin_cases i; fin_cases j; rfl

theorem gravityControl_reps {c : Control 3 1 ℝ} (hc : c = staticControl 0) :
    ∃ c', gravityControl c = .ok c' ∧ c'.Reps mB ![0] mQc := by
  subst hc
  refine ⟨_, rfl, ?_, ?_, ?_, Nat.le_refl _⟩
  · intro i j; fin_cases j; fin_cases i <;> rfl
  · intro i; fin_cases i; rfl
  · intro i j; fin_cases i; fin_cases j; rfl

end

theorem init_val : (![0, 0, 6] : Fin 3 → ℝ) = val [(0, 0, 6)] [1] := by
  ext i; fin_cases i <;> simp [val, tri]

theorem data_near {δ : ℚ} (hδ : 0 ≤ δ) : ∀ {M : List ℚ} {errs : List ℝ}, errs.length = M.length → (∀ e ∈ errs, |e| ≤ δ) →
    List.Forall₂ (fun (d : ℝ) (m : ℚ) => |d - m| ≤ δ)
      (seen ((M.map fun q : ℚ => (q : ℝ)).zip errs) [1]) (M.reverse ++ [1]) := by
  intro M errs hl he
  unfold seen
  refine List.rel_append (List.rel_reverse ?_) (.cons (by simpa using hδ) .nil)
  induction M generalizing errs with
  | nil => cases errs with
    | nil => exact .nil
    | cons => cases hl
  | cons m M ih => cases errs with
    | nil => cases hl
    | cons e errs =>
      refine .cons ?_ (ih (by simpa using hl) fun e h => he e (by simp [h]))
      simp only [add_sub_cancel_left]
      exact he e (by simp)

theorem data_near_noise {δ : ℚ} (hδ : 0 ≤ δ) : ∀ {M N : List ℚ} {errs : List ℝ}, M.length = N.length →
    List.Forall₂ (fun (e : ℝ) (n : ℚ) => |e - n| ≤ δ) errs N →
    List.Forall₂ (fun (d : ℝ) (m : ℚ) => |d - m| ≤ δ)
      (seen ((M.map fun q : ℚ => (q : ℝ)).zip errs) [1]) ((M.zipWith (· + ·) N).reverse ++ [1]) := by
  intro M N errs hl he
  unfold seen
  refine List.rel_append (List.rel_reverse ?_) (.cons (by simpa using hδ) .nil)
  induction he generalizing M with
  | nil => cases M with
    | nil => exact .nil
    | cons => cases hl
  | @cons e n errs N h _ ih => cases M with
    | nil => cases hl
    | cons m M =>
      refine .cons ?_ (ih (by simpa using hl))
      simp only [Rat.cast_add, add_sub_add_left_eq_sub]
      exact h

/-- The sum of the absolute values of the third components, without the last one. -/
def noiseGain : List (ℚ × ℚ × ℚ) → ℚ
  | c :: d :: L => |c.2.2| + noiseGain (d :: L)
  | _ => 0

/-- The absolute value of the last third component. -/
def startGain : List (ℚ × ℚ × ℚ) → ℚ
  | [] => 0
  | [c] => |c.2.2|
  | _ :: L => startGain L

theorem val_gain {L : List (ℚ × ℚ × ℚ)} {E : List ℝ} {δ w : ℝ} (he : ∀ e ∈ E, |e| ≤ δ) (hl : L.length = E.length + 1) :
    |val L (E ++ [w]) 2| ≤ noiseGain L * δ + startGain L * |w| := by
  induction E generalizing L with
  | nil =>
    match L, hl with
    | [c], _ => simp [val, tri, noiseGain, startGain, abs_mul, mul_comm]
  | cons e E ih =>
    match L, hl with
    | c :: d :: L, hl =>
      have h1 := ih (L := d :: L) (fun e h => he e (by simp [h])) (by simpa using hl)
      have h2 := he e (by simp)
      have e1 : val (c :: d :: L) (e :: E ++ [w]) 2 = e * (c.2.2 : ℝ) + val (d :: L) (E ++ [w]) 2 := by
        rw [List.cons_append, val]; simp [tri]
      rw [e1]
      have h3 : |e * (c.2.2 : ℝ)| ≤ |(c.2.2 : ℝ)| * δ := by
        rw [abs_mul, mul_comm]
        exact mul_le_mul_of_nonneg_left h2 (abs_nonneg _)
      have h4 := abs_add_le (e * (c.2.2 : ℝ)) (val (d :: L) (E ++ [w]) 2)
      have e2 : (noiseGain (c :: d :: L) : ℝ) = |(c.2.2 : ℝ)| + noiseGain (d :: L) := by
        simp [noiseGain]
      have e3 : startGain (c :: d :: L) = startGain (d :: L) := rfl
      rw [e2, e3, add_mul]
      linarith

theorem coeffs_length (q l : ℚ) (n : Nat) (s : Sym3) (L : List (ℚ × ℚ × ℚ)) :
    (coeffs q l n s L).length = n + L.length := by
  induction n generalizing s L with
  | zero => simp [coeffs]
  | succ n ih => rw [coeffs, ih]; simp; omega

theorem read_x {f : RegularKalman 3 ℝ} {X A P Q} (hf : f.Reps X A P Q) : f.x.index 2 = .ok (X 2) := by
  have h := hf.x 2
  unfold Mat.index rd
  change f.x.data[2]? = some (X 2) at h
  rw [h]

end Examples

/-- C71, `tests/gravity.rs`: with any 15 measurement errors of at most 4 (the errors in the test are below 0.9), the test
program does not panic and its assertion `9 < g < 10` holds. -/
theorem C71_gravity_test [MDT ℝ] [ExactReal] (bld : Build) {errs : List ℝ} (hlen : errs.length = 15)
    (he : ∀ e ∈ errs, |e| ≤ 4) :
    ∃ g, gravityTest bld (1 / 2) (1 / 10) 6 ((realDistance.map fun q : ℚ => (q : ℝ)).zip errs) = .ok g ∧ 9 < g ∧ g < 10 := by
  obtain ⟨f, h1, h2⟩ := gravityFilter_reps (f := staticKalman 0) rfl
  obtain ⟨o, h3, h4⟩ := gravityObservation_reps (o := staticObservation 0) rfl
  rw [init_val] at h2
  obtain ⟨f', o', A, P, Q, h5, h6⟩ :=
    gravityLoop_val bld start_psd h2 h4 ((realDistance.map fun q : ℚ => (q : ℝ)).zip errs)
  have hl : ((realDistance.map fun q : ℚ => (q : ℝ)).zip errs).length = 15 := by simp [hlen, realDistance]
  rw [hl] at h6
  refine ⟨val (coeffs 0 1 15 start [(0, 0, 6)]) (seen ((realDistance.map fun q : ℚ => (q : ℝ)).zip errs) [1]) 2, ?_, ?_⟩
  · simp only [gravityTest, h1, h3, h5, res_bind_ok]
    exact read_x h6
  obtain ⟨a, b⟩ := val_bounds (L := coeffs 0 1 15 start [(0, 0, 6)])
    (data_near (δ := 4) (by norm_num) (M := realDistance) (by rw [hlen]; rfl) (by simpa using he))
  have e1 : 9 < low 4 (coeffs 0 1 15 start [(0, 0, 6)]) (realDistance.reverse ++ [1]) := by decide +kernel
  have e2 : high 4 (coeffs 0 1 15 start [(0, 0, 6)]) (realDistance.reverse ++ [1]) < 10 := by decide +kernel
  have e1' := (Rat.cast_lt (K := ℝ)).2 e1
  have e2' := (Rat.cast_lt (K := ℝ)).2 e2
  push_cast at e1' e2'
  exact ⟨e1'.trans_le a, b.trans_lt e2'⟩

/-- C71, `tests/gravity_q_tuned.rs` (`λ = 0.5`): the assertion holds for any 15 measurement errors of at most 0.16. -/
theorem C71_gravity_tuned_test [MDT ℝ] [ExactReal] (bld : Build) {errs : List ℝ} (hlen : errs.length = 15)
    (he : ∀ e ∈ errs, |e| ≤ 0.16) :
    ∃ g, gravityTunedTest bld (1 / 2) (1 / 10) 6 (1 / 2) ((realDistance.map fun q : ℚ => (q : ℝ)).zip errs) = .ok g ∧
      9 < g ∧ g < 10 := by
  obtain ⟨f, h1, h2⟩ := gravityFilter_reps (f := staticKalman 0) rfl
  obtain ⟨o, h3, h4⟩ := gravityObservation_reps (o := staticObservation 0) rfl
  rw [init_val] at h2
  obtain ⟨f', o', A, P, Q, h5, h6⟩ :=
    gravityTunedLoop_val bld (lambda := 1 / 2) 4 (by norm_num) (by norm_num) start_psd h2 h4
      ((realDistance.map fun q : ℚ => (q : ℝ)).zip errs)
  have hl : ((realDistance.map fun q : ℚ => (q : ℝ)).zip errs).length = 15 := by simp [hlen, realDistance]
  rw [hl] at h6
  refine ⟨val (coeffs 0 4 15 start [(0, 0, 6)]) (seen ((realDistance.map fun q : ℚ => (q : ℝ)).zip errs) [1]) 2, ?_, ?_⟩
  · simp only [gravityTunedTest, h1, h3, h5, res_bind_ok]
    exact read_x h6
  obtain ⟨a, b⟩ := val_bounds (L := coeffs 0 4 15 start [(0, 0, 6)])
    (data_near (δ := 4 / 25) (by norm_num) (M := realDistance) (by rw [hlen]; rfl)
      (fun e h => (he e h).trans (by push_cast; norm_num)))
  have e1 : 9 < low (4 / 25) (coeffs 0 4 15 start [(0, 0, 6)]) (realDistance.reverse ++ [1]) := by decide +kernel
  have e2 : high (4 / 25) (coeffs 0 4 15 start [(0, 0, 6)]) (realDistance.reverse ++ [1]) < 10 := by decide +kernel
  have e1' := (Rat.cast_lt (K := ℝ)).2 e1
  have e2' := (Rat.cast_lt (K := ℝ)).2 e2
  push_cast at e1' e2'
  exact ⟨e1'.trans_le a, b.trans_lt e2'⟩

/-- C71, `tests/gravity_q_tuned.rs` with the errors of the test, known up to 0.045 (so that the rounding of the `f64`
constants is covered): the assertion holds. -/
theorem C71_gravity_tuned_test_errors [MDT ℝ] [ExactReal] (bld : Build) {errs : List ℝ}
    (he : List.Forall₂ (fun (e : ℝ) (n : ℚ) => |e - n| ≤ 0.045) errs observationError) :
    ∃ g, gravityTunedTest bld (1 / 2) (1 / 10) 6 (1 / 2) ((realDistance.map fun q : ℚ => (q : ℝ)).zip errs) = .ok g ∧
      9 < g ∧ g < 10 := by
  obtain ⟨f, h1, h2⟩ := gravityFilter_reps (f := staticKalman 0) rfl
  obtain ⟨o, h3, h4⟩ := gravityObservation_reps (o := staticObservation 0) rfl
  rw [init_val] at h2
  have hlen : errs.length = 15 := he.length_eq
  obtain ⟨f', o', A, P, Q, h5, h6⟩ :=
    gravityTunedLoop_val bld (lambda := 1 / 2) 4 (by norm_num) (by norm_num) start_psd h2 h4
      ((realDistance.map fun q : ℚ => (q : ℝ)).zip errs)
  have hl : ((realDistance.map fun q : ℚ => (q : ℝ)).zip errs).length = 15 := by simp [hlen, realDistance]
  rw [hl] at h6
  refine ⟨val (coeffs 0 4 15 start [(0, 0, 6)]) (seen ((realDistance.map fun q : ℚ => (q : ℝ)).zip errs) [1]) 2, ?_, ?_⟩
  · simp only [gravityTunedTest, h1, h3, h5, res_bind_ok]
    exact read_x h6
  obtain ⟨a, b⟩ := val_bounds (L := coeffs 0 4 15 start [(0, 0, 6)])
    (data_near_noise (δ := 9 / 200) (by norm_num) (M := realDistance) (N := observationError) rfl
      (he.imp fun e n h => h.trans (by push_cast; norm_num)))
  have e1 : 9 < low (9 / 200) (coeffs 0 4 15 start [(0, 0, 6)])
      ((realDistance.zipWith (· + ·) observationError).reverse ++ [1]) := by decide +kernel
  have e2 : high (9 / 200) (coeffs 0 4 15 start [(0, 0, 6)])
      ((realDistance.zipWith (· + ·) observationError).reverse ++ [1]) < 10 := by decide +kernel
  have e1' := (Rat.cast_lt (K := ℝ)).2 e1
  have e2' := (Rat.cast_lt (K := ℝ)).2 e2
  push_cast at e1' e2'
  exact ⟨e1'.trans_le a, b.trans_lt e2'⟩

/-- C71, `examples/gravity.rs`: for every acceleration `g` of the falling object and all measurement errors up to `δ`, the
program does not panic, and the acceleration it finds after its 100 measurements is off by at most
`1.53 δ + 10⁻²⁰ |g - 6|` (6 being the initial guess). -/
theorem C71_gravity_example [MDT ℝ] [ExactReal] (bld : Build) (g : ℝ) {δ : ℝ} {errs : List ℝ} (hlen : errs.length = 100)
    (he : ∀ e ∈ errs, |e| ≤ δ) :
    ∃ g', gravityExample bld (1 / 2) (1 / 10) 6 ((generateValues (1 / 2) g 100).zip errs) = .ok g' ∧
      |g' - g| ≤ 1.53 * δ + 10⁻¹ ^ 20 * |g - 6| := by
  have hδ : 0 ≤ δ := by
    cases errs with
    | nil => cases hlen
    | cons e errs => exact (abs_nonneg e).trans (he e (by simp))
  have b1 : (buildRegularKalman bld : Res (RegularKalman 3 ℝ)) = .ok (staticKalman 0) := by
    rcases bld with ⟨_ | _, _ | _⟩ <;> rfl
  have b2 : (buildControl bld : Res (Control 3 1 ℝ)) = .ok (staticControl 0) := by
    rcases bld with ⟨_ | _, _ | _⟩ <;> rfl
  have b3 : (buildRegularObservation bld : Res (RegularObservation 3 1 ℝ)) = .ok (staticObservation 0) := by
    rcases bld with ⟨_ | _, _ | _⟩ <;> rfl
  obtain ⟨f, h1, h2⟩ := gravityFilter_reps (f := staticKalman 0) rfl
  obtain ⟨o, h3, h4⟩ := gravityObservation_reps (o := staticObservation 0) rfl
  obtain ⟨c, h3', h4'⟩ := gravityControl_reps (c := staticControl 0) rfl
  rw [show (![0, 0, 6] : Fin 3 → ℝ) = ![0, 0, g] + val [(0, 0, 1)] [6 - g] by
    ext i; fin_cases i <;> simp [val, tri]] at h2
  obtain ⟨f', c', o', A, P, Q, s', v', h5, h6⟩ := gravityControlLoop_val bld start_psd h2 h4' h4 errs
  rw [hlen] at h5 h6
  refine ⟨(![s', v', g] + val (coeffs 1 1 100 start [(0, 0, 1)]) (errs.reverse ++ [6 - g])) 2, ?_, ?_⟩
  · simp only [gravityExample, generateValues, b1, b2, b3, h1, h3, h3', h5, res_bind_ok]
    exact read_x h6
  have hv := val_gain (L := coeffs 1 1 100 start [(0, 0, 1)]) (E := errs.reverse) (w := 6 - g)
    (fun e h => he e (List.mem_reverse.1 h)) (by rw [coeffs_length]; simp [hlen])
  have e1 : noiseGain (coeffs 1 1 100 start [(0, 0, 1)]) ≤ 1.53 := by decide +kernel
  have e2 : startGain (coeffs 1 1 100 start [(0, 0, 1)]) ≤ 10⁻¹ ^ 20 := by decide +kernel
  have e1' := (Rat.cast_le (K := ℝ)).2 e1
  have e2' := (Rat.cast_le (K := ℝ)).2 e2
  push_cast at e1' e2'
  have e3 := mul_le_mul_of_nonneg_right e1' hδ
  have e4 := mul_le_mul_of_nonneg_right e2' (abs_nonneg (6 - g))
  rw [show (![s', v', g] + val (coeffs 1 1 100 start [(0, 0, 1)]) (errs.reverse ++ [6 - g])) 2 - g =
    val (coeffs 1 1 100 start [(0, 0, 1)]) (errs.reverse ++ [6 - g]) 2 by simp, abs_sub_comm g 6]
  linarith

/-- C71, the assertion of `examples/gravity.rs:74`: the estimate is between 9 and 10 whenever all 100 measurement errors
are at most 0.12. -/
theorem C71_gravity_example_assertion [MDT ℝ] [ExactReal] (bld : Build) {errs : List ℝ} (hlen : errs.length = 100)
    (he : ∀ e ∈ errs, |e| ≤ 0.12) :
    ∃ g, gravityExample bld (1 / 2) (1 / 10) 6 ((generateValues (1 / 2) 9.81 100).zip errs) = .ok g ∧ 9 < g ∧ g < 10 := by
  obtain ⟨g, h1, h2⟩ := C71_gravity_example bld 9.81 hlen he
  rw [abs_le, show |(9.81 : ℝ) - 6| = 3.81 by norm_num [abs_of_pos]] at h2
  refine ⟨g, h1, ?_, ?_⟩ <;> norm_num at h2 ⊢ <;> linarith [h2.1, h2.2]

/-! The hypotheses are met by, for example, constant errors, and by the errors of the test. -/

example : (List.replicate 15 (-3 : ℝ)).length = 15 ∧ ∀ e ∈ List.replicate 15 (-3 : ℝ), |e| ≤ 4 :=
  ⟨by simp, by intro e h; rw [List.eq_of_mem_replicate h]; norm_num⟩

example : (List.replicate 100 (1 / 10 : ℝ)).length = 100 ∧ ∀ e ∈ List.replicate 100 (1 / 10 : ℝ), |e| ≤ 0.12 :=
  ⟨by simp, by intro e h; rw [List.eq_of_mem_replicate h]; norm_num [abs_of_pos]⟩

example : List.Forall₂ (fun (e : ℝ) (n : ℚ) => |e - n| ≤ 0.045) (observationError.map fun q : ℚ => (q : ℝ) + 1 / 100)
    observationError :=
  List.forall₂_map_left_iff.2 (List.forall₂_same.2 fun q _ => by norm_num [abs_of_pos])

end Minikalman
