import Verif.Proofs.FloatChecks

/-!
# C90: the shipped programs keep their promises in floating point arithmetic, whatever the measurement errors are

`tests/gravity.rs`, `tests/gravity_q_tuned.rs` and `examples/car_1d.rs` in the arithmetic they are written for (`f32`, `f64`,
`f32`), with all roundings: the assertions at their ends hold not only for the measurements in the files, but for all
measurements within a tolerance.
-/

set_option linter.unusedSectionVars false

namespace Minikalman

open Examples Cert Programs

theorem zip_close {T : Type} {Q : T → T → Prop} {ms ns es : List T} (hl : ns.length = es.length)
    (h : List.Forall₂ Q ns es) :
    List.Forall₂ (fun d d' : T × T => d'.1 = d.1 ∧ Q d.2 d'.2) (ms.zip ns) (ms.zip es) := by
  induction h generalizing ms with
  | nil => simp
  | cons h0 _ ih =>
    cases ms with
    | nil => exact .nil
    | cons m ms => exact .cons ⟨rfl, h0⟩ (ih (by simpa using hl))

theorem zeros_close {fmt : Format} {δ : ℚ} {errs : List (Bin fmt)} (he : ∀ e ∈ errs, e.Finite ∧ |e.val| ≤ (δ : ℝ)) :
    List.Forall₂ (fun n e : Bin fmt => e.Finite ∧ |e.val - n.val| ≤ (δ : ℝ)) (List.replicate errs.length 0) errs := by
  induction errs with
  | nil => exact .nil
  | cons e errs ih =>
    refine .cons ?_ (ih fun e' h => he e' (by simp [h]))
    rw [Bin.zero_val, sub_zero]
    exact he e (by simp)

/-- C90, `tests/gravity.rs` in single precision: for any 15 measurement errors of at most 4 the test computes a finite
acceleration between 9 and 10. -/
theorem C90_gravity_test (bld : Build) {errs : List F32} (hlen : errs.length = 15) (he : ∀ e ∈ errs, e.Finite ∧ |e.val| ≤ 4) :
    ∃ g, gravityTest bld (.lit 0.5) (.lit 0.1) (.lit 6) ((realDistance.map .lit).zip errs) = .ok g ∧
      g.Finite ∧ 9 < g.val ∧ g.val < 10 := by
  obtain ⟨f, o, h1, h2, h3, h4, h5⟩ := gravityStart_ok (fmt := .f32 true)
  have hz := zeros_close (δ := 4) (by simpa using he)
  rw [hlen] at hz
  obtain ⟨v, g, h6, h7, h8, h9, h10⟩ := gravity_run near32 (by rw [near32]; rfl) (by rw [near32]; rfl) (by rw [near32]; rfl) (δ := 4) (by norm_num) bld (pre := .predict)
    (fun _ => trivial) ⟨by simp, by simp⟩ (zip_close (ms := realDistance.map .lit) hz.length_eq hz) (ε := 1 / 2 ^ 11) (M := 4096)
    (by rw [near32]; rfl) (by rw [near32]; rfl) gravity_small (by rw [gravityOps]) gravity_check h3 h4 h5
  obtain ⟨o', h11⟩ := gravityLoop_ops h4 h5 h6
  refine ⟨g, ?_, h8, ?_, ?_⟩
  · rw [show (0.5 : ℚ) = 1 / 2 by norm_num, show (0.1 : ℚ) = 1 / 10 by norm_num]
    simp only [gravityTest, h1, h2, h11, res_bind_ok]
    exact h7
  · norm_num at h9; linarith
  · norm_num at h10; linarith

/-- C90, `tests/gravity_q_tuned.rs` in double precision: for any 15 measurement errors of at most 0.16 the test computes a
finite acceleration between 9 and 10. -/
theorem C90_gravity_tuned_test (bld : Build) {errs : List F64} (hlen : errs.length = 15)
    (he : ∀ e ∈ errs, e.Finite ∧ |e.val| ≤ 0.16) :
    ∃ g, gravityTunedTest bld (.lit 0.5) (.lit 0.1) (.lit 6) (.lit 0.5) ((realDistance.map .lit).zip errs) = .ok g ∧
      g.Finite ∧ 9 < g.val ∧ g.val < 10 := by
  obtain ⟨f, o, h1, h2, h3, h4, h5⟩ := gravityStart_ok (fmt := .f64 true)
  have hz := zeros_close (δ := 0.16) (errs := errs) (fun e h => ⟨(he e h).1, (he e h).2.trans (by norm_num)⟩)
  rw [hlen] at hz
  obtain ⟨v, g, h6, h7, h8, h9, h10⟩ := gravity_run near64 (by rw [near64]; rfl) (by rw [near64]; rfl) (by rw [near64]; rfl) (δ := 0.16) (by norm_num) bld
    (pre := .predictTuned (.lit 0.5)) (fun _ => trivial) ⟨by simp, by simp⟩
    (zip_close (ms := realDistance.map .lit) hz.length_eq hz) (ε := 1 / 2 ^ 30) (M := 4096)
    (by rw [near64]; rfl) (by rw [near64]; rfl) tuned_small (by rw [gravityTunedOps]) tuned_check h3 h4 h5
  obtain ⟨o', h11⟩ := gravityTunedLoop_ops h4 h5 h6
  refine ⟨g, ?_, h8, ?_, ?_⟩
  · rw [show (.lit 0.5 : F64) = .lit (1 / 2) by norm_num, show (0.1 : ℚ) = 1 / 10 by norm_num]
    rw [show (.lit 0.5 : F64) = .lit (1 / 2) by norm_num] at h11
    simp only [gravityTunedTest, h1, h2, h11, res_bind_ok]
    exact h7
  · norm_num at h9; linarith
  · norm_num at h10; linarith

/-- C90, `tests/gravity_q_tuned.rs` in double precision, around the errors of the file: for any measurement errors within 0.045
of those. -/
theorem C90_gravity_tuned_test_errors (bld : Build) {errs : List F64}
    (he : List.Forall₂ (fun n e : F64 => e.Finite ∧ |e.val - n.val| ≤ 0.045) (observationError.map .lit) errs) :
    ∃ g, gravityTunedTest bld (.lit 0.5) (.lit 0.1) (.lit 6) (.lit 0.5) ((realDistance.map .lit).zip errs) = .ok g ∧
      g.Finite ∧ 9 < g.val ∧ g.val < 10 := by
  obtain ⟨f, o, h1, h2, h3, h4, h5⟩ := gravityStart_ok (fmt := .f64 true)
  have hz : List.Forall₂ (fun n e : F64 => e.Finite ∧ |e.val - n.val| ≤ ((0.045 : ℚ) : ℝ)) (observationError.map .lit) errs :=
    he.imp fun n e h => ⟨h.1, h.2.trans (by norm_num)⟩
  obtain ⟨v, g, h6, h7, h8, h9, h10⟩ := gravity_run near64 (by rw [near64]; rfl) (by rw [near64]; rfl) (by rw [near64]; rfl) (δ := 0.045) (by norm_num) bld
    (pre := .predictTuned (.lit 0.5)) (fun _ => trivial) ⟨by simp, by simp⟩
    (zip_close (ms := realDistance.map .lit) hz.length_eq hz) (ε := 1 / 2 ^ 30) (M := 4096)
    (by rw [near64]; rfl) (by rw [near64]; rfl) tuned_errors_small (by rw [gravityTunedOps]) tuned_errors_check h3 h4 h5
  obtain ⟨o', h11⟩ := gravityTunedLoop_ops h4 h5 h6
  refine ⟨g, ?_, h8, ?_, ?_⟩
  · rw [show (.lit 0.5 : F64) = .lit (1 / 2) by norm_num, show (0.1 : ℚ) = 1 / 10 by norm_num]
    rw [show (.lit 0.5 : F64) = .lit (1 / 2) by norm_num] at h11
    simp only [gravityTunedTest, h1, h2, h11, res_bind_ok]
    exact h7
  · norm_num at h9; linarith
  · norm_num at h10; linarith

/-- `assert_f32_near!(a, b)`: at most four units in the last place of `b` apart, where `b` has units `2^-e`. -/
def Near4 (e : Nat) (a b : F32) : Prop := a.Finite ∧ |a.val - b.val| ≤ 4 / 2 ^ e

/-- The observations in the file. -/
def carNominal : List F32 := carObservations.map .lit

/-- A floating point literal and the number it stands for. -/
theorem lit_val {q r : ℚ} (h : (Bin.lit q : F32).rat = some r) : (Bin.lit q : F32).Finite ∧ (Bin.lit q : F32).val = (r : ℝ) := Bin.rat_val h

theorem between_val {a b c : F32} {l h l' h' : ℚ} (hl : b.rat = some l') (hh : c.rat = some h')
    (h1 : l' ≤ l) (h2 : h ≤ h') (ha : a.Finite ∧ (l : ℝ) ≤ a.val ∧ a.val ≤ h) : isBetween a b c = true := by
  obtain ⟨f1, v1⟩ := Bin.rat_val hl
  obtain ⟨f2, v2⟩ := Bin.rat_val hh
  unfold isBetween
  rw [Bool.and_eq_true]
  have e1 : (l' : ℝ) ≤ l := by exact_mod_cast h1
  have e2 : (h : ℝ) ≤ h' := by exact_mod_cast h2
  exact ⟨(Bin.le_iff f1 ha.1).2 (by rw [v1]; linarith [ha.2.1]), (Bin.le_iff ha.1 f2).2 (by rw [v2]; linarith [ha.2.2])⟩

theorem between_ok {a : F32} {lo hi l h l' h' : ℚ} (hl : (Bin.lit lo : F32).rat = some l') (hh : (Bin.lit hi : F32).rat = some h')
    (h1 : l' ≤ l) (h2 : h ≤ h') (ha : a.Finite ∧ (l : ℝ) ≤ a.val ∧ a.val ≤ h) : isBetween a (.lit lo) (.lit hi) = true :=
  between_val hl hh h1 h2 ha

theorem near_cast {p b d : ℚ} (h : |p - b| ≤ d) {x y e : ℝ} (hx : x = p) (hy : y = b) (he : (d : ℝ) = e) : |x - y| ≤ e := by
  rw [hx, hy, ← he]
  exact_mod_cast h

/-- C90, `examples/car_1d.rs` in single precision: all its assertions hold for any ten observations of which those that are
used (the first, third, ...) are within 0.012 of the ones in the file; the others can be anything, even NaN. -/
theorem C90_car (bld : Build) {obs : List F32} (hlen : obs.length = 10)
    (ho : ∀ (i : Nat) (b a : F32), i % 2 = 0 → carNominal[i]? = some b → obs[i]? = some a → a.Finite ∧ |a.val - b.val| ≤ (0.012 : ℝ)) :
    ∃ x x' p v a p' v' a', carExample bld (.lit 0.5) (.lit 0.1) (.lit (-5)) (.lit 0.3) (.lit (-0.1333333)) obs = .ok (x, x') ∧
      x.index 0 = .ok p ∧ x.index 1 = .ok v ∧ x.index 2 = .ok a ∧
      Near4 20 p (.lit 10) ∧ Near4 22 v (.lit 3) ∧ Near4 25 a (.lit 0.3) ∧
      x'.index 0 = .ok p' ∧ x'.index 1 = .ok v' ∧ x'.index 2 = .ok a' ∧
      isBetween p' (.lit 35) (.lit 36.3) = true ∧ isBetween v' (.lit (-0.6)) (.lit 0) = true ∧
      isBetween a' (.lit (-1.3)) (.lit (-1.03)) = true := by
  obtain ⟨f, f', c, o, h1, h2, h3, h4, h5⟩ := carStart_ok bld obs
  have hb : carStart bld = carStart ⟨true, false⟩ := by rcases bld with ⟨_ | _, _ | _⟩ <;> rfl
  rw [hb] at h1
  have hk := car_check
  unfold carCheck at hk
  rw [h1] at hk
  dsimp only at hk
  rw [Bool.and_eq_true] at hk
  obtain ⟨k1, k2⟩ := hk
  have hv : f'.x.RepsV (fun i => f'.x.cell i 0) := h2.kf.x.repsV
  have hmid : ∃ p v a, f'.x.index 0 = .ok p ∧ f'.x.index 1 = .ok v ∧ f'.x.index 2 = .ok a ∧
      Near4 20 p (.lit 10) ∧ Near4 22 v (.lit 3) ∧ Near4 25 a (.lit 0.3) := by
    split at k1
    · rename_i p v a hd
      simp only [Bool.and_eq_true, decide_eq_true_eq] at k1
      have key : ∀ i : Nat, Bin.Finite (f'.x.data[i]?.getD 0) ∧ Bin.val (f'.x.data[i]?.getD 0) = (cell [p, v, a] i : ℝ) :=
        fun i => near32.rats_cell hd i
      have hi : ∀ i : Fin 3, f'.x.index i = .ok (f'.x.data[(i : Nat)]?.getD 0) := by
        intro i
        have := hv i
        rw [Mat.index, rd_eq this, this]
        rfl
      refine ⟨_, _, _, hi 0, hi 1, hi 2, ⟨(key 0).1, ?_⟩, ⟨(key 1).1, ?_⟩, ⟨(key 2).1, ?_⟩⟩
      · have hl := (lit_val (q := 10) (r := 10) (by decide +kernel)).2
        exact near_cast k1.1.1 (key 0).2 hl (by norm_num)
      · have hl := (lit_val (q := 3) (r := 3) (by decide +kernel)).2
        exact near_cast k1.1.2 (key 1).2 hl (by norm_num)
      · have hl := (lit_val (q := 0.3) (r := 5033165 / 2 ^ 24) (by decide +kernel)).2
        exact near_cast k1.2 (key 2).2 hl (by norm_num)
    · cases k1
  obtain ⟨p, v, a, m1, m2, m3, m4, m5, m6⟩ := hmid
  obtain ⟨u, x, r1, r2, r3⟩ := nearCar.check_run (r := 0.012) (s := 0) (by norm_num) le_rfl ⟨true, false⟩ h2
    (brake_close nearCar (by norm_num) le_rfl (.lit (-0.1333333)) 10 (zs := carNominal) (zs' := obs) (by rw [hlen]; rfl)
      (fun i b a hi hb ha => by
        have := ho i b a (by omega) hb ha
        refine ⟨this.1, this.2.trans ?_⟩
        norm_num))
    (brake_wf h3 h4 _ _ _) (brake_wf h3 h4 _ _ _) k2
  rw [run_build_eq _ bld (fun o ho => (h2.obs o ho).1)] at r1
  obtain ⟨c', o', r4⟩ := carBrake_ops h2 h3 h4 r1
  have hx : ∀ i : Fin 3, u.kf.x.index i = .ok (x i) := by
    intro i
    rw [Mat.index, rd_eq (r2 i)]
  refine ⟨f'.x, u.kf.x, p, v, a, x 0, x 1, x 2, ?_, m1, m2, m3, m4, m5, m6, hx 0, hx 1, hx 2, ?_, ?_, ?_⟩
  · rw [h5, r4]; rfl
  · exact between_ok (l := 35) (h := 36.299999) (l' := 35) (h' := 9515827 / 262144) (by decide +kernel) (by decide +kernel)
      (by norm_num) (by norm_num) (r3 0)
  · exact between_ok (l := -0.599999) (h := 0) (l' := (Bin.lit (-0.6) : F32).rat.getD 0) (h' := 0) (by decide +kernel) (by decide +kernel)
      (by decide +kernel) (by norm_num) (r3 1)
  · exact between_ok (l := -1.299999) (h := -1.030001) (l' := (Bin.lit (-1.3) : F32).rat.getD 0)
      (h' := (Bin.lit (-1.03) : F32).rat.getD 0) (by decide +kernel) (by decide +kernel)
      (by decide +kernel) (by decide +kernel) (r3 2)

/-! ## The hypotheses are met -/

theorem finite_of_rat {fmt : Format} {l : List (Bin fmt)} (h : l.all (fun e => e.rat.isSome) = true) (e : Bin fmt) (he : e ∈ l) :
    e.Finite := by
  obtain ⟨q, hq⟩ := Option.isSome_iff_exists.1 (List.all_eq_true.1 h e he)
  exact (Bin.rat_val hq).1

theorem small_of_rat {fmt : Format} {l : List (Bin fmt)} {δ : ℚ}
    (h : l.all (fun e => match e.rat with | some q => decide (|q| ≤ δ) | none => false) = true) (e : Bin fmt) (he : e ∈ l) :
    e.Finite ∧ |e.val| ≤ (δ : ℝ) := by
  have := List.all_eq_true.1 h e he
  split at this
  · rename_i q hq
    obtain ⟨h1, h2⟩ := Bin.rat_val hq
    rw [h2]
    exact ⟨h1, by exact_mod_cast of_decide_eq_true this⟩
  · cases this

theorem close_self {fmt : Format} {l : List (Bin fmt)} (h : ∀ e ∈ l, e.Finite) :
    List.Forall₂ (fun n e : Bin fmt => e.Finite ∧ |e.val - n.val| ≤ (0.045 : ℝ)) l l :=
  List.forall₂_same.2 fun e he => ⟨h e he, by rw [sub_self, abs_zero]; norm_num⟩

/-- Every measurement of `tests/gravity.rs` is 3 too large. -/
def Ex.three : List F32 := List.replicate 15 (.lit 3)

example : ∃ g, gravityTest ⟨true, false⟩ (.lit 0.5) (.lit 0.1) (.lit 6) ((realDistance.map .lit).zip Ex.three) = .ok g ∧
    g.Finite ∧ 9 < g.val ∧ g.val < 10 := by
  have h := small_of_rat (l := Ex.three) (δ := 3) (by decide +kernel)
  exact C90_gravity_test _ (by simp [Ex.three]) fun e he => ⟨(h e he).1, (h e he).2.trans (by norm_num)⟩

/-- The measurement errors of the file. -/
example : ∃ g, gravityTunedTest ⟨false, true⟩ (.lit 0.5) (.lit 0.1) (.lit 6) (.lit 0.5)
    ((realDistance.map .lit).zip (observationError.map .lit : List F64)) = .ok g ∧ g.Finite ∧ 9 < g.val ∧ g.val < 10 :=
  C90_gravity_tuned_test_errors _ (close_self (finite_of_rat (by decide +kernel)))

/-- Alternating errors of 0.125. -/
def Ex.alternating : List F64 := (List.range 15).map fun i => if i % 2 = 0 then .lit 0.125 else .lit (-0.125)

example : ∃ g, gravityTunedTest ⟨true, false⟩ (.lit 0.5) (.lit 0.1) (.lit 6) (.lit 0.5)
    ((realDistance.map .lit).zip Ex.alternating) = .ok g ∧ g.Finite ∧ 9 < g.val ∧ g.val < 10 := by
  have h := small_of_rat (l := Ex.alternating) (δ := 0.125) (by decide +kernel)
  exact C90_gravity_tuned_test _ (by simp [Ex.alternating]) fun e he => ⟨(h e he).1, (h e he).2.trans (by norm_num)⟩

/-- The observations of the file, where those that are not used are replaced by NaN. -/
def Ex.carNan : List F32 := (List.range 10).map fun i => if i % 2 = 0 then carNominal[i]?.getD 0 else .nan

example : ∃ x x' p v a p' v' a', carExample ⟨true, false⟩ (.lit 0.5) (.lit 0.1) (.lit (-5)) (.lit 0.3) (.lit (-0.1333333)) Ex.carNan =
      .ok (x, x') ∧
      x.index 0 = .ok p ∧ x.index 1 = .ok v ∧ x.index 2 = .ok a ∧
      Near4 20 p (.lit 10) ∧ Near4 22 v (.lit 3) ∧ Near4 25 a (.lit 0.3) ∧
      x'.index 0 = .ok p' ∧ x'.index 1 = .ok v' ∧ x'.index 2 = .ok a' ∧
      isBetween p' (.lit 35) (.lit 36.3) = true ∧ isBetween v' (.lit (-0.6)) (.lit 0) = true ∧
      isBetween a' (.lit (-1.3)) (.lit (-1.03)) = true := by
  refine C90_car _ (by simp [Ex.carNan]) fun i b a hi hb ha => ?_
  have hlt : i < 10 := by
    by_contra h
    simp [Ex.carNan, h] at ha
  have : a = b := by
    rw [Ex.carNan, List.getElem?_map, List.getElem?_range hlt] at ha
    simp only [Option.map_some, hi, if_true, hb, Option.getD_some, Option.some.injEq] at ha
    exact ha.symm
  subst this
  rw [sub_self, abs_zero]
  refine ⟨?_, by norm_num⟩
  exact finite_of_rat (l := carNominal) (by decide +kernel) a (List.mem_of_getElem? hb)

end Minikalman
