import Verif.Proofs.Variance
import Verif.Props.Float

/-!
# Property C104: which guarantees about the covariance survive rounding
-/

set_option linter.unusedSectionVars false

namespace Minikalman

open Matrix

variable {n : Nat} {fmt : Format}

/-- C104: a correction with a single measured component never enlarges a variance, in floating point arithmetic of any format and
whatever the numbers are (no bounds, no conditions on the noise, the decomposition may even have failed), if the covariance is
symmetric bit for bit: each new diagonal entry compares `<=` to the old one or is NaN. -/
theorem C104_variances_never_grow (bld : Build) {f f' : RegularKalman n (Bin fmt)} {o o' : RegularObservation n 1 (Bin fmt)}
    {x A P Q H z R} (hn : 0 < n) (hf : f.Reps x A P Q) (ho : o.Reps H z R) (hP : Spec.MirrorSymmetric P)
    (h : f.correct bld o = .ok (f', o')) :
    ∃ P', f'.P.Reps P' ∧ ∀ i, P' i i = .nan ∨ MDT.le (P' i i) (P i i) = true := by
  obtain ⟨P', h1, h2⟩ := scalar_correct bld hn hf ho h
  exact ⟨P', h1, Bin.form_le hP h2⟩

/-- C104, the same for the extended filter, whatever the closure computes. -/
theorem C104_variances_never_grow_extended {σ : Type} (bld : Build) {f f' : ExtendedKalman n (Bin fmt)}
    {o o' : ExtendedObservation n 1 (Bin fmt)} {x A P Q H z R} (hf : f.asRegular.Reps x A P Q) (ho : o.asRegular.Reps H z R)
    (hP : Spec.MirrorSymmetric P) {c : σ → Mat n 1 (Bin fmt) → Mat 1 1 (Bin fmt) → Res (σ × Mat 1 1 (Bin fmt))} (hc : KeepsLength c)
    {st st' : σ} (h : f.correctNonlinear bld o c st = .ok (st', f', o')) :
    ∃ P', f'.P.Reps P' ∧ ∀ i, P' i i = .nan ∨ MDT.le (P' i i) (P i i) = true := by
  obtain ⟨P', h1, h2⟩ := scalar_xcorrect bld hf ho hc h
  exact ⟨P', h1, Bin.form_le hP h2⟩

/-- C104, the same for fixed point numbers in which nothing overflowed. -/
theorem C104_variances_never_grow_fixed {b : Nat} (hb : 2 ≤ b) (bld : Build) {f f' : RegularKalman n (Watched b)}
    {o o' : RegularObservation n 1 (Watched b)} {x A P Q H z R} (hn : 0 < n) (hf : f.Reps x A P Q) (ho : o.Reps H z R)
    (hP : Spec.MirrorSymmetric P) (h : f.correct bld o = .ok (f', o')) :
    ∃ P', f'.P.Reps P' ∧ ∀ i, (P' i i).clean = true → MDT.le (P' i i) (P i i) = true := by
  obtain ⟨P', h1, h2⟩ := scalar_correct bld hn hf ho h
  exact ⟨P', h1, fun i => Watched.form_le hb hP h2 i⟩

/-- C104: the variance of a state that is measured directly does not become negative if the measurement is not too precise compared
with the state: if the variance of the noise is at least `12 u` times the innovation variance, `u = 2^-p` being the unit roundoff
(`2^-24` or `2^-53`); no conditions on the other entries of the covariance but that they are finite. The innovation
variance must not be so large that its inverse underflows; and the noise variance not so small that its inverse overflows, unless the result
happens to be finite. -/
theorem C104_measured_variance_nonnegative (bld : Build) (h4 : 4 ≤ fmt.prec) (h2 : 2 * fmt.prec ≤ fmt.frac)
    (hF : 2 * fmt.frac ≤ fmt.top + fmt.prec) {f f' : RegularKalman n (Bin fmt)} {o o' : RegularObservation n 1 (Bin fmt)}
    {x A P Q z R} {j : Fin n} (hf : f.Reps x A P Q) (ho : o.Reps (Spec.direct j) z R)
    (hPf : ∀ i k, (P i k).Finite) (hp0 : 0 ≤ (P j j).val) (hR0 : 0 < (R 0 0).val)
    (h12 : 12 * (1 / 2 ^ fmt.prec) * ((P j j).val + (R 0 0).val) ≤ (R 0 0).val)
    (hbig : (P j j).val + (R 0 0).val ≤ 2 ^ fmt.frac / 2 ^ (fmt.prec + 2)) (h : f.correct bld o = .ok (f', o')) :
    ∃ P', f'.P.Reps P' ∧ ((P' j j).Finite ∨ 2 < (R 0 0).val * fmt.limit →
      (P' j j).Finite ∧ 0 ≤ (P' j j).val ∧ (P' j j).val ≤ (P j j).val) := by
  obtain ⟨P', h1, h3⟩ := scalar_correct bld j.pos hf ho h
  exact ⟨P', h1, direct_form h4 h2 hF hPf hp0 hR0 h12 hbig h3⟩

/-- C104, the same for the extended filter with a Jacobian that is a unit vector. -/
theorem C104_measured_variance_nonnegative_extended {σ : Type} (bld : Build) (h4 : 4 ≤ fmt.prec) (h2 : 2 * fmt.prec ≤ fmt.frac)
    (hF : 2 * fmt.frac ≤ fmt.top + fmt.prec) {f f' : ExtendedKalman n (Bin fmt)} {o o' : ExtendedObservation n 1 (Bin fmt)}
    {x A P Q z R} {j : Fin n} (hf : f.asRegular.Reps x A P Q) (ho : o.asRegular.Reps (Spec.direct j) z R)
    (hPf : ∀ i k, (P i k).Finite) (hp0 : 0 ≤ (P j j).val) (hR0 : 0 < (R 0 0).val)
    (h12 : 12 * (1 / 2 ^ fmt.prec) * ((P j j).val + (R 0 0).val) ≤ (R 0 0).val)
    (hbig : (P j j).val + (R 0 0).val ≤ 2 ^ fmt.frac / 2 ^ (fmt.prec + 2))
    {c : σ → Mat n 1 (Bin fmt) → Mat 1 1 (Bin fmt) → Res (σ × Mat 1 1 (Bin fmt))} (hc : KeepsLength c)
    {st st' : σ} (h : f.correctNonlinear bld o c st = .ok (st', f', o')) :
    ∃ P', f'.P.Reps P' ∧ ((P' j j).Finite ∨ 2 < (R 0 0).val * fmt.limit →
      (P' j j).Finite ∧ 0 ≤ (P' j j).val ∧ (P' j j).val ≤ (P j j).val) := by
  obtain ⟨P', h1, h3⟩ := scalar_xcorrect bld hf ho hc h
  exact ⟨P', h1, direct_form h4 h2 hF hPf hp0 hR0 h12 hbig h3⟩

/-- C104: recursive averaging for as long as you like. A filter with one state in floating point that only its measurements change
(`|A| <= 1`, `Q = 0`), any number of sensors that measure it directly and are not too precise for the format compared with the initial
variance: after any sequence of predictions, corrections by any of the sensors, new measurements of any value and new states, the variance
is finite, not negative and not larger than initially; so it cannot become NaN even if the state does. -/
theorem C104_averaging (bld : Build) (h4 : 4 ≤ fmt.prec) (h2 : 2 * fmt.prec ≤ fmt.frac) (hF : 2 * fmt.frac ≤ fmt.top + fmt.prec)
    {w : World 1 (Bin fmt)} {x A P Q} (hv : w.Valid) (hf : w.kf.Reps x A P Q) (hA : (A 0 0).Finite) (hA1 : |(A 0 0).val| ≤ 1)
    (hQ : (Q 0 0).Finite) (hQ0 : (Q 0 0).val = 0) (hP : (P 0 0).Finite) (hP0 : 0 ≤ (P 0 0).val)
    (hobs : ∀ s ∈ w.obs, ∃ (o : RegularObservation 1 1 (Bin fmt)) (z : _) (R : _), s = ⟨1, o⟩ ∧ o.Reps (Spec.direct 0) z R ∧
      Spec.NoisyEnough fmt (P 0 0).val (R 0 0).val)
    {ops : List (Op (Bin fmt))} (hops : ∀ op ∈ ops, op.WellFormed w) (hm : ∀ op ∈ ops, op.KeepsModel) :
    ∃ w' P', w.run bld ops = .ok w' ∧ w'.kf.P.Reps P' ∧ (P' 0 0).Finite ∧ 0 ≤ (P' 0 0).val ∧ (P' 0 0).val ≤ (P 0 0).val := by
  obtain ⟨w', h1, _, _⟩ := C40_history_never_panics bld hv hops
  obtain ⟨⟨_, _, P', _, k1, _, _, _, k2, k3, k4⟩, _⟩ := averages_run bld h4 h2 hF hv
    ⟨⟨x, A, P, Q, hf, hA, hA1, ⟨hQ, hQ0⟩, hP, hP0, le_rfl⟩, hobs⟩ hops hm h1
  exact ⟨w', P', h1, k1.P, k2, k3, k4⟩

/-- C104: the conditions on the format hold for `f32` and `f64`. -/
theorem C104_formats (b : Bool) : (4 ≤ (Format.f32 b).prec ∧ 2 * (Format.f32 b).prec ≤ (Format.f32 b).frac ∧
      2 * (Format.f32 b).frac ≤ (Format.f32 b).top + (Format.f32 b).prec) ∧
    (4 ≤ (Format.f64 b).prec ∧ 2 * (Format.f64 b).prec ≤ (Format.f64 b).frac ∧
      2 * (Format.f64 b).frac ≤ (Format.f64 b).top + (Format.f64 b).prec) := by
  refine ⟨⟨?_, ?_, ?_⟩, ?_, ?_, ?_⟩ <;> simp [Format.f32, Format.f64]

/-! ### What rounding does break -/

namespace Ex

/-- A filter on `f32` with one state. -/
def oneState (p : F32) : RegularKalman 1 F32 := ⟨⟨[0]⟩, ⟨[1]⟩, ⟨[p]⟩, ⟨[0]⟩, ⟨[0]⟩, ⟨[0]⟩⟩

/-- A direct measurement of it. -/
def oneSensor (r z : F32) : RegularObservation 1 1 F32 :=
  ⟨⟨[1]⟩, ⟨[z]⟩, ⟨[r]⟩, ⟨[0]⟩, ⟨[0]⟩, ⟨[0]⟩, ⟨[0]⟩, ⟨[0]⟩, ⟨[0]⟩, ⟨[0]⟩⟩

/-- Two measurements of it with strongly correlated noise. -/
def twoSensors : RegularObservation 1 2 F32 :=
  ⟨⟨[1, f32 11863283 8388608]⟩, ⟨[0, 0]⟩, ⟨[1, f32 11863278 8388608, f32 11863278 8388608, f32 2 1]⟩, ⟨[0, 0]⟩, ⟨[0, 0, 0, 0]⟩, ⟨[0, 0]⟩,
    ⟨[0, 0, 0, 0]⟩, ⟨[0, 0]⟩, ⟨[0, 0]⟩, ⟨[0]⟩⟩

/-- A filter on `f32` with two states, and a direct measurement of the first one. -/
def twoStates : RegularKalman 2 F32 := ⟨⟨[0, 0]⟩, ⟨[1, 0, 0, 1]⟩, ⟨[f32 5 1, f32 9 1, f32 9 1, f32 17 1]⟩, ⟨[0, 0, 0, 0]⟩, ⟨[0, 0]⟩, ⟨[0, 0, 0, 0]⟩⟩
def firstSensor : RegularObservation 2 1 F32 :=
  ⟨⟨[1, 0]⟩, ⟨[1]⟩, ⟨[1]⟩, ⟨[0]⟩, ⟨[0]⟩, ⟨[0, 0]⟩, ⟨[0]⟩, ⟨[0, 0]⟩, ⟨[0, 0]⟩, ⟨[0, 0, 0, 0]⟩⟩

/-- The covariance after correcting. -/
def covAfter {n m : Nat} {T : Type} [Zero T] [One T] [Add T] [Sub T] [Mul T] [Neg T] [MDT T] (f : RegularKalman n T) (o : RegularObservation n m T) :
    Res (List T) := (f.correct ⟨true, false⟩ o).map fun r => r.1.P.data

/-- State and covariance after correcting twice with the same observation. -/
def twice {n m : Nat} {T : Type} [Zero T] [One T] [Add T] [Sub T] [Mul T] [Neg T] [MDT T] (f : RegularKalman n T) (o : RegularObservation n m T) :
    Res (List T × List T) := (f.correct ⟨true, false⟩ o) >>= fun r => (r.1.correct ⟨true, false⟩ r.2).map fun r => (r.1.x.data, r.1.P.data)

/-- The same with numbers of `I16F16`. -/
def oneStateFixed (p : I16F16) : RegularKalman 1 I16F16 := ⟨⟨[0]⟩, ⟨[1]⟩, ⟨[p]⟩, ⟨[0]⟩, ⟨[0]⟩, ⟨[0]⟩⟩
def oneSensorFixed (r z : I16F16) : RegularObservation 1 1 I16F16 :=
  ⟨⟨[1]⟩, ⟨[z]⟩, ⟨[r]⟩, ⟨[0]⟩, ⟨[0]⟩, ⟨[0]⟩, ⟨[0]⟩, ⟨[0]⟩, ⟨[0]⟩, ⟨[0]⟩⟩

end Ex

open Ex in
/-- C104: none of the guarantees of exact arithmetic holds without conditions. In `f32`:
the covariance `[5, 9; 9, 17]` is no longer symmetric after measuring the first state with noise variance 1;
a variance of 7 becomes negative (`-2^-20`) after a measurement with noise variance `2^-24`;
and a second one then makes both the state and the variance useless (infinite);
with two measured components, a variance of 7 grows to 10.5 although all covariances are those of a possible sensor.
In `I16F16`, the variance `1 + 2^-16` becomes `-2^-16` after a measurement with noise variance `2^-16`, and a second one panics. -/
theorem C104_not_without_conditions :
    covAfter twoStates firstSensor = .ok [f32 436907 524288, f32 (3 * 2 ^ 19 + 1) (2 ^ 20), f32 (3 * 2 ^ 20 + 1) (2 ^ 21), f32 3670017 1048576] ∧
    covAfter (oneState (f32 7 1)) (oneSensor (f32 1 (2 ^ 24)) 1) = .ok [f32 (-1) (2 ^ 20)] ∧
    (∃ x p, twice (oneState (f32 7 1)) (oneSensor (f32 1 (2 ^ 24)) 1) = .ok ([x], [p]) ∧ ¬ x.Finite ∧ ¬ p.Finite) ∧
    covAfter (oneState (f32 7 1)) twoSensors = .ok [f32 21 2] ∧
    covAfter (oneStateFixed ⟨65537#32⟩) (oneSensorFixed ⟨1#32⟩ 1) = .ok [⟨-1#32⟩] ∧
    twice (oneStateFixed ⟨65537#32⟩) (oneSensorFixed ⟨1#32⟩ 1) = .error .arithmetic := by
  refine ⟨by decide +kernel, by decide +kernel, ⟨.inf false, .inf true, by decide +kernel, id, id⟩, by decide +kernel, by decide +kernel, by decide +kernel⟩

open Ex in
/-- The last filter of `twoStates` meets the conditions of the theorems above, and the result is finite. -/
example : ∃ x A P Q z R f' o', twoStates.Reps x A P Q ∧ firstSensor.Reps (Spec.direct 0) z R ∧ Spec.MirrorSymmetric P ∧
    (∀ i k, (P i k).Finite) ∧ 0 ≤ (P 0 0).val ∧ 0 < (R 0 0).val ∧ 12 * (1 / 2 ^ 24) * ((P 0 0).val + (R 0 0).val) ≤ (R 0 0).val ∧
    (P 0 0).val + (R 0 0).val ≤ 2 ^ 149 / 2 ^ (24 + 2) ∧ twoStates.correct ⟨true, false⟩ firstSensor = .ok (f', o') := by
  have hP : ((!![f32 5 1, f32 9 1; f32 9 1, f32 17 1] : Matrix (Fin 2) (Fin 2) F32) 0 0).val = 5 := by
    have h5 := (Bin.rat_val (a := f32 5 1) (q := 5) (by decide +kernel)).2
    have e : ∀ a b c d : F32, (!![a, b; c, d] : Matrix (Fin 2) (Fin 2) F32) 0 0 = a := fun _ _ _ _ => rfl
    rw [e, h5]
    norm_num
  have hR : ((!![1] : Matrix (Fin 1) (Fin 1) F32) 0 0).val = 1 := Bin.one_val
  have hok : (twoStates.correct ⟨true, false⟩ firstSensor).isOk = true := by decide +kernel
  refine ⟨![0, 0], !![1, 0; 0, 1], !![f32 5 1, f32 9 1; f32 9 1, f32 17 1], !![0, 0; 0, 0], ![1], !![1], ?_⟩
  cases hc : twoStates.correct ⟨true, false⟩ firstSensor with
  | error e => rw [hc] at hok; cases hok
  | ok r =>
    refine ⟨r.1, r.2, ⟨by decide +kernel, by decide +kernel, by decide +kernel, by decide +kernel, by decide +kernel, by decide +kernel⟩,
      ⟨by decide +kernel, by decide +kernel, by decide +kernel, by decide +kernel, by decide +kernel, by decide +kernel,
        by decide +kernel, by decide +kernel, by decide +kernel, by decide +kernel⟩, ?_, ?_, ?_, ?_, ?_, ?_, rfl⟩
    · intro i j; fin_cases i <;> fin_cases j <;> decide +kernel
    · intro i j; fin_cases i <;> fin_cases j <;> decide +kernel
    · rw [hP]; norm_num
    · rw [hR]; norm_num
    · rw [hP, hR]; norm_num
    · rw [hP, hR]; norm_num

namespace Ex

/-- A variance of 7, sensors with noise variance 1 and `1/8`. -/
def avgWorld : World 1 F32 := ⟨oneState (f32 7 1), [], [⟨1, oneSensor 1 0⟩, ⟨1, oneSensor (f32 1 8) 0⟩]⟩
def avgP : Matrix (Fin 1) (Fin 1) F32 := Matrix.of fun _ _ => f32 7 1
def avgR : Matrix (Fin 1) (Fin 1) F32 := Matrix.of fun _ _ => f32 1 8

/-- The second sensor delivers NaN at some point. -/
def avgOps : List (Op F32) :=
  [.predict, .setZ 0 [f32 3 1], .correct 0, .setX [f32 1 10], .correct 1, .setZ 1 [.nan], .predict, .correct 1, .correct 0]

theorem avgP_val : (avgP 0 0).val = 7 := by
  have h7 := (Bin.rat_val (a := avgP 0 0) (q := 7) (by decide +kernel)).2
  rw [h7]; norm_num

theorem avgR_val : (avgR 0 0).val = 1 / 8 := by
  have h7 := (Bin.rat_val (a := avgR 0 0) (q := 1 / 8) (by decide +kernel)).2
  rw [h7]; norm_num

end Ex

open Ex in
/-- The conditions of `C104_averaging` hold. -/
example : ∃ w' P', avgWorld.run ⟨false, true⟩ avgOps = .ok w' ∧
    w'.kf.P.Reps P' ∧ (P' 0 0).Finite ∧ 0 ≤ (P' 0 0).val ∧ (P' 0 0).val ≤ (avgP 0 0).val := by
  have hlim : (16 : ℝ) < (Format.f32 true).limit := by
    have := Bin.abs_lt_limit (a := f32 16 1) (by decide +kernel)
    have h16 := (Bin.rat_val (a := f32 16 1) (q := 16) (by decide +kernel)).2
    rw [h16] at this
    norm_num at this
    exact this
  have hf := (C104_formats true).1
  have e1 : (Format.f32 true).prec = 24 := rfl
  have e2 : (Format.f32 true).frac = 149 := rfl
  refine C104_averaging ⟨false, true⟩ hf.1 hf.2.1 hf.2.2 (x := ![0]) (P := avgP) (A := Matrix.of fun _ _ => 1) (Q := Matrix.of fun _ _ => 0)
    ⟨by decide, ⟨by decide +kernel, by decide +kernel, by decide +kernel, by decide +kernel, by decide +kernel, by decide +kernel⟩,
      fun _ h => absurd h List.not_mem_nil, ?_⟩
    ⟨by decide +kernel, by decide +kernel, by decide +kernel, by decide +kernel, by decide +kernel, by decide +kernel⟩
    trivial (le_of_eq (by show |(1 : F32).val| = 1; rw [Bin.one_val, abs_one])) trivial Bin.zero_val (by decide +kernel) ?_ ?_ ?_ ?_
  · intro o ho
    rcases List.mem_cons.1 ho with rfl | ho
    · exact ⟨by decide, by decide +kernel, by decide +kernel, by decide +kernel, by decide +kernel, by decide +kernel, by decide +kernel,
        by decide +kernel, by decide +kernel, by decide +kernel, by decide +kernel⟩
    · obtain rfl := List.mem_singleton.1 ho
      exact ⟨by decide, by decide +kernel, by decide +kernel, by decide +kernel, by decide +kernel, by decide +kernel, by decide +kernel,
        by decide +kernel, by decide +kernel, by decide +kernel, by decide +kernel⟩
  · rw [avgP_val]; norm_num
  · intro s hs
    rw [avgP_val]
    rcases List.mem_cons.1 hs with rfl | hs
    · refine ⟨_, ![0], Matrix.of fun _ _ => 1, rfl, ⟨by decide +kernel, by decide +kernel, by decide +kernel, by decide +kernel, by decide +kernel,
        by decide +kernel, by decide +kernel, by decide +kernel, by decide +kernel, by decide +kernel⟩, ?_⟩
      unfold Spec.NoisyEnough
      rw [Matrix.of_apply, Bin.one_val, e1, e2]
      refine ⟨by norm_num, by norm_num, by norm_num, by linarith⟩
    · obtain rfl := List.mem_singleton.1 hs
      refine ⟨_, ![0], avgR, rfl, ⟨by decide +kernel, by decide +kernel, by decide +kernel, by decide +kernel, by decide +kernel,
        by decide +kernel, by decide +kernel, by decide +kernel, by decide +kernel, by decide +kernel⟩, ?_⟩
      unfold Spec.NoisyEnough
      rw [avgR_val, e1, e2]
      refine ⟨by norm_num, by norm_num, by norm_num, by linarith⟩
  · intro op ho
    have k0 : ∀ a : F32, (Op.setZ 0 [a]).WellFormed avgWorld := fun _ => rfl
    have k1 : ∀ a : F32, (Op.setZ 1 [a]).WellFormed avgWorld := fun _ => rfl
    have k2 : ∀ a : F32, (Op.setX [a]).WellFormed avgWorld := fun _ => rfl
    have k3 : (Op.correct (T := F32) 0).WellFormed avgWorld := by show 0 < 2; decide
    have k4 : (Op.correct (T := F32) 1).WellFormed avgWorld := by show 1 < 2; decide
    simp only [avgOps, List.mem_cons, List.not_mem_nil, or_false] at ho
    rcases ho with rfl | rfl | rfl | rfl | rfl | rfl | rfl | rfl | rfl
    exacts [trivial, k0 _, k3, k2 _, k4, k1 _, trivial, k4, k3]
  · intro op ho
    simp only [avgOps, List.mem_cons, List.not_mem_nil, or_false] at ho
    rcases ho with rfl | rfl | rfl | rfl | rfl | rfl | rfl | rfl | rfl <;> exact trivial

end Minikalman
