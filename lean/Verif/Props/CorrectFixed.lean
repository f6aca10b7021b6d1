import Verif.Proofs.CorrectFixed
import Verif.Props.FixedPoint
import Verif.Props.Fixed

/-!
# Property C107: fixed point corrections with one measured component, in range and accurate
-/

set_option linter.unusedSectionVars false
set_option linter.unusedSimpArgs false

namespace Minikalman

open Matrix FixedPoint

variable {b n : Nat}

section Any
variable {T : Type} [Zero T] [One T] [Add T] [Sub T] [Mul T] [Neg T] [MDT T]

/-- A correction with one measured component whose variance, as computed, is positive. -/
theorem scalar_correct_full [SafeRoots T] (bld : Build) {f : RegularKalman n T} {o : RegularObservation n 1 T} {x A P Q H z R}
    (hn : 0 < n) (hf : f.Reps x A P Q) (ho : o.Reps H z R)
    (hle : MDT.le (Spec.mulSeq (Spec.mulSeq H P) Hᵀ 0 0 + R 0 0) 0 = false) :
    ∃ f' o' q d, f.correct bld o = .ok (f', o') ∧
      MDT.squareRoot (Spec.mulSeq (Spec.mulSeq H P) Hᵀ 0 0 + R 0 0) = .ok q ∧ MDT.recip q = .ok d ∧
      o'.K.Reps (Matrix.of fun i _ => scalarGain P H d i) ∧
      f'.x.RepsV (fun i => x i + scalarGain P H d i * (z 0 - Spec.mulVecSeq H x 0)) ∧
      f'.P.Reps (Matrix.of fun i j => P i j - (0 + scalarGain P H d i * Spec.mulSeq H P 0 j)) := by
  cases h : f.correct bld o with
  | error e =>
    obtain ⟨S, L, h1, h2⟩ := C58_correct_panics_only_after_failed_cholesky bld hn Nat.one_pos hf.valid ho.valid hf.P ho.H ho.R h
    obtain ⟨L', p, _, _, l2, _⟩ := chol_any_fail_reps bld h1.valid h1.upper h2
    rw [Subsingleton.elim p 0] at l2
    have : MDT.le (Spec.mulSeq (Spec.mulSeq H P) Hᵀ 0 0 + R 0 0) 0 = true := l2
    rw [hle] at this
    cases this
  | ok r =>
    obtain ⟨f', o'⟩ := r
    obtain ⟨y1, y2, h1, h2, h3, h4⟩ := innovation_any hn ho.valid ho.H ho.z hf.x
    unfold RegularKalman.correct RegularObservation.correct at h
    simp only [h1, h2, res_bind_ok] at h
    obtain ⟨⟨o1, x1, P1⟩, hu, h⟩ := bind_ok h
    cases h
    obtain ⟨q, d, k1, k2, k3, k4, k5⟩ := scalar_update_full bld (o := { o with y := y2 }) (obs_with_y_valid ho.valid h4)
      ho.H ho.R hf.P hf.x h3 hle _ hu
    exact ⟨_, _, q, d, rfl, k1, k2, k3, k4, k5⟩

end Any

theorem squareRoot_lift {a : Watched b} {q : FixedPoint b} (h : MDT.squareRoot a.num = .ok q) :
    ∃ q', MDT.squareRoot a = .ok q' ∧ q'.num = q :=
  ⟨⟨q, a.clean && decide (InRange b (Nat.sqrt (a.num.bits.toInt.toNat * 2 ^ b)))⟩, congrArg (Except.map _) h, rfl⟩

theorem recip_lift {a : Watched b} {d : FixedPoint b} (h : MDT.recip a.num = .ok d) :
    ∃ d', MDT.recip a = .ok d' ∧ d'.num = d :=
  ⟨⟨d, a.clean && decide (InRange b (Int.tdiv (2 ^ (2 * b)) a.num.bits.toInt))⟩, congrArg (Except.map _) h, rfl⟩

/-- C107: with data in the stated range, the correction of a fixed point filter with one measured component does not panic; the gain
it leaves in the observation, the new state and the new covariance are those of the real Kalman filter up to explicit errors. -/
theorem C107_correct_in_range (hb : 2 ≤ b) (bld : Build) {f : RegularKalman n (FixedPoint b)} {o : RegularObservation n 1 (FixedPoint b)}
    {x A P Q H z R} {C Y s : ℝ} (hn : 0 < n) (hf : f.Reps x A P Q) (ho : o.Reps H z R) (h : CorrectInRange x P H z R C Y s) :
    ∃ f' o' K x' P', f.correct bld o = .ok (f', o') ∧ o'.K.Reps K ∧ f'.x.RepsV x' ∧ f'.P.Reps P' ∧
      (∀ i, |(K i 0).val - Spec.gain (valM H) (valM P) (valM R) i 0| ≤
        gainErr b n ((valM P * (valM H)ᵀ) i 0) s (varianceErr H)) ∧
      (∀ i, |(x' i).val - Spec.corrX (valM H) (valM P) (valM R) (valV x) (valV z) i| ≤
        gainMax b n C s (varianceErr H) * (n * res b) +
          gainErr b n ((valM P * (valM H)ᵀ) i 0) s (varianceErr H) * |(valV z - valM H *ᵥ valV x) 0| + res b) ∧
      ∀ i j, |(P' i j).val - Spec.corrP (valM H) (valM P) (valM R) i j| ≤
        gainMax b n C s (varianceErr H) * (n * res b) +
          gainErr b n ((valM P * (valM H)ᵀ) i 0) s (varianceErr H) * |(valM H * valM P) 0 j| + res b := by
  have := FixedPoint.safeRoots (f := b) (by omega)
  obtain ⟨f', o', q, d, h1, h2, h3, h4, h5, h6⟩ := scalar_correct_full bld hn hf ho (variance_positive hb h)
  obtain ⟨q', hq', rfl⟩ : ∃ q', MDT.squareRoot (Spec.mulSeq (Spec.mulSeq (freshM H) (freshM P)) (freshM H)ᵀ 0 0 + freshM R 0 0) =
      .ok q' ∧ q'.num = q := by
    refine squareRoot_lift ?_
    rw [variance_num, h2]
  obtain ⟨d', hd', rfl⟩ := recip_lift h3
  refine ⟨f', o', _, _, _, h1, h4, h5, h6, fun i => ?_, fun i => ?_, fun i j => ?_⟩
  · have := (gain_fit hb h hq' hd' i).1.2
    rw [scalarGain_num, ← real_gain] at this
    exact this
  · have := (state_fit hb h hq' hd' i).2
    have e : (Watched.fresh (x i) + scalarGain (freshM P) (freshM H) d' i *
        (Watched.fresh (z 0) - Spec.mulVecSeq (freshM H) (fun k => Watched.fresh (x k)) 0)).num =
        x i + scalarGain P H d'.num i * (z 0 - Spec.mulVecSeq H x 0) := by
      show x i + (scalarGain (freshM P) (freshM H) d' i).num *
        (z 0 - (Spec.mulVecSeq (freshM H) (fun k => Watched.fresh (x k)) 0).num) = _
      rw [scalarGain_num, Watched.num_mulVecSeq]
      rfl
    rw [e] at this
    exact this
  · have := (covariance_fit hb h hq' hd' i j).2
    have e : (freshM P i j - (0 + scalarGain (freshM P) (freshM H) d' i * Spec.mulSeq (freshM H) (freshM P) 0 j)).num =
        P i j - (0 + scalarGain P H d'.num i * Spec.mulSeq H P 0 j) := by
      have e1 : (Spec.mulSeq (freshM H) (freshM P) 0 j).num = Spec.mulSeq H P 0 j :=
        congrFun (congrFun (Watched.num_mulSeq (freshM H) (freshM P)) 0) j
      show P i j - (0 + (scalarGain (freshM P) (freshM H) d' i).num * (Spec.mulSeq (freshM H) (freshM P) 0 j).num) = _
      rw [scalarGain_num, e1]
    rw [e] at this
    exact this

/-- C107: … and no operation on the way wraps around: if the numbers are watched for overflow (which changes no result, C87), then
those of the new gain, state and covariance are clean. -/
theorem C107_no_overflow (hb : 2 ≤ b) (bld : Build) {f : RegularKalman n (Watched b)} {o : RegularObservation n 1 (Watched b)}
    {x : Fin n → FixedPoint b} {A P Q : Matrix (Fin n) (Fin n) (FixedPoint b)} {H : Matrix (Fin 1) (Fin n) (FixedPoint b)}
    {z : Fin 1 → FixedPoint b} {R : Matrix (Fin 1) (Fin 1) (FixedPoint b)} {C Y s : ℝ} (hn : 0 < n)
    (hf : f.Reps (fun i => .fresh (x i)) (A.map .fresh) (P.map .fresh) (Q.map .fresh))
    (ho : o.Reps (H.map .fresh) (fun i => .fresh (z i)) (R.map .fresh)) (h : CorrectInRange x P H z R C Y s) :
    ∃ f' o' K x' P', f.correct bld o = .ok (f', o') ∧ o'.K.Reps K ∧ f'.x.RepsV x' ∧ f'.P.Reps P' ∧
      (∀ i, (K i 0).clean = true) ∧ (∀ i, (x' i).clean = true) ∧ ∀ i j, (P' i j).clean = true := by
  have := FixedPoint.safeRoots_watched (f := b) (by omega)
  have hle : MDT.le (Spec.mulSeq (Spec.mulSeq (freshM H) (freshM P)) (freshM H)ᵀ 0 0 + freshM R 0 0) 0 = false := by
    show MDT.le (Spec.mulSeq (Spec.mulSeq (freshM H) (freshM P)) (freshM H)ᵀ 0 0 + freshM R 0 0).num 0 = false
    rw [variance_num]
    exact variance_positive hb h
  obtain ⟨f', o', q, d, h1, h2, h3, h4, h5, h6⟩ := scalar_correct_full (P := freshM P) (H := freshM H) (R := freshM R) bld hn hf ho hle
  exact ⟨f', o', _, _, _, h1, h4, h5, h6, fun i => (gain_fit hb h h2 h3 i).1.1, fun i => (state_fit hb h h2 h3 i).1,
    fun i j => (covariance_fit hb h h2 h3 i j).1⟩

/-! ## Bounds for `I16F16` -/

/-- Moderate data for a filter with up to four states in `I16F16`. -/
structure Moderate (x : Fin n → I16F16) (P : Matrix (Fin n) (Fin n) I16F16) (H : Matrix (Fin 1) (Fin n) I16F16)
    (z : Fin 1 → I16F16) (R : Matrix (Fin 1) (Fin 1) I16F16) : Prop where
  dim : n ≤ 4
  psd : (valM P).PosSemidef
  H : ∀ j, |(H 0 j).val| ≤ 1
  P : ∀ i j, |(P i j).val| ≤ 25
  x : ∀ i, |(x i).val| ≤ 50
  z : |(z 0).val| ≤ 100
  R : 2 ≤ (R 0 0).val ∧ (R 0 0).val ≤ 10000

theorem Moderate.inRange {x : Fin n → I16F16} {P : Matrix (Fin n) (Fin n) I16F16} {H : Matrix (Fin 1) (Fin n) I16F16}
    {z : Fin 1 → I16F16} {R : Matrix (Fin 1) (Fin 1) I16F16} (h : Moderate x P H z R) :
    CorrectInRange x P H z R 100 300 1 ∧ varianceErr H ≤ 20 * res 16 := by
  have sum_le : ∀ (g : Fin n → ℝ) (t : ℝ), 0 ≤ t → (∀ k, g k ≤ t) → ∑ k, g k ≤ 4 * t := by
    intro g t ht h'
    refine (Finset.sum_le_sum fun k _ => h' k).trans ?_
    rw [Finset.sum_const, Finset.card_univ, Fintype.card_fin, nsmul_eq_mul]
    exact mul_le_mul_of_nonneg_right (by exact_mod_cast h.dim) ht
  have hn : (n : ℝ) ≤ 4 := by exact_mod_cast h.dim
  have hn0 : (0 : ℝ) ≤ n := Nat.cast_nonneg n
  have hres : res 16 = 1 / 65536 := by unfold res; norm_num
  have hlim : lim 16 = 32768 := by unfold lim; norm_num
  have hE : varianceErr H ≤ 20 * res 16 := by
    unfold varianceErr
    have := sum_le (fun k => absM H 0 k) 1 zero_le_one h.H
    rw [hres]
    have h0 : 0 ≤ ∑ k, absM H 0 k := Finset.sum_nonneg fun _ _ => abs_nonneg _
    nlinarith
  have hE0 : 0 ≤ varianceErr H := by
    unfold varianceErr
    have h0 : 0 ≤ ∑ k, absM H 0 k := Finset.sum_nonneg fun _ _ => abs_nonneg _
    have : 0 < res 16 := res_pos
    positivity
  rw [hres] at hE
  have hroot : rootErr 16 1 = 1 / 65536 + 1 / 65536 / ((1 - 1 / 65536) * 1) := by unfold rootErr; rw [Real.sqrt_one, hres]
  have hinv : inverseErr 16 1 (varianceErr H) ≤ 26 / 65536 := by
    unfold inverseErr
    rw [hroot, Real.sqrt_one, hres]
    norm_num
    norm_num at hE
    linarith
  have hgain : gainMax 16 n 100 1 (varianceErr H) ≤ 101 := by
    unfold gainMax
    rw [hres]
    have a1 : 100 + (n : ℝ) * (1 / 65536) ≤ 100 + 4 / 65536 := by linarith
    have a2 : (1 : ℝ) / 1 + inverseErr 16 1 (varianceErr H) ≤ 1 + 26 / 65536 := by linarith
    have := mul_le_mul_of_nonneg_left a2 (show 0 ≤ 100 + (n : ℝ) * (1 / 65536) by positivity)
    have := mul_le_mul_of_nonneg_right a1 (show (0 : ℝ) ≤ 1 + 26 / 65536 by norm_num)
    linarith
  have hPH : ∀ i, (absM P * absM H.transpose) i 0 ≤ 100 := fun i => by
    rw [Matrix.mul_apply]
    refine (sum_le _ 25 (by norm_num) fun k => ?_).trans (by norm_num)
    have := mul_le_mul (h.P i k) (h.H k) (abs_nonneg _) (by norm_num)
    exact this.trans (by norm_num)
  have hHP : ∀ j, (absM H * absM P) 0 j ≤ 100 := fun j => by
    rw [Matrix.mul_apply]
    refine (sum_le _ 25 (by norm_num) fun k => ?_).trans (by norm_num)
    have := mul_le_mul (h.H k) (h.P k j) (abs_nonneg _) (by norm_num)
    exact this.trans (by norm_num)
  have hquad : 0 ≤ (valM H * valM P * (valM H).transpose) 0 0 := by
    have := h.psd.mul_mul_conjTranspose_same (valM H)
    rw [Matrix.conjTranspose_eq_transpose_of_trivial] at this
    exact this.diag_nonneg
  refine ⟨⟨hPH, hHP, ?_, ?_, ?_, ?_, ?_, ?_, ?_, ?_, ?_, fun i => ?_, fun i j => ?_⟩, by rw [hres]; exact hE⟩
  · have : (absM H).mulVec (absV x) 0 ≤ 200 := by
      refine (sum_le _ 50 (by norm_num) fun k => ?_).trans (by norm_num)
      have := mul_le_mul (h.H k) (h.x k) (abs_nonneg _) (by norm_num)
      exact this.trans (by norm_num)
    linarith [h.z]
  · show 1 + varianceErr H ≤ (valM H * valM P * (valM H).transpose) 0 0 + (R 0 0).val
    linarith [h.R.1]
  · rw [Real.sqrt_one, hres]; norm_num
  · rw [Real.sqrt_one, hres, hlim]; norm_num
  · rw [hroot, Real.sqrt_one, hlim]; norm_num
  · have : sandwichBound H P H 0 0 ≤ 500 := by
      unfold sandwichBound
      have : ∑ k, ((absM H * absM P) 0 k + n * res 16) * absM H 0 k ≤ 4 * 101 := by
        refine sum_le _ 101 (by norm_num) fun k => ?_
        have a : (absM H * absM P) 0 k + n * res 16 ≤ 101 := by
          rw [hres]
          have := hHP k
          linarith
        have := mul_le_mul a (h.H k) (abs_nonneg _) (by norm_num)
        exact this.trans (by norm_num)
      rw [hres] at this ⊢
      linarith
    rw [hlim, abs_of_nonneg (by linarith [h.R.1])]
    linarith [h.R.2]
  · rw [hres, hlim]; linarith
  · rw [hres, hlim]; linarith
  · rw [hlim]; linarith
  · rw [hres, hlim]
    have a : (300 : ℝ) + n * (1 / 65536) ≤ 301 := by linarith
    have := mul_le_mul hgain a (by positivity) (by norm_num)
    linarith [h.x i]
  · rw [hres, hlim]
    have a : (100 : ℝ) + n * (1 / 65536) ≤ 101 := by linarith
    have := mul_le_mul hgain a (by positivity) (by norm_num)
    linarith [h.P i j]

/-- C107, for `I16F16` and up to four states: with entries of `H` up to 1, of a positive semidefinite `P` up to 25, of the state up to
50, of the measurement up to 100 and a measurement variance between 2 and 10000, the correction cannot panic, and no entry of the gain
is off by more than 1/20. -/
theorem C107_I16F16_correct (bld : Build) {f : RegularKalman n I16F16} {o : RegularObservation n 1 I16F16} {x A P Q H z R} (hn : 0 < n)
    (hf : f.Reps x A P Q) (ho : o.Reps H z R) (h : Moderate x P H z R) :
    ∃ f' o' K, f.correct bld o = .ok (f', o') ∧ o'.K.Reps K ∧
      ∀ i, |(K i 0).val - Spec.gain (valM H) (valM P) (valM R) i 0| ≤ 1 / 20 := by
  obtain ⟨h1, h2⟩ := h.inRange
  obtain ⟨f', o', K, _, _, k1, k2, _, _, k3, _⟩ := C107_correct_in_range (by norm_num) bld hn hf ho h1
  refine ⟨f', o', K, k1, k2, fun i => (k3 i).trans ?_⟩
  have hn : (n : ℝ) ≤ 4 := by exact_mod_cast h.dim
  have hn0 : (0 : ℝ) ≤ n := Nat.cast_nonneg n
  have hres : res 16 = 1 / 65536 := by unfold res; norm_num
  have hroot : rootErr 16 1 = 1 / 65536 + 1 / 65536 / ((1 - 1 / 65536) * 1) := by unfold rootErr; rw [Real.sqrt_one, hres]
  rw [hres] at h2
  have hinv : inverseErr 16 1 (varianceErr H) ≤ 26 / 65536 := by
    unfold inverseErr
    rw [hroot, Real.sqrt_one, hres]
    norm_num
    norm_num at h2
    linarith
  have hc : |(valM P * (valM H)ᵀ) i 0| ≤ 100 := (abs_mul_le P Hᵀ i 0).trans (h1.right i)
  unfold gainErr
  rw [hres]
  have a1 : |(valM P * (valM H)ᵀ) i 0| + n * (1 / 65536) ≤ 101 := by linarith
  have := mul_le_mul_of_nonneg_left hinv
    (show 0 ≤ |(valM P * (valM H)ᵀ) i 0| + (n : ℝ) * (1 / 65536) by positivity)
  have := mul_le_mul_of_nonneg_right a1 (show (0 : ℝ) ≤ 26 / 65536 by norm_num)
  linarith

/-- C107, for `I16F16`: … nor overflow. -/
theorem C107_I16F16_no_overflow (bld : Build) {f : RegularKalman n (Watched 16)} {o : RegularObservation n 1 (Watched 16)}
    {x : Fin n → I16F16} {A P Q : Matrix (Fin n) (Fin n) I16F16} {H : Matrix (Fin 1) (Fin n) I16F16}
    {z : Fin 1 → I16F16} {R : Matrix (Fin 1) (Fin 1) I16F16} (hn : 0 < n)
    (hf : f.Reps (fun i => .fresh (x i)) (A.map .fresh) (P.map .fresh) (Q.map .fresh))
    (ho : o.Reps (H.map .fresh) (fun i => .fresh (z i)) (R.map .fresh)) (h : Moderate x P H z R) :
    ∃ f' o' K x' P', f.correct bld o = .ok (f', o') ∧ o'.K.Reps K ∧ f'.x.RepsV x' ∧ f'.P.Reps P' ∧
      (∀ i, (K i 0).clean = true) ∧ (∀ i, (x' i).clean = true) ∧ ∀ i j, (P' i j).clean = true :=
  C107_no_overflow (by norm_num) bld hn hf ho h.inRange.1

/-! ## Non-vacuity -/

/-- Measures the position, with variance 3; the measurement is 5. -/
def Ex.fixedObservation : RegularObservation 2 1 I16F16 where
  H := ⟨[⟨65536⟩, ⟨0⟩]⟩
  z := ⟨[⟨327680⟩]⟩
  R := ⟨[⟨196608⟩]⟩
  y := ⟨[⟨0⟩]⟩
  S := ⟨[⟨0⟩]⟩
  K := ⟨[⟨0⟩, ⟨0⟩]⟩
  tempSInv := ⟨[⟨0⟩]⟩
  tempHP := ⟨[⟨0⟩, ⟨0⟩]⟩
  tempPHt := ⟨[⟨0⟩, ⟨0⟩]⟩
  tempKHP := ⟨[⟨0⟩, ⟨0⟩, ⟨0⟩, ⟨0⟩]⟩

/-- The hypotheses can be met. -/
example : ∃ x A P Q H z R, Ex.fixedKalman.Reps x A P Q ∧ Ex.fixedObservation.Reps H z R ∧ Moderate x P H z R ∧
    CorrectInRange x P H z R 100 300 1 := by
  have bound : ∀ (z : I16F16) (t : ℝ), z.bits.toInt ≤ t * 65536 → -(t * 65536) ≤ z.bits.toInt → |z.val| ≤ t := by
    intro z t h1 h2
    unfold val
    rw [abs_div, abs_of_pos (show (0 : ℝ) < 2 ^ 16 by norm_num), div_le_iff₀ (by norm_num), abs_le]
    constructor <;> linarith
  have i1 : (65536 : BitVec (2 * 16)).toInt = 65536 := by decide
  have i2 : (0 : BitVec (2 * 16)).toInt = 0 := by decide
  have i3 : (327680 : BitVec (2 * 16)).toInt = 327680 := by decide
  have i5 : (196608 : BitVec (2 * 16)).toInt = 196608 := by decide
  have hm : Moderate (n := 2) ![⟨196608⟩, ⟨65536⟩] !![⟨65536⟩, ⟨0⟩; ⟨0⟩, ⟨65536⟩] !![⟨65536⟩, ⟨0⟩] ![⟨327680⟩] !![⟨196608⟩] := by
    refine ⟨by norm_num, ?_, fun j => ?_, fun i j => ?_, fun i => ?_, ?_, ?_⟩
    · have : valM (!![⟨65536⟩, ⟨0⟩; ⟨0⟩, ⟨65536⟩] : Matrix (Fin 2) (Fin 2) I16F16) = 1 := by
        ext i j
        fin_cases i <;> fin_cases j <;> simp [valM, val, i1, i2]
        all_goals norm_num
      rw [this]
      exact Matrix.PosSemidef.one
    · fin_cases j <;> apply bound <;> simp [i1, i2]
    · fin_cases i <;> fin_cases j <;> apply bound <;> simp [i1, i2]
      all_goals norm_num
    · fin_cases i <;> apply bound <;> simp [i1, i5]
      all_goals norm_num
    · apply bound <;> simp [i3]
      all_goals norm_num
    · have : (!![⟨196608⟩] 0 0 : I16F16).val = 3 := by
        show ((196608 : BitVec (2 * 16)).toInt : ℝ) / 2 ^ 16 = 3
        rw [i5]; norm_num
      rw [this]
      constructor <;> norm_num
  refine ⟨_, !![⟨65536⟩, ⟨21845⟩; ⟨0⟩, ⟨65536⟩], _, !![⟨6554⟩, ⟨0⟩; ⟨0⟩, ⟨6554⟩], _, _, _, ⟨?_, ?_, ?_, ?_, by decide, by decide⟩,
    ⟨?_, ?_, ?_, by decide, by decide, by decide, by decide, by decide, by decide, by decide⟩, hm, hm.inRange.1⟩
  · intro i; fin_cases i <;> rfl
  · intro i j; fin_cases i <;> fin_cases j <;> rfl
  · intro i j; fin_cases i <;> fin_cases j <;> rfl
  · intro i j; fin_cases i <;> fin_cases j <;> rfl
  · intro i j; fin_cases i; fin_cases j <;> rfl
  · intro i; fin_cases i; rfl
  · intro i j; fin_cases i; fin_cases j; rfl

/-- What happens in that case: the gain is 1/4, the state moves from (3, 1) to (7/2, 1). -/
example :
    (Ex.fixedKalman.correct ⟨false, false⟩ Ex.fixedObservation).map (fun r => (r.1.x.data, r.2.K.data)) =
      .ok ([⟨229376⟩, ⟨65536⟩], [⟨16384⟩, ⟨0⟩]) := by decide +kernel

/-- Without the bounds the claim is false: with `P = 2^-16 I` and an exact measurement (`R = 0`) the gain is 1, but the inverse 65536 of the
innovation variance wraps around to 0, so the computed gain is 0 and the measurement has no effect. -/
example :
    (({ Ex.fixedKalman with P := ⟨[⟨1⟩, ⟨0⟩, ⟨0⟩, ⟨1⟩]⟩ } : RegularKalman 2 I16F16).correct ⟨false, false⟩
      { Ex.fixedObservation with R := ⟨[⟨0⟩]⟩ }).map (fun r => (r.1.x.data, r.2.K.data)) =
      .ok ([⟨196608⟩, ⟨65536⟩], [⟨0⟩, ⟨0⟩]) := by decide +kernel

end Minikalman
