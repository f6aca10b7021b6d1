import Verif.Proofs.FixedRange
import Verif.Proofs.ParametricBuild
import Verif.Props.Parametric
import Verif.Props.Rounding
import Verif.Props.RoundingCorrect

/-!
# Property C87: fixed point filters

`FixedPoint f` are two's complement numbers of `2 f` bits with `f` fractional bits: `I16F16` is `FixedPoint 16`, `I32F32` is
`FixedPoint 32`. Overflows wrap around silently in release builds.
-/

set_option linter.unusedSectionVars false
set_option linter.unusedSimpArgs false

namespace Minikalman

open Matrix FixedPoint

variable {b n l m : Nat}

/-! ## The scalar operations -/

/-- C87: sums and differences are exact if they fit. -/
theorem C87_add_exact (hb : 1 ≤ b) (x y : FixedPoint b) (h : |x.val + y.val| < lim b) : (x + y).val = x.val + y.val :=
  val_add_of_lt hb h

/-- C87: products that fit are rounded down to a multiple of the resolution. -/
theorem C87_mul_rounds_down (hb : 1 ≤ b) (x y : FixedPoint b) (h : |x.val * y.val| < lim b) :
    (x * y).val ≤ x.val * y.val ∧ x.val * y.val - res b < (x * y).val := val_mul (inRange_mul hb h)

/-- C87: roots always fit and are rounded down. -/
theorem C87_sqrt_rounds_down (hb : 1 ≤ b) {x q : FixedPoint b} (h : MDT.squareRoot x = .ok q) :
    0 ≤ x.val ∧ q.val ≤ √x.val ∧ √x.val < q.val + res b := sqrt_err hb h

/-- C87: the root exists exactly for the numbers that are not negative, the reciprocal for the numbers that are not zero. -/
theorem C87_panics_iff (x : FixedPoint b) :
    ((∃ q, MDT.squareRoot x = .ok q) ↔ 0 ≤ x.val) ∧ ((∃ d, MDT.recip x = .ok d) ↔ x.val ≠ 0) := by
  have hp : (0 : ℝ) < 2 ^ b := by positivity
  constructor
  · have e : 0 ≤ x.val ↔ ¬ x.bits.toInt < 0 := by
      unfold val
      rw [not_lt, div_nonneg_iff]
      constructor
      · rintro (h | h)
        · exact_mod_cast h.1
        · exact absurd h.2 (not_le.2 hp)
      · intro h; exact Or.inl ⟨by exact_mod_cast h, hp.le⟩
    rw [e]
    simp only [MDT.squareRoot]
    split
    · rename_i h; simp [h]
    · rename_i h; simp [h]
  · have e : x.val ≠ 0 ↔ ¬ x.bits.toInt = 0 := by
      unfold val
      rw [not_iff_not, div_eq_zero_iff, or_iff_left hp.ne']
      exact_mod_cast Iff.rfl
    rw [e]
    simp only [MDT.recip]
    split
    · rename_i h; simp [h]
    · rename_i h; simp [h]

/-- C87: reciprocals that fit are within the resolution. -/
theorem C87_recip_error (hb : 2 ≤ b) {x d : FixedPoint b} (h : MDT.recip x = .ok d) (hx : 1 < |x.val| * lim b) :
    |d.val - (x.val)⁻¹| ≤ res b := by
  refine (recip_err h ?_).2
  obtain ⟨h0, _⟩ := recip_ok h
  have hp : (0 : ℝ) < 2 ^ b := by positivity
  have h0' : (x.bits.toInt : ℝ) ≠ 0 := by exact_mod_cast h0
  have ha : 0 < |(x.bits.toInt : ℝ)| := abs_pos.2 h0'
  have hpow : (2 : Int) ^ (2 * b) = 2 * 2 ^ (2 * b - 1) := by rw [← pow_succ', show 2 * b - 1 + 1 = 2 * b by omega]
  have hsq : (2 : ℝ) ^ (2 * b) = 2 ^ b * 2 ^ b := by rw [two_mul, pow_add]
  have h2 : 2 < |x.bits.toInt| := by
    unfold val lim at hx
    rw [abs_div, abs_of_pos hp, div_mul_div_comm, mul_comm (2 ^ b : ℝ) 2, mul_div_mul_right _ _ hp.ne'] at hx
    have : (2 : ℝ) < |(x.bits.toInt : ℝ)| := by linarith
    exact_mod_cast this
  have hn : (Int.tdiv (2 ^ (2 * b)) x.bits.toInt).natAbs = 2 ^ (2 * b) / x.bits.toInt.natAbs := by
    rw [Int.natAbs_tdiv]
    congr 1
  have h3 : 2 * (2 ^ (2 * b) / x.bits.toInt.natAbs) < 2 ^ (2 * b) := by
    have hk : 3 ≤ x.bits.toInt.natAbs := by
      rw [Int.abs_eq_natAbs] at h2; omega
    have hle : 2 ^ (2 * b) / x.bits.toInt.natAbs ≤ 2 ^ (2 * b) / 3 := Nat.div_le_div_left hk (by norm_num)
    have : 0 < 2 ^ (2 * b) := by positivity
    omega
  have h3' : 2 * |Int.tdiv (2 ^ (2 * b)) x.bits.toInt| < 2 ^ (2 * b) := by
    rw [Int.abs_eq_natAbs, hn]; exact_mod_cast h3
  unfold InRange
  have := abs_lt.1 (show |Int.tdiv (2 ^ (2 * b)) x.bits.toInt| < 2 ^ (2 * b) - |Int.tdiv (2 ^ (2 * b)) x.bits.toInt| by linarith)
  have q1 := neg_abs_le (Int.tdiv (2 ^ (2 * b)) x.bits.toInt)
  have q2 := le_abs_self (Int.tdiv (2 ^ (2 * b)) x.bits.toInt)
  constructor <;> linarith

/-! ## The steps -/

/-- C87: `predict` with entries small enough that no product can overflow: nothing wraps around, the state is `A x` up to
`n` units of the resolution, the covariance is `A P Aᵀ + Q` up to `n (1 + ∑ |A|)` units. -/
theorem C87_predict_in_range (hb : 2 ≤ b) {f : RegularKalman n (FixedPoint b)} {x A P Q} (hn : 0 < n) (hf : f.Reps x A P Q)
    (hx : ∀ i, (absM A *ᵥ absV x) i + n * res b < lim b)
    (hAP : ∀ i j, (absM A * absM P) i j + n * res b < lim b)
    (hP : ∀ i j, sandwichBound A P A i j + absM Q i j < lim b) :
    ∃ f' x' P', f.predict = .ok f' ∧ f'.Reps x' A P' Q ∧
      (∀ i, |(x' i).val - (valM A *ᵥ valV x) i| ≤ n * res b) ∧
      ∀ i j, |(P' i j).val - (valM A * valM P * (valM A)ᵀ + valM Q) i j| ≤ n * res b * (1 + ∑ k, absM A j k) := by
  obtain ⟨f', h1, h2, h3, h4⟩ := predict_any hn
    ⟨hf.x.valid, hf.A.valid, hf.P.valid, hf.Q.valid, hf.predictedX, hf.tempP⟩ hf.x hf.A hf.P hf.Q
  refine ⟨f', _, _, h1, ⟨h2, h4.A ▸ hf.A, h3, h4.Q ▸ hf.Q, h4.predictedX.valid hf.predictedX, h4.tempP.valid hf.tempP⟩,
    fun i => mulVec_fixed hb (hx i), fun i j => ?_⟩
  have hQ0 : 0 ≤ absM Q i j := abs_nonneg _
  obtain ⟨e1, e2⟩ := sandwich_fixed (A := A) (P := P) (B := A) hb (hAP i) (by linarith [hP i j])
  have e3 : ((Spec.mulSeq (Spec.mulSeq A P) Aᵀ + Q) i j).val = (Spec.mulSeq (Spec.mulSeq A P) Aᵀ i j).val + (Q i j).val :=
    val_add_of_lt (by omega) ((abs_add_le _ _).trans_lt (lt_of_le_of_lt (add_le_add_left e2 _) (hP i j)))
  rw [e3]
  have e4 : (valM A * valM P * (valM A)ᵀ + valM Q) i j = (valM A * valM P * (valM A)ᵀ) i j + (Q i j).val := rfl
  rw [e4, add_sub_add_right_eq_sub]
  refine e1.trans (le_of_eq ?_)
  ring

/-- C87: the same with one bound for each matrix. For example for `I16F16` (`lim = 32768`) and three states, entries of `A` up to
2, of `x` up to 1000, of `P` and `Q` up to 800 are safe. -/
theorem C87_predict_in_bounds (hb : 2 ≤ b) {f : RegularKalman n (FixedPoint b)} {x A P Q} (hn : 0 < n) (hf : f.Reps x A P Q)
    {a c p q : ℝ} (hA : ∀ i j, |(A i j).val| ≤ a) (hx : ∀ i, |(x i).val| ≤ c) (hP : ∀ i j, |(P i j).val| ≤ p)
    (hQ : ∀ i j, |(Q i j).val| ≤ q) (h1 : n * (a * c) + n * res b < lim b) (h2 : n * (a * p) + n * res b < lim b)
    (h3 : n * ((n * (a * p) + n * res b) * a) + n * res b + q < lim b) :
    ∃ f' x' P', f.predict = .ok f' ∧ f'.Reps x' A P' Q ∧
      (∀ i, |(x' i).val - (valM A *ᵥ valV x) i| ≤ n * res b) ∧
      ∀ i j, |(P' i j).val - (valM A * valM P * (valM A)ᵀ + valM Q) i j| ≤ n * res b * (1 + n * a) := by
  have ha : 0 ≤ a := (abs_nonneg _).trans (hA ⟨0, hn⟩ ⟨0, hn⟩)
  have hp : 0 ≤ p := (abs_nonneg _).trans (hP ⟨0, hn⟩ ⟨0, hn⟩)
  have hr : 0 < res b := res_pos
  have sum_le : ∀ (g : Fin n → ℝ) (t : ℝ), (∀ k, g k ≤ t) → ∑ k, g k ≤ n * t := by
    intro g t h
    refine (Finset.sum_le_sum fun k _ => h k).trans (le_of_eq ?_)
    rw [Finset.sum_const, Finset.card_univ, Fintype.card_fin, nsmul_eq_mul]
  have k2 : ∀ i j, (absM A * absM P) i j ≤ n * (a * p) := fun i j => by
    rw [Matrix.mul_apply]
    exact sum_le _ _ fun k => mul_le_mul (hA i k) (hP k j) (abs_nonneg _) ha
  have k3 : ∀ i j, sandwichBound A P A i j ≤ n * ((n * (a * p) + n * res b) * a) + n * res b := fun i j => by
    unfold sandwichBound
    have h0 : 0 ≤ n * (a * p) + n * res b := by positivity
    have := sum_le (fun k => ((absM A * absM P) i k + n * res b) * absM A j k) ((n * (a * p) + n * res b) * a) fun k =>
      mul_le_mul (by linarith [k2 i k]) (hA j k) (abs_nonneg _) h0
    linarith
  obtain ⟨f', x', P', g1, g2, g3, g4⟩ := C87_predict_in_range hb hn hf
    (fun i => by
      have : (absM A *ᵥ absV x) i ≤ n * (a * c) := sum_le _ _ fun k => mul_le_mul (hA i k) (hx k) (abs_nonneg _) ha
      linarith)
    (fun i j => by linarith [k2 i j])
    (fun i j => by
      have : absM Q i j ≤ q := hQ i j
      linarith [k3 i j])
  refine ⟨f', x', P', g1, g2, g3, fun i j => (g4 i j).trans ?_⟩
  refine mul_le_mul_of_nonneg_left ?_ (by positivity)
  have := sum_le (fun k => absM A j k) a fun k => hA j k
  linarith

/-- C87: `control` with entries small enough. -/
theorem C87_control_in_range (hb : 2 ≤ b) {f : RegularKalman n (FixedPoint b)} {c : Control n l (FixedPoint b)}
    {x A P Q B v Qc} (hn : 0 < n) (hl : 0 < l) (hf : f.Reps x A P Q) (hc : c.Reps B v Qc)
    (hx : ∀ i, |(x i).val| + (absM B *ᵥ absV v) i + l * res b < lim b)
    (hBQ : ∀ i j, (absM B * absM Qc) i j + l * res b < lim b)
    (hP : ∀ i j, absM P i j + sandwichBound B Qc B i j < lim b) :
    ∃ f' c' x' P', f.control c = .ok (f', c') ∧ f'.Reps x' A P' Q ∧
      (∀ i, |(x' i).val - ((x i).val + (valM B *ᵥ valV v) i)| ≤ l * res b) ∧
      ∀ i j, |(P' i j).val - (valM P + valM B * valM Qc * (valM B)ᵀ) i j| ≤ l * res b * (1 + ∑ k, absM B j k) := by
  obtain ⟨c', x', P', h1, h2, h3, h4, h5, h6⟩ := control_any hn hl
    ⟨hc.B.valid, hc.u.valid, hc.Q.valid, hc.tempBQ⟩ hc.B hc.u hc.Q hf.x hf.P
  refine ⟨{ f with x := x', P := P' }, c', _, _, ?_, ⟨h2, hf.A, h3, hf.Q, hf.predictedX, hf.tempP⟩, fun i => ?_,
    fun i j => ?_⟩
  · unfold RegularKalman.control
    rw [h1]; rfl
  · have hx0 : 0 ≤ |(x i).val| := abs_nonneg _
    have e1 := mulVec_fixed (A := B) (x := v) hb (i := i) (by linarith [hx i])
    have e2 := abs_le_of_err e1 (abs_mulVec_le B v i)
    have e3 : ((x + Spec.mulVecSeq B v) i).val = (x i).val + (Spec.mulVecSeq B v i).val :=
      val_add_of_lt (by omega) ((abs_add_le _ _).trans_lt (by linarith [hx i]))
    rw [e3, add_sub_add_left_eq_sub]
    exact e1
  · have hP0 : 0 ≤ absM P i j := abs_nonneg _
    obtain ⟨e1, e2⟩ := sandwich_fixed (A := B) (P := Qc) (B := B) hb (hBQ i) (by linarith [hP i j])
    have e3 : ((P + Spec.mulSeq (Spec.mulSeq B Qc) Bᵀ) i j).val = (P i j).val + (Spec.mulSeq (Spec.mulSeq B Qc) Bᵀ i j).val :=
      val_add_of_lt (by omega) ((abs_add_le _ _).trans_lt (lt_of_le_of_lt (add_le_add_right e2 _) (hP i j)))
    rw [e3]
    have e4 : (valM P + valM B * valM Qc * (valM B)ᵀ) i j = (P i j).val + (valM B * valM Qc * (valM B)ᵀ) i j := rfl
    rw [e4, add_sub_add_left_eq_sub]
    refine e1.trans (le_of_eq ?_)
    ring

/-! ## Watching for overflow -/

/-- C87: watching the numbers for overflow does not change any history: the same results, the same panics. -/
theorem C87_watching_changes_nothing (bld : Build) (w : World n (FixedPoint b)) (ops : List (Op (FixedPoint b))) :
    ((w.mapCells Watched.fresh).run bld (ops.map (Op.mapCells Watched.fresh))).map (World.mapCells Watched.num) =
      w.run bld ops := by
  rw [← C86_homomorphism Watched.scalarRel, Param.world_map_map, List.map_map]
  have e1 : (Watched.num ∘ Watched.fresh : FixedPoint b → FixedPoint b) = id := rfl
  have e2 : (Op.mapCells Watched.num ∘ Op.mapCells Watched.fresh : Op (FixedPoint b) → Op (FixedPoint b)) = id := by
    funext op
    simp only [Function.comp_apply, Param.op_map_map, e1, Param.op_map_id, id]
  rw [e1, e2, Param.world_map_id, List.map_id]

/-- C87: watched numbers are an arithmetic with exact sums and an error of at most the resolution in products, roots and
reciprocals, as long as they are clean. So all rounding theorems (C59, C60, C74) apply to fixed point filters. -/
theorem C87_watched_is_rounded (hb : 2 ≤ b) : ∃ ra : RoundedInverse (Watched b), ra.u = 0 ∧ ra.η = res b ∧
    (∀ a, ra.fin a ↔ a.clean = true) ∧ ∀ a, ra.val a = a.num.val :=
  ⟨Watched.rounded hb, rfl, rfl, fun _ => Iff.rfl, fun _ => rfl⟩

/-! ## Non-vacuity -/

/-- Position, velocity; `A = [[1, 1/3], [0, 1]]` where `1/3` is rounded; `P = I`, `Q = 1/10 I` rounded. -/
def Ex.fixedKalman : RegularKalman 2 I16F16 where
  x := ⟨[⟨196608⟩, ⟨65536⟩]⟩
  A := ⟨[⟨65536⟩, ⟨21845⟩, ⟨0⟩, ⟨65536⟩]⟩
  P := ⟨[⟨65536⟩, ⟨0⟩, ⟨0⟩, ⟨65536⟩]⟩
  Q := ⟨[⟨6554⟩, ⟨0⟩, ⟨0⟩, ⟨6554⟩]⟩
  predictedX := ⟨[⟨0⟩, ⟨0⟩]⟩
  tempP := ⟨[⟨0⟩, ⟨0⟩, ⟨0⟩, ⟨0⟩]⟩

/-- The hypotheses of `C87_predict_in_bounds` can be met. -/
example : ∃ x A P Q, Ex.fixedKalman.Reps x A P Q ∧ (∀ i j, |(A i j).val| ≤ 1) ∧ (∀ i, |(x i).val| ≤ 3) ∧
    (∀ i j, |(P i j).val| ≤ 1) ∧ (∀ i j, |(Q i j).val| ≤ 1) ∧ ((2 : Nat) : ℝ) * (1 * 3) + (2 : Nat) * res 16 < lim 16 ∧
    ((2 : Nat) : ℝ) * (1 * 1) + (2 : Nat) * res 16 < lim 16 ∧
    ((2 : Nat) : ℝ) * (((2 : Nat) * (1 * 1) + (2 : Nat) * res 16) * 1) + (2 : Nat) * res 16 + 1 < lim 16 := by
  have bound : ∀ (z : I16F16) (t : ℝ), z.bits.toInt ≤ t * 65536 → -(t * 65536) ≤ z.bits.toInt → |z.val| ≤ t := by
    intro z t h1 h2
    unfold val
    rw [abs_div, abs_of_pos (show (0 : ℝ) < 2 ^ 16 by norm_num), div_le_iff₀ (by norm_num), abs_le]
    constructor <;> linarith
  have i1 : (65536 : BitVec (2 * 16)).toInt = 65536 := by decide
  have i2 : (0 : BitVec (2 * 16)).toInt = 0 := by decide
  have i3 : (21845 : BitVec (2 * 16)).toInt = 21845 := by decide
  have i4 : (6554 : BitVec (2 * 16)).toInt = 6554 := by decide
  have i5 : (196608 : BitVec (2 * 16)).toInt = 196608 := by decide
  refine ⟨![⟨196608⟩, ⟨65536⟩], !![⟨65536⟩, ⟨21845⟩; ⟨0⟩, ⟨65536⟩], !![⟨65536⟩, ⟨0⟩; ⟨0⟩, ⟨65536⟩], !![⟨6554⟩, ⟨0⟩; ⟨0⟩, ⟨6554⟩],
    ⟨?_, ?_, ?_, ?_, by decide, by decide⟩, ?_, ?_, ?_, ?_, ?_, ?_, ?_⟩
  · intro i; fin_cases i <;> rfl
  · intro i j; fin_cases i <;> fin_cases j <;> rfl
  · intro i j; fin_cases i <;> fin_cases j <;> rfl
  · intro i j; fin_cases i <;> fin_cases j <;> rfl
  · intro i j; fin_cases i <;> fin_cases j <;> apply bound <;> simp [i1, i2, i3]
    all_goals norm_num
  · intro i; fin_cases i <;> apply bound <;> simp [i1, i5]
    all_goals norm_num
  · intro i j; fin_cases i <;> fin_cases j <;> apply bound <;> simp [i1, i2]
  · intro i j; fin_cases i <;> fin_cases j <;> apply bound <;> simp [i2, i4]
    all_goals norm_num
  all_goals (unfold res lim; norm_num)

/-- Without the bounds the claim is false: `200 * 200` wraps around to `-25536`. -/
example : (⟨13107200⟩ * ⟨13107200⟩ : I16F16) = ⟨BitVec.ofInt 32 (-25536 * 65536)⟩ ∧
    ((.fresh ⟨13107200⟩ : Watched 16) * .fresh ⟨13107200⟩).clean = false := by decide

end Minikalman
