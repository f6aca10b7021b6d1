import Verif.Proofs.Float
import Verif.Proofs.FloatNil
import Verif.Proofs.Poison
import Verif.Props.Rounding
import Verif.Props.RoundingCorrect
import Verif.Props.Builder

/-!
# Properties C77, C78: floating point numbers

`Bin fmt` (`Model/Float`) are the binary floating point numbers of a format, `F32` and `F64` those of the language. C77: the
operations round correctly (`Spec/Float`), so that the rounding error bounds C59, C60 and C74 hold for them with the unit
roundoff of the format, and no call panics, whatever the numbers are. C78: numbers that are not finite do not disappear.
-/

namespace Minikalman

open Matrix

variable {fmt : Format} {T : Type} {n m l : Nat}

/-! ## C77 -/

/-- C77: sums, differences, products, reciprocals and square roots of finite numbers are the exact results, rounded to nearest,
ties to even, and beyond the range of the format an infinity of the right sign. -/
theorem C77_correctly_rounded (a b : Bin fmt) (ha : a.Finite) (hb : b.Finite) :
    RoundsTo (a.val + b.val) (a + b) ∧ RoundsTo (a.val - b.val) (a - b) ∧ RoundsTo (a.val * b.val) (a * b) ∧
    (-a).Finite ∧ (-a).val = -a.val ∧
    (a.val ≠ 0 → ∃ d, MDT.recip a = .ok d ∧ RoundsTo (a.val)⁻¹ d) ∧
    (0 ≤ a.val → ∃ q, MDT.squareRoot a = .ok q ∧ RoundsTo √a.val q) ∧
    (MDT.le a b = true ↔ a.val ≤ b.val) :=
  ⟨Bin.add_rounds ha hb, Bin.sub_rounds ha hb, Bin.mul_rounds ha hb, Bin.neg_finite.2 ha, Bin.neg_val a,
    fun h => ⟨_, rfl, Bin.recip_rounds ha h⟩, fun h => ⟨_, rfl, Bin.sqrt_rounds ha h⟩, Bin.le_iff ha hb⟩

/-- C77: the exceptional cases: one over zero is an infinity, one over an infinity is zero, the root of a negative number is
NaN, and no comparison with NaN holds. -/
theorem C77_exceptional (a : Bin fmt) :
    (a.Finite → a.val = 0 → ∃ s, MDT.recip a = .ok (.inf s)) ∧
    (∀ s, ∃ d : Bin fmt, MDT.recip (Bin.inf s : Bin fmt) = .ok d ∧ d.Finite ∧ d.val = 0) ∧
    (a.Finite → a.val < 0 → MDT.squareRoot a = .ok .nan) ∧ MDT.squareRoot (.inf true : Bin fmt) = .ok .nan ∧
    MDT.squareRoot (.inf false : Bin fmt) = .ok (.inf false) ∧
    MDT.le (.nan : Bin fmt) a = false ∧ MDT.le a .nan = false := by
  refine ⟨fun h h0 => ?_, fun s => ⟨.fin s 0 fmt.rep_zero, rfl, trivial, ?_⟩, fun h h0 => ?_, rfl, rfl, rfl, ?_⟩
  · obtain ⟨s, e⟩ := Bin.recip_zero h h0
    exact ⟨s, congrArg Except.ok e⟩
  · rw [Bin.val_fin]; cases s <;> simp [Bin.sgn]
  · exact congrArg Except.ok (Bin.sqrt_neg h h0)
  · cases a <;> rfl

/-- C77: NaN and infinities as operands: NaN spreads, sums and products of infinities follow the rules of signs, and opposite
infinities or zero times infinity give NaN. -/
theorem C77_not_finite (a b : Bin fmt) :
    Bin.nan + a = .nan ∧ a + .nan = .nan ∧ .nan - a = .nan ∧ a - .nan = .nan ∧ .nan * a = .nan ∧ a * .nan = .nan ∧
    -(Bin.nan : Bin fmt) = .nan ∧ MDT.recip (Bin.nan : Bin fmt) = .ok .nan ∧ MDT.squareRoot (Bin.nan : Bin fmt) = .ok .nan ∧
    (∀ s, a.Finite → .inf s + a = .inf s ∧ a + .inf s = .inf s ∧ .inf s - a = .inf s ∧ a - .inf s = .inf !s) ∧
    (∀ s : Bool, (.inf s + .inf s : Bin fmt) = .inf s ∧ (.inf s - .inf (!s) : Bin fmt) = .inf s ∧
      (.inf s + .inf (!s) : Bin fmt) = .nan ∧ (.inf s - .inf s : Bin fmt) = .nan ∧ -(.inf s : Bin fmt) = .inf !s) ∧
    (a = .inf true ∨ a = .inf false → b ≠ .nan → (b.Finite → b.val ≠ 0) →
      ∃ s, a * b = .inf s ∧ b * a = .inf s ∧ (s = true ↔ ¬ (a.Negative ↔ b.Negative))) ∧
    (a = .inf true ∨ a = .inf false → b.Finite → b.val = 0 → a * b = .nan ∧ b * a = .nan) ∧
    (MDT.le (.inf true) a = true ↔ a ≠ .nan) ∧ (MDT.le a (.inf false) = true ↔ a ≠ .nan) ∧
    (MDT.le (.inf false) a = true ↔ a = .inf false) ∧ (MDT.le a (.inf true) = true ↔ a = .inf true) := by
  have hz : ∀ (s : Bool) (k : Nat) (h : fmt.Rep k), (Bin.fin s k h).val = 0 ↔ k = 0 := by
    intro s k h
    rw [Bin.val_fin]
    cases s <;> simp [Bin.sgn]
  refine ⟨?_, ?_, ?_, ?_, ?_, ?_, rfl, rfl, rfl, ?_, ?_, ?_, ?_, ?_, ?_, ?_, ?_⟩
  · cases a <;> rfl
  · cases a <;> rfl
  · cases a <;> rfl
  · cases a <;> rfl
  · cases a <;> rfl
  · cases a <;> rfl
  · intro s h
    cases a with
    | nan => cases h
    | inf _ => cases h
    | fin _ _ _ => exact ⟨rfl, rfl, rfl, rfl⟩
  · intro s
    cases s <;> exact ⟨rfl, rfl, rfl, rfl, rfl⟩
  · intro ha hb h0
    obtain ⟨s, rfl⟩ : ∃ s, a = .inf s := by rcases ha with h | h <;> exact ⟨_, h⟩
    cases b with
    | nan => exact absurd rfl hb
    | inf t => exact ⟨s != t, rfl, by cases s <;> cases t <;> rfl, by cases s <;> cases t <;> simp [Bin.Negative]⟩
    | fin t k h =>
      have hk : k ≠ 0 := fun e => h0 trivial ((hz t k h).2 e)
      refine ⟨s != t, if_neg hk, (if_neg hk).trans ?_, by cases s <;> cases t <;> simp [Bin.Negative]⟩
      cases s <;> cases t <;> rfl
  · intro ha hb h0
    obtain ⟨s, rfl⟩ : ∃ s, a = .inf s := by rcases ha with h | h <;> exact ⟨_, h⟩
    cases b with
    | nan => cases hb
    | inf t => cases hb
    | fin t k h => exact ⟨if_pos ((hz t k h).1 h0), if_pos ((hz t k h).1 h0)⟩
  · cases a <;> simp [MDT.le, Bin.le]
  · cases a <;> simp [MDT.le, Bin.le]
  · cases a <;> simp [MDT.le, Bin.le]
  · cases a <;> simp [MDT.le, Bin.le]

/-- C77: signs, which matter for zeros because `1 / -0` is minus infinity: negation flips the sign, products and reciprocals
follow the rule of signs even if they underflow, a sum that is exactly zero is negative only if both numbers are. -/
theorem C77_signs (a b : Bin fmt) (ha : a.Finite) (hb : b.Finite) :
    ((-a).Negative ↔ ¬ a.Negative) ∧ ((a * b).Negative ↔ ¬ (a.Negative ↔ b.Negative)) ∧
    (∃ d, MDT.recip a = .ok d ∧ (d.Negative ↔ a.Negative)) ∧
    (a.val + b.val = 0 → ((a + b).Negative ↔ a.Negative ∧ b.Negative)) ∧
    (a.val = 0 → MDT.squareRoot a = .ok a) ∧ (0 < a.val → ∃ q, MDT.squareRoot a = .ok q ∧ ¬ q.Negative) := by
  exact Bin.signs ha hb

/-- C77: floating point numbers are a rounded arithmetic in the sense of C59, C60 and C74: with `p` bits, the relative error is
`2^-p`; the absolute error of products, reciprocals and roots is half the smallest positive number. So all bounds of these
properties hold for them. -/
theorem C77_rounding_errors (fmt : Format) : ∃ ra : RoundedInverse (Bin fmt), (∀ a, ra.fin a ↔ a.Finite) ∧ ra.val = Bin.val ∧
    ra.u = 1 / 2 ^ fmt.prec ∧ ra.η = 1 / 2 ^ (fmt.frac + 1) :=
  ⟨Bin.roundedInverse fmt, fun _ => Iff.rfl, rfl, rfl, rfl⟩

/-- C77 for the state after `predict`, written out: for `f32`, `u = 2^-24` and `η = 2^-150`; for `f64`, `u = 2^-53` and
`η = 2^-1075`. -/
theorem C77_predict_state {f : RegularKalman n (Bin fmt)} {x A P Q} (hn : 0 < n) (hf : f.Reps x A P Q) {u η : ℝ}
    (hu : u = 1 / 2 ^ fmt.prec) (hη : η = 1 / 2 ^ (fmt.frac + 1)) :
    ∃ f' x', f.predict = .ok f' ∧ f'.x.RepsV x' ∧ ∀ i, (x' i).Finite →
      |(x' i).val - ∑ j, (A i j).val * (x j).val| ≤
        ((1 + u) ^ (n + 1) - 1) * ∑ j, |(A i j).val| * |(x j).val| + n * (1 + u) ^ n * η := by
  subst hu hη
  obtain ⟨f', x', P', h1, h2, h3, _⟩ := C59_predict_rounding (Bin.roundedInverse fmt).toRounded hn hf
  exact ⟨f', x', h1, h2.x, h3⟩

/-- C77 for the covariance after `predict`, written out. -/
theorem C77_predict_covariance {f : RegularKalman n (Bin fmt)} {x A P Q} (hn : 0 < n) (hf : f.Reps x A P Q) {u η : ℝ}
    (hu : u = 1 / 2 ^ fmt.prec) (hη : η = 1 / 2 ^ (fmt.frac + 1)) :
    ∃ f' P', f.predict = .ok f' ∧ f'.P.Reps P' ∧ ∀ i j, (P' i j).Finite →
      |(P' i j).val - (∑ l, (∑ k, (A i k).val * (P k l).val) * (A j l).val + (Q i j).val)| ≤
        ((1 + u) ^ (2 * n + 3) - 1) * (∑ l, (∑ k, |(A i k).val| * |(P k l).val|) * |(A j l).val|) + u * |(Q i j).val| +
          (1 + u) * ((1 + u) ^ (n + 1) * (n * (1 + u) ^ n * η) * ∑ k, |(A j k).val| + n * (1 + u) ^ n * η) := by
  subst hu hη
  obtain ⟨f', x', P', h1, h2, _, h3⟩ := C59_predict_rounding (Bin.roundedInverse fmt).toRounded hn hf
  exact ⟨f', P', h1, h2.P, h3⟩

instance : TotalScalar (Bin fmt) := ⟨fun _ => ⟨_, rfl⟩, fun _ => ⟨_, rfl⟩⟩

/-- C77: programs on floating point numbers never panic, whatever the numbers are: NaN, infinities, indefinite or singular
covariances. -/
theorem C77_never_panics (bld : Build) {w : World n (Bin fmt)} (hw : w.Valid) {ops : List (Op (Bin fmt))}
    (hops : ∀ op ∈ ops, op.WellFormed w) : ∃ w', w.run bld ops = .ok w' ∧ w'.Valid ∧ w.SameShape w' :=
  C40_history_never_panics bld hw hops

/-! ## C78 -/

section C78
variable [Zero T] [One T] [Add T] [Sub T] [Mul T] [Neg T] [MDT T]

/-- C78: a prediction spreads a number that is not finite to all entries: if one entry of the new state is finite then so
were the whole old state and the row of `A` it is computed from; if one entry of the new covariance is finite then so were the
whole old covariance, the entry of `Q` and the rows of `A`. -/
theorem C78_predict (ra : Rounded T) {f : RegularKalman n T} {x A P Q} (hn : 0 < n) (hf : f.Reps x A P Q) :
    ∃ f' x' P', f.predict = .ok f' ∧ f'.Reps x' A P' Q ∧
      (∀ i, ra.fin (x' i) → (∀ j, ra.fin (x j)) ∧ ∀ j, ra.fin (A i j)) ∧
      (∀ i j, ra.fin (P' i j) → (∀ k l, ra.fin (P k l)) ∧ ra.fin (Q i j) ∧ ∀ k, ra.fin (A i k) ∧ ra.fin (A j k)) :=
  predict_fin ra hn hf

/-- C78: likewise for a correction: if one entry of the new state is finite then so were the whole old state, the measurement,
the observation matrix and the row of the covariance. -/
theorem C78_correct (ra : Rounded T) (bld : Build) {f f' : RegularKalman n T} {o o' : RegularObservation n m T}
    {x A P Q H z R} (hn : 0 < n) (hm : 0 < m) (hf : f.Reps x A P Q) (ho : o.Reps H z R)
    (h : f.correct bld o = .ok (f', o')) :
    ∃ x' P', f'.x.RepsV x' ∧ f'.P.Reps P' ∧
      (∀ i, ra.fin (x' i) → (∀ j, ra.fin (x j)) ∧ (∀ j, ra.fin (z j)) ∧ (∀ j k, ra.fin (H j k)) ∧ ∀ k, ra.fin (P i k)) ∧
      (∀ i j, ra.fin (P' i j) → ra.fin (P i j) ∧ (∀ k k', ra.fin (H k k')) ∧ ∀ k, ra.fin (P i k) ∧ ra.fin (P k j)) :=
  correct_fin ra bld hn hm hf ho h

/-- C78: whole programs. If the state at the end is finite then everything was finite that has entered into it since it was
last assigned: at every call `op` after that, the state before the call and the data it used (for a correction: the covariance,
the observation matrix and the measurement). So looking at the state at the end is enough to detect all overflows and invalid
operations. -/
theorem C78_finite_state_history (ra : Rounded T) (bld : Build) {w w1 w' : World n T} (hw : w.Valid)
    {before after : List (Op T)} {op : Op T} (hops : ∀ o ∈ before ++ op :: after, o.WellFormed w)
    (h1 : w.run bld before = .ok w1) (h2 : w1.run bld (op :: after) = .ok w') (hk : ∀ o ∈ after, o.KeepsX)
    (hx : w'.kf.x.FiniteV ra) : w1.FiniteForState ra op :=
  (history_fin ra bld hw hops h1 h2).1 hk hx

/-- C78: the same for the covariance. -/
theorem C78_finite_covariance_history (ra : Rounded T) (bld : Build) {w w1 w' : World n T} (hw : w.Valid)
    {before after : List (Op T)} {op : Op T} (hops : ∀ o ∈ before ++ op :: after, o.WellFormed w)
    (h1 : w.run bld before = .ok w1) (h2 : w1.run bld (op :: after) = .ok w') (hk : ∀ o ∈ after, o.KeepsP)
    (hP : w'.kf.P.Finite ra) : w1.FiniteForCovariance ra op :=
  (history_fin ra bld hw hops h1 h2).2 hk hP

end C78

/-- C78 for floating point numbers: a state without NaN and infinities at the end of a program shows that no NaN and no infinity
has entered into it since it was last assigned. -/
theorem C78_float_state_history (bld : Build) {w w1 w' : World n (Bin fmt)} (hw : w.Valid)
    {before after : List (Op (Bin fmt))} {op : Op (Bin fmt)} (hops : ∀ o ∈ before ++ op :: after, o.WellFormed w)
    (h1 : w.run bld before = .ok w1) (h2 : w1.run bld (op :: after) = .ok w') (hk : ∀ o ∈ after, o.KeepsX)
    {x' : Fin n → Bin fmt} (hx : w'.kf.x.RepsV x') (hfin : ∀ i, (x' i).Finite) (hop : op.KeepsX)
    {x : Fin n → Bin fmt} (hx1 : w1.kf.x.RepsV x) (i : Fin n) : (x i).Finite := by
  have h := C78_finite_state_history (Bin.roundedInverse fmt).toRounded bld hw hops h1 h2 hk ⟨x', hx, hfin⟩
  have h' : w1.kf.x.FiniteV (Bin.roundedInverse fmt).toRounded := by
    cases op with
    | setX v => cases hop
    | predict => exact h.1
    | predictTuned _ => exact h.1
    | control _ => exact h.1
    | correct _ => exact h.1
    | _ => exact h
  obtain ⟨v, hv, hf⟩ := h'
  have e : x i = v i := Option.some.inj ((hx1 i).symm.trans (hv i))
  rw [e]
  exact hf i

/-! ## C79 -/

/-- C79: infinite measurement noise switches a sensor off. If the noise matrix is diagonal with `+∞` on the diagonal and none of
the products `H x`, `H P`, `P Hᵀ`, `H P Hᵀ` overflows, then `correct` succeeds and the values of state and covariance stay the
same, whatever was measured. -/
theorem C79_infinite_noise (bld : Build) {f : RegularKalman n (Bin fmt)} {o : RegularObservation n m (Bin fmt)} {x A P Q H z R}
    (hn : 0 < n) (hm : 0 < m) (hf : f.Reps x A P Q) (ho : o.Reps H z R)
    (hx : ∀ i, (x i).Finite) (hP : ∀ i j, (P i j).Finite) (hRd : ∀ i, R i i = .inf false) (hRo : ∀ i j, i ≠ j → R i j = 0)
    (hy : ∀ i, ((z - Spec.mulVecSeq H x) i).Finite) (hHP : ∀ i j, (Spec.mulSeq H P i j).Finite)
    (hPH : ∀ i j, (Spec.mulSeq P Hᵀ i j).Finite) (hHPH : ∀ i j, (Spec.mulSeq (Spec.mulSeq H P) Hᵀ i j).Finite) :
    ∃ f' o' x' P', f.correct bld o = .ok (f', o') ∧ f'.x.RepsV x' ∧ f'.P.Reps P' ∧
      (∀ i, (x' i).Finite ∧ (x' i).val = (x i).val) ∧ ∀ i j, (P' i j).Finite ∧ (P' i j).val = (P i j).val := by
  have hs : ∃ r, f.correct bld o = .ok r := by
    unfold RegularKalman.correct
    rcases correct_safe bld hn hm ho.valid hf.valid.x hf.valid.P with ⟨e, _, h⟩ | ⟨⟨o1, x1, P1⟩, h, _⟩
    · exact absurd h (not_scalarPanic e)
    · exact ⟨_, by rw [h]; rfl⟩
  obtain ⟨⟨f', o'⟩, h⟩ := hs
  obtain ⟨x', P', h1, h2, h3, h4⟩ := correct_inf bld hn hm hf ho h hx hP hRd hRo hy hHP hPH hHPH
  exact ⟨f', o', x', P', h, h1, h2, h3, h4⟩

/-! ## Non-vacuity -/

namespace Ex

/-- The `f32` number nearest to `z / d`. -/
def f32 (z : Int) (d : Nat) : F32 := Bin.round (decide (z < 0)) (z.natAbs * 2 ^ 149) d

/-- `1/10` is not a number of the format, `sqrt 2` is rounded down, large products overflow, small ones underflow, `1 + 2^-25`
is a tie and rounded to even. -/
example : f32 1 10 = f32 13421773 134217728 ∧ (f32 2 1).sqrt = f32 11863283 8388608 ∧
    f32 (2 ^ 127) 1 * f32 2 1 = .inf false ∧ f32 (-2 ^ 127) 1 * f32 2 1 = .inf true ∧ f32 1 (2 ^ 149) * f32 1 2 = 0 ∧
    f32 1 (2 ^ 149) * f32 3 2 = f32 2 (2 ^ 149) ∧ f32 1 1 + f32 1 (2 ^ 24) = f32 1 1 ∧
    f32 (1 + 2 ^ 23) (2 ^ 23) + f32 1 (2 ^ 24) = f32 (2 + 2 ^ 23) (2 ^ 23) ∧
    (f32 0 1).recip = .inf false ∧ f32 1 1 - f32 1 1 = f32 0 1 ∧ (Bin.inf false : F32) - .inf false = .nan ∧
    (f32 3 1).recip = f32 11184811 33554432 ∧ (f32 (-1) 1).sqrt = .nan := by decide +kernel

/-- A filter on `f32` with one sensor. -/
def f32World (x : List F32) (P : List F32) (R : F32) : World 2 F32 :=
  ⟨⟨⟨x⟩, ⟨[f32 1 1, f32 1 10, f32 0 1, f32 1 1]⟩, ⟨P⟩, ⟨[f32 1 100, f32 0 1, f32 0 1, f32 1 100]⟩, ⟨[0, 0]⟩,
    ⟨[0, 0, 0, 0]⟩⟩, [],
    [⟨1, ⟨⟨[f32 1 1, f32 0 1]⟩, ⟨[f32 7 5]⟩, ⟨[R]⟩, ⟨[0]⟩, ⟨[0]⟩, ⟨[0, 0]⟩, ⟨[0]⟩, ⟨[0, 0]⟩, ⟨[0, 0]⟩, ⟨[0, 0, 0, 0]⟩⟩⟩]⟩

/-- Multiples of `2^-40`; nothing for NaN and infinities. -/
def f32Units : F32 → Option Rat
  | .fin neg k _ => some ((Bin.signed neg k : Rat) / 2 ^ 109)
  | _ => none

/-- State and covariance at the end. -/
def f32Outcome (r : Res (World 2 F32)) : Res (List (Option Rat) × List (Option Rat)) :=
  r.map fun w => (w.kf.x.data.map f32Units, w.kf.P.data.map f32Units)

/-- Two steps of a filter on `f32` end with finite numbers: the hypotheses of C78 are met. -/
example : f32Outcome ((f32World [0, 1] [1, 0, 0, 1] (f32 1 4)).run ⟨true, false⟩ [.predict, .correct 0, .predict, .correct 0]) =
    .ok ([some 1454973648896, some 1252509876224],
      [some 130127806464, some 69420777472, some 69420777472, some 1079550738432]) := by decide +kernel

/-- One NaN in the covariance makes the whole state and covariance NaN, and the decomposition reports success. -/
example : f32Outcome ((f32World [0, 1] [1, 0, 0, 1] (f32 1 4)).run ⟨true, false⟩ [.setP [1, 0, .nan, 1], .correct 0]) =
      .ok ([none, none], [none, none, none, none]) ∧
    (⟨[Bin.nan]⟩ : Mat 1 1 F32).choleskyDecomposeLower ⟨true, false⟩ = .ok (⟨[Bin.nan]⟩, true) := by decide +kernel

/-- The filter with two sensors in one observation, the noise infinite: nothing overflows, so C79 applies. -/
def f32Obs : RegularObservation 2 2 F32 :=
  ⟨⟨[1, 0, f32 1 3, f32 1 3]⟩, ⟨[f32 7 5, f32 9 1]⟩, ⟨[.inf false, 0, 0, .inf false]⟩, ⟨[0, 0]⟩, ⟨[0, 0, 0, 0]⟩, ⟨[0, 0, 0, 0]⟩,
    ⟨[0, 0, 0, 0]⟩, ⟨[0, 0, 0, 0]⟩, ⟨[0, 0, 0, 0]⟩, ⟨[0, 0, 0, 0]⟩⟩

example : ∃ x A P Q H z R, (f32World [f32 1 10, 1] [1, f32 1 2, f32 1 2, 1] 0).kf.Reps x A P Q ∧ f32Obs.Reps H z R ∧
    (∀ i, (x i).Finite) ∧ (∀ i j, (P i j).Finite) ∧ (∀ i, R i i = .inf false) ∧ (∀ i j, i ≠ j → R i j = 0) ∧
    (∀ i, ((z - Spec.mulVecSeq H x) i).Finite) ∧ (∀ i j, (Spec.mulSeq H P i j).Finite) ∧
    (∀ i j, (Spec.mulSeq P Hᵀ i j).Finite) ∧ (∀ i j, (Spec.mulSeq (Spec.mulSeq H P) Hᵀ i j).Finite) := by
  refine ⟨![f32 1 10, 1], !![1, f32 1 10; 0, 1], !![1, f32 1 2; f32 1 2, 1], !![f32 1 100, 0; 0, f32 1 100],
    !![1, 0; f32 1 3, f32 1 3], ![f32 7 5, f32 9 1], !![.inf false, 0; 0, .inf false],
    ⟨by decide +kernel, by decide +kernel, by decide +kernel, by decide +kernel, by decide +kernel, by decide +kernel⟩,
    ⟨by decide +kernel, by decide +kernel, by decide +kernel, by decide +kernel, by decide +kernel, by decide +kernel,
      by decide +kernel, by decide +kernel, by decide +kernel, by decide +kernel⟩, ?_⟩
  refine ⟨?_, ?_, ?_, ?_, ?_, ?_, ?_, ?_⟩ <;> intro i <;> first
    | (revert i; decide +kernel)
    | (intro j; fin_cases i <;> fin_cases j <;> decide +kernel)

end Ex
end Minikalman
