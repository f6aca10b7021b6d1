import Verif.Spec.Variance
import Verif.Proofs.RoundingCorrect
import Verif.Proofs.RoundingChol
import Verif.Proofs.Float
import Verif.Proofs.Poison
import Verif.Proofs.FloatNil
import Verif.Proofs.CertificateFloat
import Verif.Proofs.Extended
import Verif.Proofs.Fixed
import Verif.Proofs.FloatPrograms

/-!
# Corrections with one measured component
-/

namespace Minikalman

open Matrix

section Any
variable {T : Type} {n : Nat} [Zero T] [One T] [Add T] [Sub T] [Mul T] [Neg T] [MDT T]

omit [One T] [Sub T] [Neg T] [MDT T] in
theorem mulSeq_one {R U : Nat} (A : Matrix (Fin R) (Fin 1) T) (B : Matrix (Fin 1) (Fin U) T) (i j) :
    Spec.mulSeq A B i j = 0 + A i 0 * B 0 j := by
  simp [Spec.mulSeq, Spec.dotFrom, Fin.foldl_succ]

/-- What a correction with a single measured component does to the covariance, in any arithmetic. `q` is the square root of the
innovation covariance `S` (if that is positive), `d` its reciprocal. -/
theorem scalar_update (bld : Build) {o : RegularObservation n 1 T} {x : Mat n 1 T} {P : Mat n n T} {H R : Matrix _ _ T} {Pm X Y}
    (ho : o.Valid) (hH : o.H.Reps H) (hR : o.R.Reps R) (hP : P.Reps Pm) (hX : x.RepsV X) (hY : o.y.RepsV Y) :
    Part (o.updateWithInnovation bld x P) (fun r => ∃ S q d : T, S = Spec.mulSeq (Spec.mulSeq H Pm) Hᵀ 0 0 + R 0 0 ∧
      (MDT.le S 0 = false → MDT.squareRoot S = .ok q) ∧ MDT.recip q = .ok d ∧
      r.2.2.Reps (Matrix.of fun i j => Pm i j -
        (0 + (0 + Spec.mulSeq Pm Hᵀ i 0 * (((1 + MDT.isum []) * d + MDT.isum []) * d)) * Spec.mulSeq H Pm 0 j))) := by
  intro r hr
  obtain ⟨_, s, b, W, h1, h2, h3, h4, h5, _, _, h8⟩ := update_any bld Nat.one_pos ho hH hR hP hX hY r hr
  obtain ⟨q, d, hq, hd, hW⟩ : ∃ q d : T, r.1.S.Reps (Matrix.of fun _ _ => q) ∧ MDT.recip q = .ok d ∧
      W 0 0 = ((1 + MDT.isum []) * d + MDT.isum []) * d := by
    have hL := h3.reps
    obtain ⟨M, X', i1, i2, i3, i4⟩ := invert_any_matrix Nat.one_pos hL.lower ho.tempSInv h4
    obtain rfl := Mat.Reps.unique i1 h5
    obtain ⟨d, d1, d2⟩ := i3.entry 0 0 le_rfl
    obtain ⟨d', d3, d4⟩ := i4.entry 0 0 le_rfl
    rw [d1] at d3
    cases d3
    refine ⟨_, d, ?_, d1, ?_⟩
    · intro i j
      rw [Subsingleton.elim i 0, Subsingleton.elim j 0]
      exact hL 0 0
    · rw [d4, d2]
      rfl
  refine ⟨_, q, d, rfl, fun hle => ?_, hd, ?_⟩
  · cases b with
    | true =>
      obtain ⟨L, l1, _, _, l2, _⟩ := chol_any_reps bld h1.valid h1.upper h2
      have hLq : L 0 0 = q := congrFun (congrFun (Mat.Reps.unique l1 hq) 0) 0
      have := (l2 0).2
      rw [hLq] at this
      exact this
    | false =>
      obtain ⟨L, p, _, _, l2, _⟩ := chol_any_fail_reps bld h1.valid h1.upper h2
      rw [Subsingleton.elim p 0] at l2
      have : MDT.le (Spec.mulSeq (Spec.mulSeq H Pm) Hᵀ 0 0 + R 0 0) 0 = true := l2
      rw [hle] at this
      cases this
  · intro i j
    have := h8 i j
    rw [this]
    congr 1
    show Pm i j - Spec.mulSeq _ _ i j = _
    rw [mulSeq_one, mulSeq_one, hW]
    rfl

/-- The covariance after a correction with a single measured component. -/
def ScalarForm (P P' : Matrix (Fin n) (Fin n) T) (H : Matrix (Fin 1) (Fin n) T) (R : Matrix (Fin 1) (Fin 1) T) : Prop :=
  ∃ S q d : T, S = Spec.mulSeq (Spec.mulSeq H P) Hᵀ 0 0 + R 0 0 ∧
    (MDT.le S 0 = false → MDT.squareRoot S = .ok q) ∧ MDT.recip q = .ok d ∧
    P' = Matrix.of fun i j => P i j -
      (0 + (0 + Spec.mulSeq P Hᵀ i 0 * (((1 + MDT.isum []) * d + MDT.isum []) * d)) * Spec.mulSeq H P 0 j)

theorem scalar_correct (bld : Build) {f f' : RegularKalman n T} {o o' : RegularObservation n 1 T} {x A P Q H z R} (hn : 0 < n)
    (hf : f.Reps x A P Q) (ho : o.Reps H z R) (h : f.correct bld o = .ok (f', o')) :
    ∃ P', f'.P.Reps P' ∧ ScalarForm P P' H R := by
  obtain ⟨y1, y2, h1, h2, h3, h4⟩ := innovation_any hn ho.valid ho.H ho.z hf.x
  unfold RegularKalman.correct RegularObservation.correct at h
  simp only [h1, h2, res_bind_ok] at h
  obtain ⟨⟨o1, x1, P1⟩, hu, h⟩ := bind_ok h
  cases h
  obtain ⟨S, q, d, k1, k2, k3, k4⟩ := scalar_update bld (o := { o with y := y2 }) (obs_with_y_valid ho.valid h4) ho.H ho.R hf.P hf.x h3 _ hu
  exact ⟨_, k4, S, q, d, k1, k2, k3, rfl⟩

theorem scalar_xcorrect {σ : Type} (bld : Build) {f f' : ExtendedKalman n T} {o o' : ExtendedObservation n 1 T} {x A P Q H z R}
    (hf : f.asRegular.Reps x A P Q) (ho : o.asRegular.Reps H z R)
    {c : σ → Mat n 1 T → Mat 1 1 T → Res (σ × Mat 1 1 T)} (hc : KeepsLength c) {st st' : σ}
    (h : f.correctNonlinear bld o c st = .ok (st', f', o')) : ∃ P', f'.P.Reps P' ∧ ScalarForm P P' H R := by
  obtain ⟨y, y', x', P1, h1, h2, h3, rfl⟩ := xcorrect_ok bld h
  have hl := hc _ _ _ _ _ h1
  have hyv : y.Valid := (show 1 * 1 ≤ o.y.data.length from ho.y).trans_eq hl.symm
  obtain ⟨y2, k1, k2, _, k4⟩ := y_after (o := o.asRegular) ho.valid hl ho.z hyv.repsV
  have e : y2 = y' := Except.ok.inj (k1.symm.trans h2)
  subst e
  obtain ⟨S, q, d, e1, e2, e3, e4⟩ := scalar_update bld (o := { o.asRegular with y := y2 }) k4 ho.H ho.R hf.P hf.x k2 _ h3
  exact ⟨_, e4, S, q, d, e1, e2, e3, rfl⟩

end Any

namespace Bin
variable {fmt : Format}

/-- NaN, a zero, or a number with the sign bit `t`. -/
def Sg (t : Bool) : Bin fmt → Prop
  | .nan => True
  | .inf s => s = t
  | .fin s k _ => s = t ∨ k = 0

theorem Sg.exists (a : Bin fmt) : ∃ t, Sg t a := by
  cases a with
  | nan => exact ⟨true, trivial⟩
  | inf s => exact ⟨s, rfl⟩
  | fin s k h => exact ⟨s, .inl rfl⟩

theorem settle_sg (neg : Bool) (s f : Nat) (mid : Ordering) : Sg neg (settle neg s f mid : Bin fmt) := by
  rw [settle_eq]
  split
  · exact .inl rfl
  · exact rfl

theorem round_sg (neg : Bool) (a d : Nat) : Sg neg (round neg a d : Bin fmt) := settle_sg _ _ _ _

theorem round_nil (neg t : Bool) (d : Nat) : Sg t (round neg 0 d : Bin fmt) := by
  have : (round neg 0 d : Bin fmt) = .fin neg 0 fmt.rep_zero := by
    unfold round
    simp only [Nat.zero_div, Nat.mul_zero]
    rcases Nat.eq_zero_or_pos d with rfl | hd
    · simp [settle, fmt.rep_zero]
    · have h1 : compare 0 ((0 + 1) * 2 ^ fmt.gap 0 * d) = .lt :=
        Nat.compare_eq_lt.2 (Nat.mul_pos (Nat.mul_pos Nat.one_pos (Nat.two_pow_pos _)) hd)
      rw [h1]
      simp [settle, fmt.rep_zero]
  rw [this]
  exact .inr rfl

theorem Sg.mul {t t' : Bool} {a b : Bin fmt} (ha : Sg t a) (hb : Sg t' b) : Sg (t != t') (a * b) := by
  cases a with
  | nan => exact trivial
  | inf s =>
    obtain rfl : s = t := ha
    cases b with
    | nan => exact trivial
    | inf s' => obtain rfl : s' = t' := hb; exact rfl
    | fin s' l h =>
      show Sg _ (if l = 0 then .nan else .inf (s != s') : Bin fmt)
      split
      · exact trivial
      · rename_i hl
        obtain rfl : s' = t' := hb.resolve_right hl
        exact rfl
  | fin s k h =>
    cases b with
    | nan => exact trivial
    | inf s' =>
      obtain rfl : s' = t' := hb
      show Sg _ (if k = 0 then .nan else .inf (s != s') : Bin fmt)
      split
      · exact trivial
      · rename_i hk
        obtain rfl : s = t := ha.resolve_right hk
        exact rfl
    | fin s' l h' =>
      show Sg _ (round (s != s') (k * l) (2 ^ fmt.frac) : Bin fmt)
      rcases ha with rfl | rfl
      · rcases hb with rfl | rfl
        · exact round_sg _ _ _
        · rw [Nat.mul_zero]; exact round_nil _ _ _
      · rw [Nat.zero_mul]; exact round_nil _ _ _

theorem Sg.add_nil {t z : Bool} {a : Bin fmt} (ha : Sg t a) : Sg t (a + .fin z 0 fmt.rep_zero) := by
  cases a with
  | nan => exact trivial
  | inf s => exact ha
  | fin s k h =>
    show Sg t (if signed s k + signed z 0 = 0 then .fin (s && z) 0 fmt.rep_zero
      else round (decide (signed s k + signed z 0 < 0)) (signed s k + signed z 0).natAbs 1 : Bin fmt)
    have hz : signed z 0 = 0 := by cases z <;> rfl
    rw [hz, add_zero]
    split
    · exact .inr rfl
    · rename_i h0
      have hk : k ≠ 0 := fun e => h0 (by subst e; cases s <;> rfl)
      obtain rfl : s = t := ha.resolve_right hk
      have : decide (signed s k < 0) = s := by
        cases s
        · simp [signed]
        · have : 0 < k := Nat.pos_of_ne_zero hk
          simp [signed, this]
      rw [this]
      exact round_sg _ _ _

theorem add_comm' (a b : Bin fmt) : a + b = b + a := by
  cases a <;> cases b <;> try rfl
  · rename_i s t
    show (if s = t then Bin.inf s else .nan) = if t = s then Bin.inf t else .nan
    by_cases h : s = t
    · rw [if_pos h, if_pos h.symm, h]
    · rw [if_neg h, if_neg (Ne.symm h)]
  · rename_i s k h t l h'
    show (if signed s k + signed t l = 0 then Bin.fin (s && t) 0 fmt.rep_zero else _) =
      if signed t l + signed s k = 0 then Bin.fin (t && s) 0 fmt.rep_zero else _
    rw [add_comm (signed s k), Bool.and_comm]

theorem mul_comm' (a b : Bin fmt) : a * b = b * a := by
  have hx : ∀ s t : Bool, (s != t) = (t != s) := by decide
  cases a <;> cases b <;> try rfl
  · rename_i s t
    show Bin.inf (s != t) = Bin.inf (t != s)
    rw [hx]
  · rename_i s t l h
    show (if l = 0 then Bin.nan else .inf (s != t)) = if l = 0 then Bin.nan else .inf (t != s)
    rw [hx]
  · rename_i s k h t
    show (if k = 0 then Bin.nan else .inf (s != t)) = if k = 0 then Bin.nan else .inf (t != s)
    rw [hx]
  · rename_i s k h t l h'
    show round (s != t) (k * l) _ = round (t != s) (l * k) _
    rw [hx, Nat.mul_comm]

theorem Sg.nil_add {t : Bool} {a : Bin fmt} (ha : Sg t a) : Sg t (0 + a) := by
  rw [add_comm']; exact ha.add_nil

theorem isum_nil : MDT.isum ([] : List (Bin fmt)) = .fin fmt.sumNeg 0 fmt.rep_zero := rfl

/-- The computed inverse of the innovation covariance is not negative. -/
theorem square_sg (d : Bin fmt) : Sg false (((1 + MDT.isum []) * d + MDT.isum []) * d) := by
  obtain ⟨t, h⟩ := Sg.exists d
  have h1 : Sg false (1 : Bin fmt) := .inl rfl
  have := ((h1.add_nil (z := fmt.sumNeg)).mul h).add_nil (z := fmt.sumNeg) |>.mul h
  rw [isum_nil]
  cases t <;> exact this

/-- What is subtracted from a variance is not negative. -/
theorem sandwich_sg {s : Bin fmt} (c : Bin fmt) (hs : Sg false s) : Sg false (0 + (0 + c * s) * c) := by
  obtain ⟨t, h⟩ := Sg.exists c
  have := ((h.mul hs).nil_add.mul h).nil_add
  cases t <;> exact this

theorem Sg.val_nonneg {a : Bin fmt} (h : Sg false a) : 0 ≤ a.val := by
  cases a with
  | nan => exact le_rfl
  | inf s => exact le_rfl
  | fin s k hk =>
    rw [val_fin]
    rcases h with rfl | rfl
    · simp only [sgn, Bool.false_eq_true, if_false]; positivity
    · cases s <;> simp [sgn]

/-- Rounding does not pass representable numbers. -/
theorem rounds_le {x : ℝ} {r y : Bin fmt} (h : RoundsTo x r) (hy : y.Finite) (hx : x ≤ y.val) : r.Finite ∧ r.val ≤ y.val ∨ r = .inf true := by
  have hl := abs_lt.1 (abs_lt_limit hy)
  rcases h with ⟨_, h1, h2⟩ | ⟨h1, _⟩ | ⟨_, h1⟩
  · left
    refine ⟨h1, ?_⟩
    by_contra hc
    have h3 := (h2 y hy).1
    rw [abs_of_nonneg (by linarith), abs_of_nonneg (by linarith)] at h3
    linarith
  · linarith
  · exact .inr h1

theorem rounds_le_fin {x : ℝ} {r y : Bin fmt} (h : RoundsTo x r) (hr : r.Finite) (hy : y.Finite) (hx : x ≤ y.val) : r.val ≤ y.val := by
  rcases rounds_le h hy hx with h1 | h1
  · exact h1.2
  · rw [h1] at hr; exact hr.elim

theorem rounds_ge_fin {x : ℝ} {r y : Bin fmt} (h : RoundsTo x r) (hr : r.Finite) (hy : y.Finite) (hx : y.val ≤ x) : y.val ≤ r.val := by
  rcases h with ⟨_, h1, h2⟩ | ⟨_, h1⟩ | ⟨_, h1⟩
  · by_contra hc
    have h3 := (h2 y hy).1
    rw [abs_of_nonpos (by linarith), abs_of_nonpos (by linarith)] at h3
    linarith
  · rw [h1] at hr; exact hr.elim
  · rw [h1] at hr; exact hr.elim

/-- Subtracting something that is not negative does not enlarge. -/
theorem sub_le' {p t : Bin fmt} (ht : Sg false t) : p - t = .nan ∨ (p - t).le p = true := by
  cases p with
  | nan => exact .inl rfl
  | inf s =>
    cases t with
    | nan => exact .inl rfl
    | inf s' =>
      obtain rfl : s' = false := ht
      cases s
      · exact .inl rfl
      · exact .inr rfl
    | fin s' k h => right; cases s <;> rfl
  | fin s k h =>
    cases t with
    | nan => exact .inl rfl
    | inf s' =>
      obtain rfl : s' = false := ht
      exact .inr rfl
    | fin s' l h' =>
      right
      have hr := sub_rounds (a := Bin.fin s k h) (b := Bin.fin s' l h') trivial trivial
      have h0 := ht.val_nonneg
      rcases rounds_le hr (y := Bin.fin s k h) trivial (by linarith) with ⟨h1, h2⟩ | h1
      · exact (le_iff (b := Bin.fin s k h) h1 trivial).2 h2
      · rw [h1]; rfl

/-! ### A directly measured state with enough measurement noise -/

theorem fin_of_pos {a : Bin fmt} (h : 0 < a.val) : a.Finite := by
  cases a with
  | nan => exact (lt_irrefl _ h).elim
  | inf s => exact (lt_irrefl _ h).elim
  | fin s k hk => exact trivial

theorem pos_ge {a : Bin fmt} (h : 0 < a.val) : 1 / 2 ^ fmt.frac ≤ a.val := by
  obtain ⟨s, k, hk, rfl⟩ := (finite_iff a).1 (fin_of_pos h)
  rw [val_fin] at h ⊢
  have hp : (0 : ℝ) < 2 ^ fmt.frac := by positivity
  rw [div_le_div_iff_of_pos_right hp]
  have h1 : 0 < sgn s k := by
    by_contra hc
    exact absurd h (not_lt.2 (div_nonpos_of_nonpos_of_nonneg (not_lt.1 hc) hp.le))
  cases s
  · have h2 : (0 : ℝ) < k := h1
    have : 0 < k := by exact_mod_cast h2
    show (1 : ℝ) ≤ k
    exact_mod_cast this
  · have h2 : (0 : ℝ) < -(k : ℝ) := h1
    have : (0 : ℝ) ≤ k := Nat.cast_nonneg k
    linarith

theorem foldl_single {k : Nat} {f : Fin k → Bin fmt} {x : ℝ} (j : Fin k) (hf : ∀ i, i ≠ j → (f i).Nil) (hj : (f j).Is x) {z : Bin fmt}
    (hz : z.Nil) : (Fin.foldl k (fun acc i => acc + f i) z).Is x := by
  induction k generalizing z with
  | zero => exact j.elim0
  | succ k ih =>
    rw [Fin.foldl_succ_last]
    revert hf hj
    refine Fin.lastCases ?_ (fun j => ?_) j
    · intro hf hj
      have h1 : (Fin.foldl k (fun acc i => acc + f i.castSucc) z).Nil := foldl_nil (fun i => hf _ (Fin.castSucc_lt_last i).ne) hz
      have := nil_add h1 hj.1
      exact ⟨this.1, this.2.trans hj.2⟩
    · intro hf hj
      have h1 := ih (f := fun i => f i.castSucc) j (fun i hi => hf _ fun e => hi (Fin.castSucc_injective _ e)) hj hz
      have := add_nil h1.1 (hf (Fin.last k) (Fin.castSucc_lt_last j).ne')
      exact ⟨this.1, this.2.trans h1.2⟩

theorem one_is : (1 : Bin fmt).Is 1 := ⟨trivial, one_val⟩

theorem one_mul_is {a : Bin fmt} (h : a.Finite) : (1 * a).Is a.val := by
  have := mul_rounds (a := 1) trivial h
  rw [one_val, one_mul] at this
  exact RoundsTo.exact this h rfl

theorem mul_one_is {a : Bin fmt} (h : a.Finite) : (a * 1).Is a.val := by
  rw [mul_comm']; exact one_mul_is h

variable {n : Nat}

theorem direct_mul {U : Nat} {j : Fin n} {B : Matrix (Fin n) (Fin U) (Bin fmt)} {l : Fin U} (h : ∀ k, (B k l).Finite) :
    (Spec.mulSeq (Spec.direct j) B 0 l).Is (B j l).val := by
  refine foldl_single (f := fun k => Spec.direct j 0 k * B k l) j (fun i hi => ?_) ?_ nil_zero
  · show (Spec.direct j 0 i * B i l).Nil
    have : Spec.direct (T := Bin fmt) j 0 i = 0 := if_neg hi
    rw [this]; exact nil_mul nil_zero (h i)
  · show (Spec.direct j 0 j * B j l).Is _
    have : Spec.direct (T := Bin fmt) j 0 j = 1 := if_pos rfl
    rw [this]; exact one_mul_is (h j)

theorem mul_direct {U : Nat} {j : Fin n} {B : Matrix (Fin U) (Fin n) (Bin fmt)} {l : Fin U} (h : ∀ k, (B l k).Finite) :
    (Spec.mulSeq B (Spec.direct j)ᵀ l 0).Is (B l j).val := by
  refine foldl_single (f := fun k => B l k * (Spec.direct j)ᵀ k 0) j (fun i hi => ?_) ?_ nil_zero
  · show (B l i * (Spec.direct j)ᵀ i 0).Nil
    have : (Spec.direct (T := Bin fmt) j)ᵀ i 0 = 0 := if_neg hi
    rw [this]; exact mul_nil (h i) nil_zero
  · show (B l j * (Spec.direct j)ᵀ j 0).Is _
    have : (Spec.direct (T := Bin fmt) j)ᵀ j 0 = 1 := if_pos rfl
    rw [this]; exact mul_one_is (h j)

/-- Products of a number that is at most 1 with the reciprocal of the rounded sum. -/
theorem real_gain {p r u S q d s : ℝ} (hp : 0 ≤ p) (hr : 0 < r) (hu : 0 < u) (hu' : u ≤ 1 / 16) (h : 12 * u * (p + r) ≤ r)
    (hS : (1 - u) * (p + r) ≤ S) (hq : (1 - 2 * u) * √S ≤ q) (hd : d ≤ (1 + 2 * u) * q⁻¹) (hd0 : 0 ≤ d)
    (hs : s ≤ (1 + 2 * u) * (d * d)) : p * s ≤ 1 := by
  have hS0 : 0 < S := lt_of_lt_of_le (mul_pos (by linarith) (by linarith)) hS
  have hq0 : 0 < q := lt_of_lt_of_le (mul_pos (by linarith) (Real.sqrt_pos.2 hS0)) hq
  have hq2 : (1 - 2 * u) ^ 2 * ((1 - u) * (p + r)) ≤ q ^ 2 := by
    calc (1 - 2 * u) ^ 2 * ((1 - u) * (p + r)) ≤ (1 - 2 * u) ^ 2 * S := mul_le_mul_of_nonneg_left hS (by positivity)
      _ = ((1 - 2 * u) * √S) ^ 2 := by rw [mul_pow, Real.sq_sqrt hS0.le]
      _ ≤ q ^ 2 := pow_le_pow_left₀ (mul_nonneg (by linarith) (Real.sqrt_nonneg _)) hq 2
  have hdq : d * q ≤ 1 + 2 * u := by
    calc d * q ≤ (1 + 2 * u) * q⁻¹ * q := mul_le_mul_of_nonneg_right hd hq0.le
      _ = 1 + 2 * u := by rw [mul_assoc, inv_mul_cancel₀ hq0.ne', mul_one]
  have hdq2 : d * d * q ^ 2 ≤ (1 + 2 * u) ^ 2 := by
    calc d * d * q ^ 2 = (d * q) ^ 2 := by ring
      _ ≤ (1 + 2 * u) ^ 2 := pow_le_pow_left₀ (mul_nonneg hd0 hq0.le) hdq 2
  have hsq : s * q ^ 2 ≤ (1 + 2 * u) ^ 3 := by
    calc s * q ^ 2 ≤ (1 + 2 * u) * (d * d) * q ^ 2 := mul_le_mul_of_nonneg_right hs (by positivity)
      _ = (1 + 2 * u) * (d * d * q ^ 2) := by ring
      _ ≤ (1 + 2 * u) * (1 + 2 * u) ^ 2 := mul_le_mul_of_nonneg_left hdq2 (by linarith)
      _ = (1 + 2 * u) ^ 3 := by ring
  have hpoly : (1 - 12 * u) * (1 + 2 * u) ^ 3 ≤ (1 - 2 * u) ^ 2 * (1 - u) := by nlinarith [sq_nonneg u, pow_pos hu 3, pow_pos hu 4]
  have hpp : p ≤ (1 - 12 * u) * (p + r) := by linarith
  have h3 : p * (1 + 2 * u) ^ 3 ≤ q ^ 2 := by
    calc p * (1 + 2 * u) ^ 3 ≤ (1 - 12 * u) * (p + r) * (1 + 2 * u) ^ 3 := mul_le_mul_of_nonneg_right hpp (by positivity)
      _ = (1 - 12 * u) * (1 + 2 * u) ^ 3 * (p + r) := by ring
      _ ≤ (1 - 2 * u) ^ 2 * (1 - u) * (p + r) := mul_le_mul_of_nonneg_right hpoly (by linarith)
      _ = (1 - 2 * u) ^ 2 * ((1 - u) * (p + r)) := by ring
      _ ≤ q ^ 2 := hq2
  have hq2' : 0 < q ^ 2 := by positivity
  by_contra hc
  have : q ^ 2 < p * s * q ^ 2 := by nlinarith
  have : p * s * q ^ 2 ≤ p * (1 + 2 * u) ^ 3 := by
    calc p * s * q ^ 2 = p * (s * q ^ 2) := by ring
      _ ≤ _ := mul_le_mul_of_nonneg_left hsq hp
  linarith

theorem real_gain_lower {t u S q d s : ℝ} (hu : 0 < u) (hu' : u ≤ 1 / 16) (hS0 : 0 < S) (hS : S ≤ (1 + u) * t)
    (hq0 : 0 < q) (hq : q ≤ (1 + 2 * u) * √S) (hd : (1 - 2 * u) * q⁻¹ ≤ d) (hs : (1 - 2 * u) * (d * d) ≤ s) :
    1 - 12 * u ≤ s * t := by
  have hq2 : q ^ 2 ≤ (1 + 2 * u) ^ 2 * ((1 + u) * t) := by
    calc q ^ 2 ≤ ((1 + 2 * u) * √S) ^ 2 := pow_le_pow_left₀ hq0.le hq 2
      _ = (1 + 2 * u) ^ 2 * S := by rw [mul_pow, Real.sq_sqrt hS0.le]
      _ ≤ _ := mul_le_mul_of_nonneg_left hS (by positivity)
  have hdq : 1 - 2 * u ≤ d * q := by
    calc 1 - 2 * u = (1 - 2 * u) * q⁻¹ * q := by rw [mul_assoc, inv_mul_cancel₀ hq0.ne', mul_one]
      _ ≤ d * q := mul_le_mul_of_nonneg_right hd hq0.le
  have hdq2 : (1 - 2 * u) ^ 2 ≤ d * d * q ^ 2 := by
    calc (1 - 2 * u) ^ 2 ≤ (d * q) ^ 2 := pow_le_pow_left₀ (by linarith) hdq 2
      _ = d * d * q ^ 2 := by ring
  have hs0 : 0 ≤ s := le_trans (mul_nonneg (by linarith) (mul_self_nonneg d)) hs
  have hsq : (1 - 2 * u) ^ 3 ≤ s * q ^ 2 := by
    calc (1 - 2 * u) ^ 3 = (1 - 2 * u) * (1 - 2 * u) ^ 2 := by ring
      _ ≤ (1 - 2 * u) * (d * d * q ^ 2) := mul_le_mul_of_nonneg_left hdq2 (by linarith)
      _ = (1 - 2 * u) * (d * d) * q ^ 2 := by ring
      _ ≤ s * q ^ 2 := mul_le_mul_of_nonneg_right hs (by positivity)
  have h1 : (1 - 2 * u) ^ 3 ≤ s * t * ((1 + 2 * u) ^ 2 * (1 + u)) := by
    calc (1 - 2 * u) ^ 3 ≤ s * q ^ 2 := hsq
      _ ≤ s * ((1 + 2 * u) ^ 2 * ((1 + u) * t)) := mul_le_mul_of_nonneg_left hq2 hs0
      _ = _ := by ring
  have hc : 0 < (1 + 2 * u) ^ 2 * (1 + u) := by positivity
  have hpoly : (1 - 12 * u) * ((1 + 2 * u) ^ 2 * (1 + u)) ≤ (1 - 2 * u) ^ 3 := by
    have : 0 < u ^ 2 := by positivity
    have : 0 < u ^ 3 := by positivity
    have : 0 < u ^ 4 := by positivity
    nlinarith
  exact le_of_mul_le_mul_right (hpoly.trans h1) hc

theorem limit_gt (hf : 2 * fmt.frac ≤ fmt.top + fmt.prec) {x : ℝ} (h : x ≤ 2 ^ fmt.frac / 2 ^ (fmt.prec + 2)) :
    2 * x < fmt.limit := by
  have h1 : (2 : ℝ) ^ (2 * fmt.frac) ≤ 2 ^ (fmt.top + fmt.prec) := pow_le_pow_right₀ (by norm_num) hf
  rw [two_mul, pow_add, pow_add] at h1
  have hF : (0 : ℝ) < 2 ^ fmt.frac := by positivity
  have hQ : (0 : ℝ) < 2 ^ fmt.prec := by positivity
  have hT : (0 : ℝ) < 2 ^ fmt.top := by positivity
  have hQ1 : (1 : ℝ) ≤ 2 ^ fmt.prec := one_le_pow₀ (by norm_num)
  have h2 : (1 : ℝ) / 2 ^ (fmt.prec + 1) ≤ 1 / 2 := by
    rw [pow_succ]
    exact one_div_le_one_div_of_le (by norm_num) (by linarith)
  have h3 : 2 * x ≤ 2 ^ fmt.top / 2 / 2 ^ fmt.frac := by
    rw [le_div_iff₀ hF]
    have : x * (2 ^ fmt.prec * 4) ≤ 2 ^ fmt.frac := by
      rw [pow_add, le_div_iff₀ (by positivity)] at h
      linarith
    have h5 : x * 2 ^ fmt.frac * 4 ≤ 2 ^ fmt.top := by
      have h6 : x * 2 ^ fmt.frac * 4 * 2 ^ fmt.prec ≤ 2 ^ fmt.top * 2 ^ fmt.prec := by
        calc x * 2 ^ fmt.frac * 4 * 2 ^ fmt.prec = x * (2 ^ fmt.prec * 4) * 2 ^ fmt.frac := by ring
          _ ≤ 2 ^ fmt.frac * 2 ^ fmt.frac := mul_le_mul_of_nonneg_right this hF.le
          _ ≤ _ := h1
      exact le_of_mul_le_mul_right h6 hQ
    linarith
  refine lt_of_le_of_lt h3 ?_
  unfold Format.limit
  rw [div_lt_div_iff_of_pos_right hF]
  have : 2 ^ fmt.top / 2 < (2 : ℝ) ^ fmt.top * (1 - 1 / 2 ^ (fmt.prec + 1)) ∨ fmt.prec = 0 := by
    left
    have h7 : (1 : ℝ) / 2 ^ (fmt.prec + 1) < 1 / 2 := by
      refine one_div_lt_one_div_of_lt (by norm_num) ?_
      calc (2 : ℝ) = 2 ^ 1 := (pow_one _).symm
        _ < 2 ^ (fmt.prec + 1) := pow_lt_pow_right₀ (by norm_num) (by have := fmt.two_le; omega)
    nlinarith
  rcases this with h | h
  · exact h
  · have := fmt.two_le; omega

theorem real_gain_upper {t u S q d s : ℝ} (hu : 0 < u) (hu' : u ≤ 1 / 16) (ht : 0 < t) (hS : (1 - u) * t ≤ S)
    (hq : (1 - 2 * u) * √S ≤ q) (hd : d ≤ (1 + 2 * u) * q⁻¹) (hd0 : 0 ≤ d) (hs : s ≤ (1 + 2 * u) * (d * d)) : s * t ≤ 1 + 16 * u := by
  have hS0 : 0 < S := lt_of_lt_of_le (mul_pos (by linarith) ht) hS
  have hq0 : 0 < q := lt_of_lt_of_le (mul_pos (by linarith) (Real.sqrt_pos.2 hS0)) hq
  have hq2 : (1 - 2 * u) ^ 2 * ((1 - u) * t) ≤ q ^ 2 := by
    calc (1 - 2 * u) ^ 2 * ((1 - u) * t) ≤ (1 - 2 * u) ^ 2 * S := mul_le_mul_of_nonneg_left hS (by positivity)
      _ = ((1 - 2 * u) * √S) ^ 2 := by rw [mul_pow, Real.sq_sqrt hS0.le]
      _ ≤ q ^ 2 := pow_le_pow_left₀ (mul_nonneg (by linarith) (Real.sqrt_nonneg _)) hq 2
  have hdq : d * q ≤ 1 + 2 * u := by
    calc d * q ≤ (1 + 2 * u) * q⁻¹ * q := mul_le_mul_of_nonneg_right hd hq0.le
      _ = 1 + 2 * u := by rw [mul_assoc, inv_mul_cancel₀ hq0.ne', mul_one]
  have hdq2 : d * d * q ^ 2 ≤ (1 + 2 * u) ^ 2 := by
    calc d * d * q ^ 2 = (d * q) ^ 2 := by ring
      _ ≤ (1 + 2 * u) ^ 2 := pow_le_pow_left₀ (mul_nonneg hd0 hq0.le) hdq 2
  have hsq : s * q ^ 2 ≤ (1 + 2 * u) ^ 3 := by
    calc s * q ^ 2 ≤ (1 + 2 * u) * (d * d) * q ^ 2 := mul_le_mul_of_nonneg_right hs (by positivity)
      _ = (1 + 2 * u) * (d * d * q ^ 2) := by ring
      _ ≤ (1 + 2 * u) * (1 + 2 * u) ^ 2 := mul_le_mul_of_nonneg_left hdq2 (by linarith)
      _ = (1 + 2 * u) ^ 3 := by ring
  have hpoly : (1 + 2 * u) ^ 3 ≤ (1 + 16 * u) * ((1 - 2 * u) ^ 2 * (1 - u)) := by
    have e : (1 + 16 * u) * ((1 - 2 * u) ^ 2 * (1 - u)) - (1 + 2 * u) ^ 3 = u * (5 - 84 * u + 116 * u ^ 2 - 64 * u ^ 3) := by ring
    have h1 : 0 ≤ 5 - 84 * u + 116 * u ^ 2 - 64 * u ^ 3 := by
      have h2 : u ^ 3 ≤ 1 / 16 * u ^ 2 := by
        have := mul_le_mul_of_nonneg_right hu' (sq_nonneg u)
        nlinarith
      nlinarith
    have := mul_nonneg hu.le h1
    linarith
  have hc : 0 < (1 - 2 * u) ^ 2 * (1 - u) := mul_pos (pow_pos (by linarith) 2) (by linarith)
  rcases le_total s 0 with h0 | h0
  · have := mul_nonpos_of_nonpos_of_nonneg h0 ht.le
    linarith
  refine le_of_mul_le_mul_right ?_ hc
  calc s * t * ((1 - 2 * u) ^ 2 * (1 - u)) = s * ((1 - 2 * u) ^ 2 * ((1 - u) * t)) := by ring
    _ ≤ s * q ^ 2 := mul_le_mul_of_nonneg_left hq2 h0
    _ ≤ (1 + 2 * u) ^ 3 := hsq
    _ ≤ _ := hpoly

set_option maxHeartbeats 1000000 in
/-- The computed inverse of the innovation variance of a directly measured state. -/
theorem gain_bounds {p R s0 S q d s : Bin fmt} (h4 : 4 ≤ fmt.prec) (h2 : 2 * fmt.prec ≤ fmt.frac) (hf : 2 * fmt.frac ≤ fmt.top + fmt.prec)
    (hp0 : 0 ≤ p.val) (hR0 : 0 < R.val) (h12 : 12 * (1 / 2 ^ fmt.prec) * (p.val + R.val) ≤ R.val)
    (hbig : p.val + R.val ≤ 2 ^ fmt.frac / 2 ^ (fmt.prec + 2)) (hs0 : s0.Is p.val) (hS : S = s0 + R) (hq : q = S.sqrt) (hd : d = q.recip)
    (hs : s = ((1 + MDT.isum []) * d + MDT.isum []) * d) (hfin : s.Finite ∨ 2 < R.val * fmt.limit) :
    s.Finite ∧ 0 ≤ s.val ∧ p.val * s.val ≤ 1 ∧ 1 - 12 * (1 / 2 ^ fmt.prec) ≤ s.val * (p.val + R.val) ∧
      s.val * (p.val + R.val) ≤ 1 + 16 * (1 / 2 ^ fmt.prec) := by
  have hR := fin_of_pos hR0
  have hQ : (0 : ℝ) < 2 ^ fmt.prec := by positivity
  have hF : (0 : ℝ) < 2 ^ fmt.frac := by positivity
  obtain ⟨u, hu⟩ : ∃ u : ℝ, u = 1 / 2 ^ fmt.prec := ⟨_, rfl⟩
  have hu0 : 0 < u := by rw [hu]; positivity
  have hu16 : u ≤ 1 / 16 := by
    rw [hu]
    refine one_div_le_one_div_of_le (by norm_num) ?_
    calc (16 : ℝ) = 2 ^ 4 := by norm_num
      _ ≤ 2 ^ fmt.prec := pow_le_pow_right₀ (by norm_num) h4
  obtain ⟨η, hη⟩ : ∃ η : ℝ, η = 1 / 2 ^ (fmt.frac + 1) := ⟨_, rfl⟩
  have hη0 : 0 < η := by rw [hη]; positivity
  have hF1 : u * u ≥ 1 / 2 ^ fmt.frac := by
    rw [hu, one_div_mul_one_div, ← pow_add]
    exact one_div_le_one_div_of_le (by positivity) (pow_le_pow_right₀ (by norm_num) (by omega))
  have hηF : 2 * η = 1 / 2 ^ fmt.frac := by rw [hη, pow_succ]; field_simp
  -- the bound on the sum
  have hbig' : 4 * (p.val + R.val) ≤ u / (2 * η) := by
    rw [hηF, hu]
    calc 4 * (p.val + R.val) ≤ 4 * (2 ^ fmt.frac / 2 ^ (fmt.prec + 2)) := by linarith
      _ = 1 / 2 ^ fmt.prec / (1 / 2 ^ fmt.frac) := by rw [pow_add]; field_simp; norm_num
  have hbig2 : 8 * ((p.val + R.val) * η) ≤ u := by
    rw [le_div_iff₀ (by positivity)] at hbig'
    linarith
  -- the innovation covariance
  have hSr := add_rounds hs0.1 hR
  rw [hs0.2, ← hS] at hSr
  have hlim := limit_gt hf hbig
  have hSfin : S.Finite := by
    rcases hSr with ⟨_, h, _⟩ | ⟨h, _⟩ | ⟨h, _⟩
    · exact h
    · linarith
    · linarith
  have hSe : |S.val - (p.val + R.val)| ≤ u * |p.val + R.val| := by
    have := add_error (a := s0) (b := R) (by rw [← hS]; exact hSfin)
    rwa [hs0.2, ← hS, ← hu] at this
  rw [abs_of_pos (show 0 < p.val + R.val by linarith), abs_le] at hSe
  have hS1 : (1 - u) * (p.val + R.val) ≤ S.val := by linarith
  have hS0 : 0 < S.val := lt_of_lt_of_le (mul_pos (by linarith) (by linarith)) hS1
  have hS2 : S.val ≤ 2 * (p.val + R.val) := by nlinarith
  have hS3 : 4 * (S.val * η) ≤ u := by nlinarith
  have hSge : 2 * η ≤ S.val := by rw [hηF]; exact pos_ge hS0
  -- the square root
  have hsq : 0 < √S.val := Real.sqrt_pos.2 hS0
  have hsqη : η ≤ u * √S.val := by
    have : η ^ 2 ≤ (u * √S.val) ^ 2 := by
      rw [mul_pow, Real.sq_sqrt hS0.le]
      nlinarith
    exact le_of_sq_le_sq this (by positivity)
  have hsqlt : √S.val < fmt.limit := by
    have h1 : √S.val ≤ max 1 S.val := by
      rw [Real.sqrt_le_left (le_trans zero_le_one (le_max_left _ _))]
      nlinarith [le_max_left 1 S.val, le_max_right 1 S.val]
    refine lt_of_le_of_lt h1 (max_lt ?_ ?_)
    · have := abs_lt_limit (a := (1 : Bin fmt)) trivial
      rwa [one_val, abs_one] at this
    · have := abs_lt_limit hSfin
      rwa [abs_of_pos hS0] at this
  have hqr := sqrt_rounds hSfin hS0.le
  rw [← hq] at hqr
  have hqfin : q.Finite := by
    rcases hqr with ⟨_, h, _⟩ | ⟨h, _⟩ | ⟨h, _⟩
    · exact h
    · linarith
    · have := limit_pos fmt; linarith
  have hqe : |q.val - √S.val| ≤ u * √S.val + η := by
    have := sqrt_error (a := S) (by rw [← hq]; exact hqfin)
    rwa [← hq, ← hu, ← hη] at this
  rw [abs_le] at hqe
  have hq1 : (1 - 2 * u) * √S.val ≤ q.val := by linarith
  have hq2 : q.val ≤ (1 + 2 * u) * √S.val := by linarith
  have hq0 : 0 < q.val := lt_of_lt_of_le (mul_pos (by linarith) hsq) hq1
  have hqS : q.val ^ 2 ≤ 2 * S.val := by
    calc q.val ^ 2 ≤ ((1 + 2 * u) * √S.val) ^ 2 := pow_le_pow_left₀ hq0.le hq2 2
      _ = (1 + 2 * u) ^ 2 * S.val := by rw [mul_pow, Real.sq_sqrt hS0.le]
      _ ≤ 2 * S.val := mul_le_mul_of_nonneg_right (by nlinarith) hS0.le
  have hqS1 : (1 - 2 * u) ^ 2 * S.val ≤ q.val ^ 2 := by
    calc (1 - 2 * u) ^ 2 * S.val = ((1 - 2 * u) * √S.val) ^ 2 := by rw [mul_pow, Real.sq_sqrt hS0.le]
      _ ≤ q.val ^ 2 := pow_le_pow_left₀ (mul_nonneg (by linarith) hsq.le) hq1 2
  -- its reciprocal
  have hlimp := limit_pos fmt
  have hlim1 : 1 < fmt.limit := by
    have := abs_lt_limit (a := (1 : Bin fmt)) trivial
    rwa [one_val, abs_one] at this
  have hqR : 7 / 10 * R.val ≤ q.val ^ 2 := by
    have h3 : (49 : ℝ) / 64 ≤ (1 - 2 * u) ^ 2 := by nlinarith
    have h4 : 15 / 16 * R.val ≤ S.val := by
      have : 15 / 16 * (p.val + R.val) ≤ (1 - u) * (p.val + R.val) := mul_le_mul_of_nonneg_right (by linarith) (by linarith)
      linarith
    have h5 : 49 / 64 * S.val ≤ (1 - 2 * u) ^ 2 * S.val := mul_le_mul_of_nonneg_right h3 hS0.le
    linarith
  have hdfin : d.Finite := by
    rcases hfin with hfin | hfin
    · rw [hs] at hfin
      exact (mul_finite hfin).2
    · have hr := recip_rounds hqfin hq0.ne'
      rw [← hd] at hr
      have hlt : (q.val)⁻¹ < fmt.limit := by
        by_contra hc
        have h3 : 1 ≤ (q.val)⁻¹ := le_trans hlim1.le (not_lt.1 hc)
        have h6 : fmt.limit * q.val ≤ 1 := by
          have := mul_le_mul_of_nonneg_right (not_lt.1 hc) hq0.le
          rwa [inv_mul_cancel₀ hq0.ne'] at this
        have h7 : q.val ≤ 1 := (one_le_inv₀ hq0).1 h3
        have h8 : fmt.limit * q.val ^ 2 ≤ 1 := by
          calc fmt.limit * q.val ^ 2 = fmt.limit * q.val * q.val := by ring
            _ ≤ 1 * 1 := mul_le_mul h6 h7 hq0.le zero_le_one
            _ = 1 := one_mul _
        have h9 := mul_le_mul_of_nonneg_left hqR hlimp.le
        linarith
      have := inv_pos.2 hq0
      rcases hr with ⟨_, h, _⟩ | ⟨h, _⟩ | ⟨h, _⟩
      · exact h
      · linarith
      · linarith
  have hde : |d.val - (q.val)⁻¹| ≤ u * |(q.val)⁻¹| + η := by
    have := (recip_error hqfin (by rw [← hd]; exact hdfin)).2
    rwa [← hd, ← hu, ← hη] at this
  have hqi : 0 < (q.val)⁻¹ := inv_pos.2 hq0
  have hηq : η * q.val ≤ u := by
    by_contra hc
    have h1 : u < η * q.val := not_le.1 hc
    have h2 : u ^ 2 < (η * q.val) ^ 2 := pow_lt_pow_left₀ h1 hu0.le two_ne_zero
    have h3 : (η * q.val) ^ 2 ≤ η * (2 * (η * S.val)) := by
      rw [mul_pow]; nlinarith [sq_nonneg η]
    have h4 : η * (2 * (η * S.val)) ≤ η * u := mul_le_mul_of_nonneg_left (by
      have h6 : 0 < η * S.val := mul_pos hη0 hS0
      have h7 := hS3
      rw [mul_comm S.val η] at h7
      linarith) hη0.le
    have h5 : η ≤ u := by
      have h6 : u * u ≤ 1 * u := mul_le_mul_of_nonneg_right (by linarith) hu0.le
      linarith
    have h6 : η * u ≤ u * u := mul_le_mul_of_nonneg_right h5 hu0.le
    rw [pow_two u] at h2
    linarith
  have hηqi : η ≤ u * (q.val)⁻¹ := by
    rw [← div_eq_mul_inv, le_div_iff₀ hq0]; exact hηq
  rw [abs_of_pos hqi, abs_le] at hde
  have hd2 : d.val ≤ (1 + 2 * u) * (q.val)⁻¹ := by linarith
  have hd1 : (1 - 2 * u) * (q.val)⁻¹ ≤ d.val := by linarith
  have hd0 : 0 < d.val := lt_of_lt_of_le (mul_pos (by linarith) hqi) hd1
  -- the computed inverse of the innovation covariance
  have hz : (MDT.isum [] : Bin fmt).Nil := nil_isum fun _ h => absurd h (List.not_mem_nil)
  have h1 := add_nil (a := (1 : Bin fmt)) trivial hz
  have hd' : ((1 + MDT.isum []) * d + MDT.isum [] : Bin fmt).Is d.val := by
    have h3 := mul_rounds h1.1 hdfin
    rw [h1.2, one_val, one_mul] at h3
    have h4 := RoundsTo.exact h3 hdfin rfl
    have h5 := add_nil h4.1 hz
    exact ⟨h5.1, h5.2.trans h4.2⟩
  have hdd : 0 < d.val * d.val := mul_pos hd0 hd0
  have hsfin : s.Finite := by
    rcases hfin with hfin | hfin
    · exact hfin
    · have hr := mul_rounds hd'.1 hdfin
      rw [hd'.2, ← hs] at hr
      have h3 : d.val * q.val ≤ 1 + 2 * u := by
        calc d.val * q.val ≤ (1 + 2 * u) * (q.val)⁻¹ * q.val := mul_le_mul_of_nonneg_right hd2 hq0.le
          _ = 1 + 2 * u := by rw [mul_assoc, inv_mul_cancel₀ hq0.ne', mul_one]
      have h4 : d.val * d.val * q.val ^ 2 ≤ 81 / 64 := by
        calc d.val * d.val * q.val ^ 2 = (d.val * q.val) ^ 2 := by ring
          _ ≤ (1 + 2 * u) ^ 2 := pow_le_pow_left₀ (mul_nonneg hd0.le hq0.le) h3 2
          _ ≤ (1 + 2 * (1 / 16)) ^ 2 := pow_le_pow_left₀ (by linarith) (by linarith) 2
          _ = 81 / 64 := by norm_num
      have h5 : d.val * d.val * (7 / 10 * R.val) ≤ 81 / 64 := le_trans (mul_le_mul_of_nonneg_left hqR hdd.le) h4
      have hlt : d.val * d.val < fmt.limit := by
        by_contra hc
        have h6 : fmt.limit * (7 / 10 * R.val) ≤ d.val * d.val * (7 / 10 * R.val) :=
          mul_le_mul_of_nonneg_right (not_lt.1 hc) (by linarith)
        linarith
      rcases hr with ⟨_, h, _⟩ | ⟨h, _⟩ | ⟨h, _⟩
      · exact h
      · linarith
      · linarith
  have hse : |s.val - d.val * d.val| ≤ u * |d.val * d.val| + η := by
    have := mul_error (a := (1 + MDT.isum []) * d + MDT.isum []) (b := d) (by rw [← hs]; exact hsfin)
    rwa [← hs, hd'.2, ← hu, ← hη] at this
  have hηd : η ≤ u * (d.val * d.val) := by
    have h3 : (1 - 2 * u) ≤ d.val * q.val := by
      calc 1 - 2 * u = (1 - 2 * u) * (q.val)⁻¹ * q.val := by rw [mul_assoc, inv_mul_cancel₀ hq0.ne', mul_one]
        _ ≤ d.val * q.val := mul_le_mul_of_nonneg_right hd1 hq0.le
    have h4 : (1 - 2 * u) ^ 2 ≤ d.val * d.val * q.val ^ 2 := by
      calc (1 - 2 * u) ^ 2 ≤ (d.val * q.val) ^ 2 := pow_le_pow_left₀ (by linarith) h3 2
        _ = _ := by ring
    have h5 : (1 : ℝ) / 2 ≤ (1 - 2 * u) ^ 2 := by nlinarith
    have h6 : 1 / 2 ≤ d.val * d.val * (2 * S.val) := by
      calc (1 : ℝ) / 2 ≤ d.val * d.val * q.val ^ 2 := le_trans h5 h4
        _ ≤ _ := mul_le_mul_of_nonneg_left hqS hdd.le
    have h7 : η * (1 / 2) ≤ η * (d.val * d.val * (2 * S.val)) := mul_le_mul_of_nonneg_left h6 hη0.le
    have h8 : d.val * d.val * (4 * (S.val * η)) ≤ d.val * d.val * u := mul_le_mul_of_nonneg_left hS3 hdd.le
    linarith
  rw [abs_of_pos hdd, abs_le] at hse
  have hS4 : S.val ≤ (1 + u) * (p.val + R.val) := by linarith
  refine ⟨hsfin, ?_, real_gain hp0 hR0 hu0 hu16 (by rw [hu]; exact h12) hS1 hq1 hd2 hd0.le (by linarith), by
    rw [← hu]
    exact ⟨real_gain_lower hu0 hu16 hS0 hS4 hq0 hq2 hd1 (by linarith), real_gain_upper hu0 hu16 (by linarith) hS1 hq1 hd2 hd0.le (by linarith)⟩⟩
  have : u * (d.val * d.val) ≤ 1 / 16 * (d.val * d.val) := mul_le_mul_of_nonneg_right hu16 hdd.le
  linarith

/-- The gain with which a directly measured state is corrected is at most 1 if the measurement is not too precise. -/
theorem gain_le {p R s0 S q d s : Bin fmt} (h4 : 4 ≤ fmt.prec) (h2 : 2 * fmt.prec ≤ fmt.frac) (hf : 2 * fmt.frac ≤ fmt.top + fmt.prec)
    (hp0 : 0 ≤ p.val) (hR0 : 0 < R.val) (h12 : 12 * (1 / 2 ^ fmt.prec) * (p.val + R.val) ≤ R.val)
    (hbig : p.val + R.val ≤ 2 ^ fmt.frac / 2 ^ (fmt.prec + 2)) (hs0 : s0.Is p.val) (hS : S = s0 + R) (hq : q = S.sqrt) (hd : d = q.recip)
    (hs : s = ((1 + MDT.isum []) * d + MDT.isum []) * d) (hfin : s.Finite ∨ 2 < R.val * fmt.limit) :
    s.Finite ∧ 0 ≤ s.val ∧ p.val * s.val ≤ 1 ∧ 1 - 12 * (1 / 2 ^ fmt.prec) ≤ s.val * (p.val + R.val) := by
  obtain ⟨k1, k2, k3, k4, _⟩ := gain_bounds h4 h2 hf hp0 hR0 h12 hbig hs0 hS hq hd hs hfin
  exact ⟨k1, k2, k3, k4⟩

theorem rounds_fin {x : ℝ} {r y : Bin fmt} (h : RoundsTo x r) (hy : y.Finite) (hx : |x| ≤ |y.val|) : r.Finite := by
  have := abs_lt_limit hy
  have h2 := abs_le.1 hx
  rcases h with ⟨_, h, _⟩ | ⟨h, _⟩ | ⟨h, _⟩
  · exact h
  · linarith
  · linarith

/-- The variance of the measured state after the correction. -/
theorem variance_bounds {p c c' s : Bin fmt} (hp0 : 0 ≤ p.val) (hp : p.Finite) (hc : c.Is p.val) (hc' : c'.Is p.val) (h4 : s.Finite)
    (hs0 : 0 ≤ s.val) (hs : p.val * s.val ≤ 1) :
    (p - (0 + (0 + c * s) * c')).Finite ∧
    0 ≤ (p - (0 + (0 + c * s) * c')).val ∧ (p - (0 + (0 + c * s) * c')).val ≤ p.val := by
  have hps : 0 ≤ p.val * s.val := mul_nonneg hp0 hs0
  have hcr := mul_rounds hc.1 h4
  rw [hc.2] at hcr
  have h3 : (c * s).Finite := rounds_fin hcr (y := 1) trivial (by rw [one_val, abs_one, abs_of_nonneg hps]; exact hs)
  have hK := nil_add nil_zero h3
  have hKle : (c * s).val ≤ 1 := by
    have := rounds_le_fin hcr h3 (y := 1) trivial (by rw [one_val]; exact hs)
    rwa [one_val] at this
  have hK0 : 0 ≤ (c * s).val := by
    have := rounds_ge_fin hcr h3 (y := 0) trivial (by rw [zero_val]; exact hps)
    rwa [zero_val] at this
  have hTr := mul_rounds hK.1 hc'.1
  rw [hK.2, hc'.2] at hTr
  have hTle : (c * s).val * p.val ≤ p.val := by nlinarith
  have hTge : 0 ≤ (c * s).val * p.val := mul_nonneg hK0 hp0
  have h1 : ((0 + c * s) * c').Finite := rounds_fin hTr hp (by rw [abs_of_nonneg hTge, abs_of_nonneg hp0]; exact hTle)
  have hT := nil_add nil_zero h1
  have hT1 : ((0 + c * s) * c').val ≤ p.val := rounds_le_fin hTr h1 hp hTle
  have hT0 : 0 ≤ ((0 + c * s) * c').val := by
    have := rounds_ge_fin hTr h1 (y := 0) trivial (by rw [zero_val]; exact hTge)
    rwa [zero_val] at this
  have hr := sub_rounds hp hT.1
  rw [hT.2] at hr
  have hfin : (p - (0 + (0 + c * s) * c')).Finite :=
    rounds_fin hr hp (by rw [abs_of_nonneg (by linarith), abs_of_nonneg hp0]; linarith)
  refine ⟨hfin, ?_, ?_⟩
  · have := rounds_ge_fin hr hfin (y := 0) trivial (by rw [zero_val]; linarith)
    rwa [zero_val] at this
  · exact rounds_le_fin hr hfin hp (by linarith)

end Bin

/-! ## The two element types -/

section Types
variable {n : Nat}

theorem Bin.form_le {fmt : Format} {P P' : Matrix (Fin n) (Fin n) (Bin fmt)} {H R} (hP : Spec.MirrorSymmetric P)
    (h : ScalarForm P P' H R) (i : Fin n) : P' i i = .nan ∨ MDT.le (P' i i) (P i i) = true := by
  obtain ⟨S, q, d, _, _, _, rfl⟩ := h
  have e : Spec.mulSeq P Hᵀ i 0 = Spec.mulSeq H P 0 i := by
    show Fin.foldl _ (fun acc k => acc + P i k * H 0 k) 0 = Fin.foldl _ (fun acc k => acc + H 0 k * P k i) 0
    congr 1
    funext acc k
    rw [Bin.mul_comm', hP i k]
  have := Bin.sub_le' (p := P i i) (Bin.sandwich_sg (Spec.mulSeq P Hᵀ i 0) (Bin.square_sg d))
  rw [Matrix.of_apply, ← e]
  exact this

namespace Watched
variable {f : Nat}

theorem mul_comm' (a b : Watched f) : a * b = b * a := by
  have e : a.num * b.num = b.num * a.num := by
    show FixedPoint.mk _ = FixedPoint.mk _
    rw [mul_comm a.num.bits.toInt]
  show Watched.mk (a.num * b.num) _ = Watched.mk (b.num * a.num) _
  rw [e, Bool.and_comm a.clean, mul_comm a.num.bits.toInt]

theorem mul_int {a b : Watched f} (h : (a * b).clean = true) : (a * b).num.bits.toInt = a.num.bits.toInt * b.num.bits.toInt / 2 ^ f :=
  toInt_of_inRange (mul_clean.1 h).2.2

theorem add_int {a b : Watched f} (h : (a + b).clean = true) : (a + b).num.bits.toInt = a.num.bits.toInt + b.num.bits.toInt := by
  have := toInt_of_inRange (add_clean.1 h).2.2
  rw [← this]
  show (a.num.bits + b.num.bits).toInt = _
  rw [BitVec.ofInt_add, BitVec.ofInt_toInt, BitVec.ofInt_toInt]

theorem sub_int {a b : Watched f} (h : (a - b).clean = true) : (a - b).num.bits.toInt = a.num.bits.toInt - b.num.bits.toInt := by
  have := toInt_of_inRange (sub_clean.1 h).2.2
  rw [← this]
  show (a.num.bits - b.num.bits).toInt = _
  rw [BitVec.toInt_sub, BitVec.toInt_ofInt]

theorem zero_int : (0 : Watched f).num.bits.toInt = 0 := BitVec.toInt_zero

theorem one_int (hf : 2 ≤ f) : (1 : Watched f).num.bits.toInt = 2 ^ f := by
  have h : InRange f (2 ^ f) := by
    have h1 : (2 : Int) ^ (2 * f) = 2 ^ f * 2 ^ f := by rw [two_mul, pow_add]
    have h2 : (4 : Int) ≤ 2 ^ f := by
      calc (4 : Int) = 2 ^ 2 := by norm_num
        _ ≤ 2 ^ f := pow_le_pow_right₀ (by norm_num) hf
    constructor <;> nlinarith
  have := toInt_of_inRange h
  rw [← this]
  show (BitVec.ofNat (2 * f) (2 ^ f)).toInt = _
  congr 1

theorem form_le (hf : 2 ≤ f) {P P' : Matrix (Fin n) (Fin n) (Watched f)} {H R} (hP : Spec.MirrorSymmetric P)
    (h : ScalarForm P P' H R) (i : Fin n) (hclean : (P' i i).clean = true) : MDT.le (P' i i) (P i i) = true := by
  obtain ⟨S, q, d, _, _, _, rfl⟩ := h
  have e : Spec.mulSeq P Hᵀ i 0 = Spec.mulSeq H P 0 i := by
    show Fin.foldl _ (fun acc k => acc + P i k * H 0 k) 0 = Fin.foldl _ (fun acc k => acc + H 0 k * P k i) 0
    congr 1
    funext acc k
    rw [mul_comm', hP i k]
  rw [Matrix.of_apply, ← e] at hclean ⊢
  generalize Spec.mulSeq P Hᵀ i 0 = c at hclean ⊢
  have hz : (MDT.isum [] : Watched f) = 0 := rfl
  rw [hz] at hclean ⊢
  have h2 : (0 : Int) < 2 ^ f := by positivity
  have k1 := (sub_clean.1 hclean).2.1
  have k2 := (add_clean.1 k1).2.1
  have k3 := (mul_clean.1 k2).1
  have k4 := (add_clean.1 k3).2.1
  have k5 := (mul_clean.1 k4).2.1
  have k6 := (mul_clean.1 k5).1
  have k7 := (add_clean.1 k6).1
  have k8 := (mul_clean.1 k7).1
  have e1 := sub_int hclean
  have e2 := add_int k1
  have e3 := mul_int k2
  have e4 := add_int k3
  have e5 := mul_int k4
  have e6 := mul_int k5
  have e7 := add_int k6
  have e8 := mul_int k7
  have e9 := add_int k8
  rw [zero_int, one_int hf, add_zero] at e9
  rw [e9, Int.mul_ediv_cancel_left _ h2.ne'] at e8
  rw [e8, zero_int, add_zero] at e7
  rw [e7] at e6
  rw [zero_int, zero_add] at e4 e2
  rw [e4, e5] at e3
  have s0 : 0 ≤ ((((1 + 0) * d + 0) * d : Watched f)).num.bits.toInt := by
    rw [e6]; exact Int.ediv_nonneg (mul_self_nonneg _) h2.le
  have t0 : 0 ≤ (0 + (0 + c * (((1 + 0) * d + 0) * d)) * c : Watched f).num.bits.toInt := by
    rw [e2, e3]
    refine Int.ediv_nonneg ?_ h2.le
    rcases le_total 0 c.num.bits.toInt with hc | hc
    · exact mul_nonneg (Int.ediv_nonneg (mul_nonneg hc s0) h2.le) hc
    · refine mul_nonneg_of_nonpos_of_nonpos ?_ hc
      refine le_trans (Int.ediv_le_ediv h2 (mul_nonpos_of_nonpos_of_nonneg hc s0)) ?_
      rw [Int.zero_ediv]
  show decide _ = true
  rw [decide_eq_true_iff, e1]
  linarith

end Watched
end Types

section Direct
variable {n : Nat} {fmt : Format}

theorem direct_form {P P' : Matrix (Fin n) (Fin n) (Bin fmt)} {j : Fin n} {R} (h4 : 4 ≤ fmt.prec) (h2 : 2 * fmt.prec ≤ fmt.frac)
    (hF : 2 * fmt.frac ≤ fmt.top + fmt.prec) (hPf : ∀ i k, (P i k).Finite) (hp0 : 0 ≤ (P j j).val) (hR0 : 0 < (R 0 0).val)
    (h12 : 12 * (1 / 2 ^ fmt.prec) * ((P j j).val + (R 0 0).val) ≤ (R 0 0).val)
    (hbig : (P j j).val + (R 0 0).val ≤ 2 ^ fmt.frac / 2 ^ (fmt.prec + 2))
    (h : ScalarForm P P' (Spec.direct j) R) (hfin : (P' j j).Finite ∨ 2 < (R 0 0).val * fmt.limit) :
    (P' j j).Finite ∧ 0 ≤ (P' j j).val ∧ (P' j j).val ≤ (P j j).val := by
  obtain ⟨S, q, d, k1, k2, k3, rfl⟩ := h
  rw [Matrix.of_apply] at hfin ⊢
  have c1 : (Spec.mulSeq P (Spec.direct j)ᵀ j 0).Is (P j j).val := Bin.mul_direct fun k => hPf j k
  have c2 : (Spec.mulSeq (Spec.direct j) P 0 j).Is (P j j).val := Bin.direct_mul fun k => hPf k j
  have c3 : (Spec.mulSeq (Spec.mulSeq (Spec.direct j) P) (Spec.direct j)ᵀ 0 0).Is (P j j).val := by
    have := Bin.mul_direct (j := j) (B := Spec.mulSeq (Spec.direct j) P) (l := 0) fun k =>
      (Bin.direct_mul (j := j) (B := P) (l := k) fun i => hPf i k).1
    exact ⟨this.1, this.2.trans c2.2⟩
  have hs := hfin.imp_left fun hfin =>
    (Bin.mul_finite (Bin.add_finite (Bin.mul_finite (Bin.add_finite (Bin.sub_finite hfin).2).2).1).2).2
  have hSr := Bin.add_rounds c3.1 (Bin.fin_of_pos hR0)
  rw [c3.2, ← k1] at hSr
  have hSfin : S.Finite ∧ (0 : ℝ) < S.val := by
    have hlim := Bin.limit_gt hF hbig
    have hfinS : S.Finite := by
      rcases hSr with ⟨_, h, _⟩ | ⟨h, _⟩ | ⟨h, _⟩
      · exact h
      · linarith
      · linarith
    refine ⟨hfinS, ?_⟩
    have := Bin.rounds_ge_fin hSr hfinS (Bin.fin_of_pos hR0) (by linarith)
    linarith
  have hle : MDT.le S 0 = false := by
    rw [Bool.eq_false_iff]
    intro hc
    have := (Bin.le_iff hSfin.1 (b := 0) trivial).1 hc
    rw [Bin.zero_val] at this
    linarith [hSfin.2]
  have hq : q = S.sqrt := (Except.ok.inj (k2 hle)).symm
  have hd : d = q.recip := (Except.ok.inj k3).symm
  obtain ⟨g0, g1, g2, _⟩ := Bin.gain_le h4 h2 hF hp0 hR0 h12 hbig c3 k1 hq hd rfl hs
  exact Bin.variance_bounds hp0 (hPf j j) c1 c2 g0 g1 g2

end Direct

/-! ## Averaging -/

section Averaging
variable {fmt : Format}

/-- A filter with one state that is measured directly, with a variance of at most `p0`, and whose variance the model does not enlarge. -/
structure World.Averages (w : World 1 (Bin fmt)) (p0 : ℝ) : Prop where
  kf : ∃ x A P Q, w.kf.Reps x A P Q ∧ (A 0 0).Finite ∧ |(A 0 0).val| ≤ 1 ∧ (Q 0 0).Nil ∧ (P 0 0).Finite ∧ 0 ≤ (P 0 0).val ∧
    (P 0 0).val ≤ p0
  obs : ∀ s ∈ w.obs, ∃ (o : RegularObservation 1 1 (Bin fmt)) (z : _) (R : _), s = ⟨1, o⟩ ∧ o.Reps (Spec.direct 0) z R ∧
    Spec.NoisyEnough fmt p0 (R 0 0).val

theorem predict_variance {a p q : Bin fmt} (ha : a.Finite) (ha1 : |a.val| ≤ 1) (hq : q.Nil) (hp : p.Finite) (hp0 : 0 ≤ p.val) :
    (0 + (0 + a * p) * a + q).Finite ∧ 0 ≤ (0 + (0 + a * p) * a + q).val ∧ (0 + (0 + a * p) * a + q).val ≤ p.val := by
  have h1 := Bin.mul_rounds ha hp
  have hab : |a.val * p.val| ≤ p.val := by
    rw [abs_mul, abs_of_nonneg hp0]
    calc |a.val| * p.val ≤ 1 * p.val := mul_le_mul_of_nonneg_right ha1 hp0
      _ = p.val := one_mul _
  have h2 : (a * p).Finite := Bin.rounds_fin h1 hp (by rwa [abs_of_nonneg hp0])
  have h3 := Bin.nil_add Bin.nil_zero h2
  have hup : (a * p).val ≤ p.val := Bin.rounds_le_fin h1 h2 hp (abs_le.1 hab).2
  have hlo : -p.val ≤ (a * p).val := by
    have := Bin.rounds_ge_fin h1 h2 (y := -p) (Bin.neg_finite.2 hp) (by rw [Bin.neg_val]; exact (abs_le.1 hab).1)
    rwa [Bin.neg_val] at this
  have hsg : 0 ≤ (a * p).val * a.val := by
    rcases le_total 0 a.val with h | h
    · refine mul_nonneg ?_ h
      have := Bin.rounds_ge_fin h1 h2 (y := 0) trivial (by rw [Bin.zero_val]; exact mul_nonneg h hp0)
      rwa [Bin.zero_val] at this
    · refine mul_nonneg_of_nonpos_of_nonpos ?_ h
      have := Bin.rounds_le_fin h1 h2 (y := 0) trivial (by rw [Bin.zero_val]; exact mul_nonpos_of_nonpos_of_nonneg h hp0)
      rwa [Bin.zero_val] at this
  have h4 := Bin.mul_rounds h3.1 ha
  rw [h3.2] at h4
  have hle : (a * p).val * a.val ≤ p.val := by
    refine le_trans (le_abs_self _) ?_
    rw [abs_mul]
    calc |(a * p).val| * |a.val| ≤ p.val * 1 := mul_le_mul (abs_le.2 ⟨hlo, hup⟩) ha1 (abs_nonneg _) hp0
      _ = p.val := mul_one _
  have h5 : ((0 + a * p) * a).Finite := Bin.rounds_fin h4 hp (by rw [abs_of_nonneg hsg, abs_of_nonneg hp0]; exact hle)
  have h6 := Bin.nil_add Bin.nil_zero h5
  have h7 := Bin.add_nil h6.1 hq
  refine ⟨h7.1, ?_, ?_⟩
  · rw [h7.2, h6.2]
    have := Bin.rounds_ge_fin h4 h5 (y := 0) trivial (by rw [Bin.zero_val]; exact hsg)
    rwa [Bin.zero_val] at this
  · rw [h7.2, h6.2]
    exact Bin.rounds_le_fin h4 h5 hp hle

theorem averages_step (bld : Build) (h4 : 4 ≤ fmt.prec) (h2 : 2 * fmt.prec ≤ fmt.frac) (hF : 2 * fmt.frac ≤ fmt.top + fmt.prec)
    {w w' : World 1 (Bin fmt)} {p0 : ℝ} (hw : w.Averages p0) {op : Op (Bin fmt)} (hop : op.WellFormed w) (hm : op.KeepsModel)
    (h : w.step bld op = .ok w') : w'.Averages p0 := by
  obtain ⟨⟨x, A, P, Q, hk, ha, ha1, hq, hp, hp0, hpp⟩, hobs⟩ := hw
  have hkv : w.kf.Valid := ⟨hk.x.valid, hk.A.valid, hk.P.valid, hk.Q.valid, hk.predictedX, hk.tempP⟩
  cases op with
  | predict =>
    obtain ⟨f', h1, h3, h5, h6⟩ := predict_any Nat.one_pos hkv hk.x hk.A hk.P hk.Q
    unfold World.step at h
    simp only [h1, res_bind_ok] at h
    cases h
    have hv := predict_variance ha ha1 hq hp hp0
    have e : (Spec.mulSeq (Spec.mulSeq A P) A.transpose + Q) 0 0 = 0 + (0 + A 0 0 * P 0 0) * A 0 0 + Q 0 0 := by
      show Spec.mulSeq (Spec.mulSeq A P) A.transpose 0 0 + Q 0 0 = _
      rw [mulSeq_one, mulSeq_one]
      rfl
    refine ⟨⟨_, A, _, Q, ⟨h3, h6.A ▸ hk.A, h5, h6.Q ▸ hk.Q, h6.predictedX.valid hk.predictedX, h6.tempP.valid hk.tempP⟩,
      ha, ha1, hq, ?_, ?_, ?_⟩, hobs⟩
    · rw [e]; exact hv.1
    · rw [e]; exact hv.2.1
    · rw [e]; exact hv.2.2.trans hpp
  | correct i =>
    have hi : i < w.obs.length := hop
    obtain ⟨o, z, R, e, ho, hR⟩ := hobs _ (List.getElem_mem hi)
    unfold World.step at h
    have hg : w.obs[i]? = some ⟨1, o⟩ := by rw [List.getElem?_eq_getElem hi, e]
    simp only [hg] at h
    obtain ⟨⟨f', o'⟩, h1, h⟩ := bind_ok h
    cases h
    obtain ⟨P', k1, k2⟩ := scalar_correct bld Nat.one_pos hk ho h1
    obtain ⟨r1, r2, r3, r4⟩ := hR
    have hu : (0 : ℝ) ≤ 12 * (1 / 2 ^ fmt.prec) := by positivity
    have hPf : ∀ i k, (P i k).Finite := by
      intro i k
      rw [Subsingleton.elim i 0, Subsingleton.elim k 0]; exact hp
    obtain ⟨b1, b2, b3⟩ := direct_form h4 h2 hF hPf hp0 r1
      (le_trans (mul_le_mul_of_nonneg_left (by linarith) hu) r2) (by linarith) k2 (.inr r4)
    have hfr : ∃ r, o.correct bld w.kf.x w.kf.P = .ok r ∧ f' = { w.kf with x := r.2.1, P := r.2.2 } ∧ o' = r.1 := by
      unfold RegularKalman.correct at h1
      obtain ⟨r, q1, q2⟩ := bind_ok h1
      cases q2
      exact ⟨r, q1, rfl, rfl⟩
    obtain ⟨r, q1, rfl, rfl⟩ := hfr
    rcases correct_safe bld Nat.one_pos Nat.one_pos ho.valid hkv.x hkv.P with ⟨e', q2, _⟩ | ⟨r', q2, q3, q4, q5⟩
    · rw [q1] at q2; cases q2
    rw [q1] at q2; cases q2
    have hxv : r.2.1.Valid := q4.valid hkv.x
    have hov := q3.valid ho.valid
    refine ⟨⟨_, A, P', Q, ⟨hxv.repsV, hk.A, k1, hk.Q, hk.predictedX, hk.tempP⟩, ha, ha1, hq, b1, b2, b3.trans hpp⟩, fun s hs => ?_⟩
    rcases List.mem_or_eq_of_mem_set hs with hs | rfl
    · exact hobs s hs
    · exact ⟨r.1, z, R, rfl, ⟨q3.H ▸ ho.H, q3.z ▸ ho.z, q3.R ▸ ho.R, hov.y, hov.S, hov.K, hov.tempSInv, hov.tempHP, hov.tempPHt, hov.tempKHP⟩,
        r1, r2, r3, r4⟩
  | setX v =>
    unfold World.step at h
    obtain ⟨x', h1, h⟩ := bind_ok h
    cases h
    have hl : x'.data.length = w.kf.x.data.length := by
      unfold Mat.copyFromSlice at h1
      split at h1
      · cases h1; exact hop
      · cases h1
    have hxv : x'.Valid := (show 1 * 1 ≤ w.kf.x.data.length from hkv.x).trans_eq hl.symm
    exact ⟨⟨_, A, P, Q, ⟨hxv.repsV, hk.A, hk.P, hk.Q, hk.predictedX, hk.tempP⟩, ha, ha1, hq, hp, hp0, hpp⟩, hobs⟩
  | setZ i v =>
    unfold World.step at h
    dsimp only at h
    unfold World.withObs at h
    cases hg : w.obs[i]? with
    | none => rw [hg] at h; cases h
    | some s =>
      obtain ⟨o, z, R, rfl, ho, hR⟩ := hobs s (List.mem_of_getElem? hg)
      simp only [hg] at h
      obtain ⟨o', h1, h⟩ := bind_ok h
      obtain ⟨z', h3, h1⟩ := bind_ok h1
      cases h1
      cases h
      have hl : z'.data.length = o.z.data.length := by
        unfold Mat.copyFromSlice at h3
        split at h3
        · cases h3
          have : (w.obs[i]?.map fun o => o.2.z.data.length) = some v.length := hop
          rw [hg] at this
          exact (Option.some.inj this).symm
        · cases h3
      have hzv : z'.Valid := (show 1 * 1 ≤ o.z.data.length from ho.z.valid).trans_eq hl.symm
      refine ⟨⟨x, A, P, Q, hk, ha, ha1, hq, hp, hp0, hpp⟩, fun s hs => ?_⟩
      rcases List.mem_or_eq_of_mem_set hs with hs | rfl
      · exact hobs s hs
      · exact ⟨_, _, R, rfl, ⟨ho.H, hzv.repsV, ho.R, ho.y, ho.S, ho.K, ho.tempSInv, ho.tempHP, ho.tempPHt, ho.tempKHP⟩, hR⟩
  | predictTuned _ => exact hm.elim
  | control _ => exact hm.elim
  | setA _ => exact hm.elim
  | setP _ => exact hm.elim
  | setQ _ => exact hm.elim
  | setU _ _ => exact hm.elim
  | setB _ _ => exact hm.elim
  | setQc _ _ => exact hm.elim
  | setH _ _ => exact hm.elim
  | setR _ _ => exact hm.elim

theorem averages_run (bld : Build) (h4 : 4 ≤ fmt.prec) (h2 : 2 * fmt.prec ≤ fmt.frac) (hF : 2 * fmt.frac ≤ fmt.top + fmt.prec)
    {w w' : World 1 (Bin fmt)} {p0 : ℝ} (hv : w.Valid) (hw : w.Averages p0) {ops : List (Op (Bin fmt))}
    (hop : ∀ op ∈ ops, op.WellFormed w) (hm : ∀ op ∈ ops, op.KeepsModel) (h : w.run bld ops = .ok w') : w'.Averages p0 := by
  induction ops generalizing w with
  | nil => cases h; exact hw
  | cons op ops ih =>
    obtain ⟨w1, h1, h3⟩ := bind_ok (show (w.step bld op >>= fun v => v.run bld ops) = .ok w' from h)
    obtain ⟨hv1, hs1⟩ := step_keeps hv (hop op List.mem_cons_self) h1
    exact ih hv1 (averages_step bld h4 h2 hF hw (hop op List.mem_cons_self) (hm op List.mem_cons_self) h1)
      (fun o ho => Op.WellFormed.congr hs1 (hop o (List.mem_cons_of_mem _ ho))) (fun o ho => hm o (List.mem_cons_of_mem _ ho)) h3

end Averaging

end Minikalman
