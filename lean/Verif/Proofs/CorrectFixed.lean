import Verif.Spec.CorrectFixed
import Verif.Proofs.FixedRange
import Verif.Proofs.Variance

/-! # Ranges of a fixed point correction with one measured component -/

set_option linter.unusedSectionVars false

namespace Minikalman

open Matrix

section Any
variable {T : Type} {n : Nat} [Zero T] [One T] [Add T] [Sub T] [Mul T] [Neg T] [MDT T]

/-- The inverse of the innovation covariance as computed from the reciprocal `d` of its root. -/
def scalarInverse (d : T) : T := ((1 + MDT.isum []) * d + MDT.isum []) * d

/-- The entries of the gain as computed. -/
def scalarGain (P : Matrix (Fin n) (Fin n) T) (H : Matrix (Fin 1) (Fin n) T) (d : T) (i : Fin n) : T :=
  0 + Spec.mulSeq P Hᵀ i 0 * scalarInverse d

/-- What a correction with a single measured component computes, in any arithmetic. -/
theorem scalar_update_full (bld : Build) {o : RegularObservation n 1 T} {x : Mat n 1 T} {P : Mat n n T} {H R : Matrix _ _ T} {Pm X Y}
    (ho : o.Valid) (hH : o.H.Reps H) (hR : o.R.Reps R) (hP : P.Reps Pm) (hX : x.RepsV X) (hY : o.y.RepsV Y)
    (hle : MDT.le (Spec.mulSeq (Spec.mulSeq H Pm) Hᵀ 0 0 + R 0 0) 0 = false) :
    Part (o.updateWithInnovation bld x P) (fun r => ∃ q d : T,
      MDT.squareRoot (Spec.mulSeq (Spec.mulSeq H Pm) Hᵀ 0 0 + R 0 0) = .ok q ∧ MDT.recip q = .ok d ∧
      r.1.K.Reps (Matrix.of fun i _ => scalarGain Pm H d i) ∧
      r.2.1.RepsV (fun i => X i + scalarGain Pm H d i * Y 0) ∧
      r.2.2.Reps (Matrix.of fun i j => Pm i j - (0 + scalarGain Pm H d i * Spec.mulSeq H Pm 0 j))) := by
  intro r hr
  obtain ⟨_, s, b, W, h1, h2, h3, h4, h5, h6, h7, h8⟩ := update_any bld Nat.one_pos ho hH hR hP hX hY r hr
  obtain ⟨q, d, hq, hd, hW⟩ : ∃ q d : T, r.1.S.Reps (Matrix.of fun _ _ => q) ∧ MDT.recip q = .ok d ∧
      W 0 0 = scalarInverse d := by
    have hL := h3.reps
    obtain ⟨M, X', i1, i2, i3, i4⟩ := invert_any_matrix Nat.one_pos hL.lower ho.tempSInv h4
    obtain rfl := Mat.Reps.unique i1 h5
    obtain ⟨d, d1, d2⟩ := i3.entry 0 0 le_rfl
    obtain ⟨d', d3, d4⟩ := i4.entry 0 0 le_rfl
    rw [d1] at d3
    cases d3
    refine ⟨_, d, ?_, d1, ?_⟩
    · intro i j
      rw [Subsingleton.elim i 0, Subsingleton.elim j 0]
      exact hL 0 0
    · rw [d4, d2]
      rfl
  have hK : Spec.mulSeq (Spec.mulSeq Pm Hᵀ) W = Matrix.of fun i _ => scalarGain Pm H d i := by
    funext i j
    rw [Subsingleton.elim j 0, mulSeq_one, hW]
    rfl
  rw [hK] at h6 h7 h8
  refine ⟨q, d, ?_, hd, h6, ?_, ?_⟩
  · cases b with
    | true =>
      obtain ⟨L, l1, _, _, l2, _⟩ := chol_any_reps bld h1.valid h1.upper h2
      have hLq : L 0 0 = q := congrFun (congrFun (Mat.Reps.unique l1 hq) 0) 0
      have := (l2 0).2
      rw [hLq] at this
      exact this
    | false =>
      obtain ⟨L, p, _, _, l2, _⟩ := chol_any_fail_reps bld h1.valid h1.upper h2
      rw [Subsingleton.elim p 0] at l2
      have : MDT.le (Spec.mulSeq (Spec.mulSeq H Pm) Hᵀ 0 0 + R 0 0) 0 = true := l2
      rw [hle] at this
      cases this
  · exact h7
  · intro i j
    have := h8 i j
    rw [this]
    congr 1

end Any

/-- Clean, and up to `e` equal to `v`. -/
def Fit {f : Nat} (a : Watched f) (v e : ℝ) : Prop := a.clean = true ∧ |a.num.val - v| ≤ e

namespace FixedPoint
variable {f n : Nat}

theorem Fit.mul (hf : 1 ≤ f) {a b : Watched f} {v w e g A B : ℝ} (ha : Fit a v e) (hb : Fit b w g) (hA : |a.num.val| ≤ A)
    (hB : |b.num.val| ≤ B) (h : A * B < lim f) :
    Fit (a * b) (v * w) (A * g + e * |w| + res f) ∧ |(a * b).num.val| ≤ A * B + res f := by
  have hA0 : 0 ≤ A := (abs_nonneg _).trans hA
  have hm : |a.num.val * b.num.val| ≤ A * B := by
    rw [abs_mul]; exact mul_le_mul hA hB (abs_nonneg _) hA0
  obtain ⟨m1, m2⟩ := Watched.mul_fits hf ha.1 hb.1 (hm.trans_lt h)
  have hr : (1 : ℝ) / 2 ^ f = res f := rfl
  rw [hr] at m2
  refine ⟨⟨m1, ?_⟩, ?_⟩
  · have e1 : (a * b).num.val - v * w =
        ((a * b).num.val - a.num.val * b.num.val) + (a.num.val * (b.num.val - w) + (a.num.val - v) * w) := by ring
    have e2 : |a.num.val * (b.num.val - w)| ≤ A * g := by
      rw [abs_mul]; exact mul_le_mul hA hb.2 (abs_nonneg _) hA0
    have e3 : |(a.num.val - v) * w| ≤ e * |w| := by
      rw [abs_mul]; exact mul_le_mul_of_nonneg_right ha.2 (abs_nonneg _)
    rw [e1]
    have := abs_add_le ((a * b).num.val - a.num.val * b.num.val) (a.num.val * (b.num.val - w) + (a.num.val - v) * w)
    have := abs_add_le (a.num.val * (b.num.val - w)) ((a.num.val - v) * w)
    linarith
  · exact abs_le_of_err m2 hm

theorem Watched.ext_clean {a b : Watched f} (h : a.num = b.num) (ha : a.clean = true) (hb : b.clean = true) : a = b := by
  cases a; cases b
  obtain rfl := h
  obtain rfl := ha
  obtain rfl := hb
  rfl

theorem zero_add_clean {a : Watched f} (ha : a.clean = true) : (0 : Watched f) + a = a := by
  have h0 : (0 : Watched f).num.bits.toInt + a.num.bits.toInt = a.num.bits.toInt := by
    show (0 : FixedPoint f).bits.toInt + _ = _
    rw [toInt_zero, Int.zero_add]
  refine Watched.ext_clean ?_ (Watched.add_clean.2 ⟨rfl, ha, by rw [h0]; exact inRange_toInt _⟩) ha
  show (⟨0 + a.num.bits⟩ : FixedPoint f) = a.num
  cases h : a.num; simp

theorem add_zero_clean {a : Watched f} (ha : a.clean = true) : a + (0 : Watched f) = a := by
  have h0 : a.num.bits.toInt + (0 : Watched f).num.bits.toInt = a.num.bits.toInt := by
    show _ + (0 : FixedPoint f).bits.toInt = _
    rw [toInt_zero, Int.add_zero]
  refine Watched.ext_clean ?_ (Watched.add_clean.2 ⟨ha, rfl, by rw [h0]; exact inRange_toInt _⟩) ha
  show (⟨a.num.bits + 0⟩ : FixedPoint f) = a.num
  cases h : a.num; simp

theorem one_mul_clean (hf : 2 ≤ f) {a : Watched f} (ha : a.clean = true) : (1 : Watched f) * a = a := by
  have h0 : (1 : Watched f).num.bits.toInt * a.num.bits.toInt / 2 ^ f = a.num.bits.toInt := by
    show (1 : FixedPoint f).bits.toInt * _ / _ = _
    rw [toInt_one hf]
    exact Int.mul_ediv_cancel_left _ (by positivity)
  refine Watched.ext_clean ?_ (Watched.mul_clean.2 ⟨rfl, ha, by rw [h0]; exact inRange_toInt _⟩) ha
  show (⟨BitVec.ofInt (2 * f) ((1 : Watched f).num.bits.toInt * a.num.bits.toInt / 2 ^ f)⟩ : FixedPoint f) = a.num
  rw [h0]
  cases h : a.num; simp

theorem scalarInverse_clean (hf : 2 ≤ f) {d : Watched f} (hd : d.clean = true) : scalarInverse d = d * d := by
  show (((1 : Watched f) + 0) * d + 0) * d = d * d
  rw [add_zero_clean (a := 1) rfl, one_mul_clean hf hd, add_zero_clean hd]

theorem recip_inRange (hb : 2 ≤ f) {x d : FixedPoint f} (h : MDT.recip x = .ok d) (hx : 1 < |x.val| * lim f) :
    InRange f (Int.tdiv (2 ^ (2 * f)) x.bits.toInt) := by
  obtain ⟨h0, _⟩ := recip_ok h
  have hp : (0 : ℝ) < 2 ^ f := by positivity
  have hpow : (2 : Int) ^ (2 * f) = 2 * 2 ^ (2 * f - 1) := by rw [← pow_succ', show 2 * f - 1 + 1 = 2 * f by omega]
  have h2 : 2 < |x.bits.toInt| := by
    unfold val lim at hx
    rw [abs_div, abs_of_pos hp, div_mul_div_comm, mul_comm (2 ^ f : ℝ) 2, mul_div_mul_right _ _ hp.ne'] at hx
    have : (2 : ℝ) < |(x.bits.toInt : ℝ)| := by linarith
    exact_mod_cast this
  have hn : (Int.tdiv (2 ^ (2 * f)) x.bits.toInt).natAbs = 2 ^ (2 * f) / x.bits.toInt.natAbs := by
    rw [Int.natAbs_tdiv]
    congr 1
  have h3 : 2 * (2 ^ (2 * f) / x.bits.toInt.natAbs) < 2 ^ (2 * f) := by
    have hk : 3 ≤ x.bits.toInt.natAbs := by
      rw [Int.abs_eq_natAbs] at h2; omega
    have hle : 2 ^ (2 * f) / x.bits.toInt.natAbs ≤ 2 ^ (2 * f) / 3 := Nat.div_le_div_left hk (by norm_num)
    have : 0 < 2 ^ (2 * f) := by positivity
    omega
  have h3' : 2 * |Int.tdiv (2 ^ (2 * f)) x.bits.toInt| < 2 ^ (2 * f) := by
    rw [Int.abs_eq_natAbs, hn]; exact_mod_cast h3
  unfold InRange
  have := abs_lt.1 (show |Int.tdiv (2 ^ (2 * f)) x.bits.toInt| < 2 ^ (2 * f) - |Int.tdiv (2 ^ (2 * f)) x.bits.toInt| by linarith)
  have q1 := neg_abs_le (Int.tdiv (2 ^ (2 * f)) x.bits.toInt)
  have q2 := le_abs_self (Int.tdiv (2 ^ (2 * f)) x.bits.toInt)
  constructor <;> linarith

/-- The inverse of the innovation variance. -/
theorem inverse_fit (hf : 2 ≤ f) {S q d : Watched f} {v E s : ℝ} (hS : Fit S v E) (hs : s + E ≤ v) (hroot : res f < √s)
    (hrec : 1 < (√s - res f) * lim f) (hinv : (1 / √s + rootErr f s) ^ 2 < lim f)
    (hq : MDT.squareRoot S = .ok q) (hd : MDT.recip q = .ok d) :
    Fit (scalarInverse d) (1 / v) (inverseErr f s E) ∧ 0 < s ∧ s ≤ v := by
  have hr : 0 < res f := res_pos
  have hr' : (1 : ℝ) / 2 ^ f = res f := rfl
  have hs0 : 0 < √s := hr.trans hroot
  have hsp : 0 < s := Real.sqrt_pos.1 hs0
  have hE : 0 ≤ E := (abs_nonneg _).trans hS.2
  have hv : s ≤ v := by linarith
  have hSs : s ≤ S.num.val := by have := (abs_le.1 hS.2).1; linarith
  obtain ⟨q', hq', rfl⟩ := Watched.map_ok hq
  obtain ⟨_, q1, q2⟩ := sqrt_err (by omega) hq'
  rw [hr'] at q2
  obtain ⟨d', hd', rfl⟩ := Watched.map_ok hd
  have hd' : MDT.recip q' = .ok d' := hd'
  have hle : √s ≤ √S.num.val := Real.sqrt_le_sqrt hSs
  obtain ⟨t, ht⟩ : ∃ t, t = √S.num.val := ⟨_, rfl⟩
  obtain ⟨a, ha⟩ : ∃ a, a = √s := ⟨_, rfl⟩
  have hss : a * a = s := by rw [ha]; exact Real.mul_self_sqrt hsp.le
  have htt : t * t = S.num.val := by rw [ht]; exact Real.mul_self_sqrt (hsp.le.trans hSs)
  unfold inverseErr
  rw [← ha] at hroot hrec hinv hs0 hle ⊢
  rw [← ht] at q1 q2 hle
  have hqa : a - res f < q'.val := by linarith
  have hq0 : 0 < q'.val := by linarith
  have hqr : 1 < |q'.val| * lim f := by
    rw [abs_of_pos hq0]
    refine hrec.trans_le (mul_le_mul_of_nonneg_right hqa.le ?_)
    unfold lim; positivity
  have hrange := recip_inRange hf hd' hqr
  have hde : |d'.val - (q'.val)⁻¹| ≤ res f := (recip_err hd' hrange).2
  have ht0 : 0 < t := hs0.trans_le hle
  have hdt : |d'.val - 1 / t| ≤ rootErr f s := by
    have e1 : |(q'.val)⁻¹ - 1 / t| ≤ res f / ((a - res f) * a) := by
      have e2 : (q'.val)⁻¹ - 1 / t = (t - q'.val) / (q'.val * t) := by field_simp
      rw [e2, abs_of_nonneg (div_nonneg (by linarith) (by positivity))]
      refine div_le_div₀ hr.le (by linarith) (mul_pos (by linarith) hs0) ?_
      exact mul_le_mul hqa.le hle hs0.le hq0.le
    have := abs_sub_le d'.val (q'.val)⁻¹ (1 / t)
    unfold rootErr
    rw [← ha]
    linarith
  have hta : 1 / t ≤ 1 / a := one_div_le_one_div_of_le hs0 hle
  have hre : 0 ≤ rootErr f s := (abs_nonneg _).trans hdt
  have hdabs : |d'.val| ≤ 1 / a + rootErr f s := by
    have : |1 / t| ≤ 1 / a := by rw [abs_of_pos (by positivity)]; exact hta
    exact abs_le_of_err hdt this
  have hclean : (⟨d', (S.clean && decide (InRange f (Nat.sqrt (S.num.bits.toInt.toNat * 2 ^ f)))) &&
      decide (InRange f (Int.tdiv (2 ^ (2 * f)) q'.bits.toInt))⟩ : Watched f).clean = true := by
    show (S.clean && decide _ && decide _) = true
    rw [hS.1, decide_eq_true (sqrt_inRange (by omega)), decide_eq_true hrange]
    rfl
  generalize hD : (⟨d', _⟩ : Watched f) = D at *
  have hDn : D.num = d' := by rw [← hD]
  rw [scalarInverse_clean hf hclean]
  have hdd : |D.num.val * D.num.val| ≤ (1 / a + rootErr f s) ^ 2 := by
    rw [hDn, abs_mul, sq]; exact mul_le_mul hdabs hdabs (abs_nonneg _) (by positivity)
  obtain ⟨m1, m2⟩ := Watched.mul_fits (by omega) hclean hclean (hdd.trans_lt hinv)
  rw [hr'] at m2
  refine ⟨⟨m1, ?_⟩, hsp, hv⟩
  have g1 : |d'.val * d'.val - 1 / S.num.val| ≤ rootErr f s * (2 / a + rootErr f s) := by
    have e1 : d'.val * d'.val - 1 / S.num.val = (d'.val - 1 / t) * (d'.val + 1 / t) := by
      rw [← htt]; field_simp; ring
    rw [e1, abs_mul]
    refine mul_le_mul hdt ?_ (abs_nonneg _) hre
    have : |1 / t| ≤ 1 / a := by rw [abs_of_pos (by positivity)]; exact hta
    have := abs_add_le d'.val (1 / t)
    have e2 : 2 / a = 1 / a + 1 / a := by ring
    rw [e2]
    linarith
  have g2 : |1 / S.num.val - 1 / v| ≤ E / s ^ 2 := by
    have hS0 : 0 < S.num.val := hsp.trans_le hSs
    have hv0 : 0 < v := hsp.trans_le hv
    have e1 : 1 / S.num.val - 1 / v = (v - S.num.val) / (S.num.val * v) := by field_simp
    rw [e1, abs_div, abs_of_pos (mul_pos hS0 hv0), abs_sub_comm, sq]
    exact div_le_div₀ hE hS.2 (mul_pos hsp hsp) (mul_le_mul hSs hv hsp.le hS0.le)
  rw [hDn] at m2
  have t1 := abs_sub_le (D * D).num.val (d'.val * d'.val) (1 / v)
  have t2 := abs_sub_le (d'.val * d'.val) (1 / S.num.val) (1 / v)
  linarith

section Step
variable {x : Fin n → FixedPoint f} {P : Matrix (Fin n) (Fin n) (FixedPoint f)}
  {H : Matrix (Fin 1) (Fin n) (FixedPoint f)} {z : Fin 1 → FixedPoint f} {R : Matrix (Fin 1) (Fin 1) (FixedPoint f)} {C Y s : ℝ}

theorem product_fit {U V : Nat} (hf : 2 ≤ f) {A : Matrix (Fin U) (Fin n) (FixedPoint f)} {B : Matrix (Fin n) (Fin V) (FixedPoint f)}
    {i j} {c : ℝ} (h1 : (absM A * absM B) i j ≤ c) (h2 : c + n * res f < lim f) :
    Fit (Spec.mulSeq (freshM A) (freshM B) i j) ((valM A * valM B) i j) (n * res f) ∧
      |(Spec.mulSeq (freshM A) (freshM B) i j).num.val| ≤ c + n * res f := by
  have hc := mul_clean (A := freshM A) (B := freshM B) (i := i) (j := j) (by omega) (fun _ => rfl) (fun _ => rfl)
    (show (absM A * absM B) i j + n * res f < lim f by linarith)
  have he := mul_clean_err hf hc
  exact ⟨⟨hc, he⟩, abs_le_of_err he ((abs_mul_le A B i j).trans h1)⟩

theorem variance_fit (hf : 2 ≤ f) (h : CorrectInRange x P H z R C Y s) :
    Fit (Spec.mulSeq (Spec.mulSeq (freshM H) (freshM P)) (freshM H)ᵀ 0 0 + freshM R 0 0)
      ((valM H * valM P * (valM H)ᵀ + valM R) 0 0) (varianceErr H) := by
  have h1 : ∀ k, (absM H * absM P) 0 k + n * res f < lim f := fun k => by linarith [h.left k, h.products_fit]
  have h2 : sandwichBound H P H 0 0 < lim f := by linarith [h.variance_fits, abs_nonneg (R 0 0).val]
  obtain ⟨e1, e2⟩ := sandwich_fixed (A := H) (P := P) (B := H) hf h1 h2
  have en : Watched.nums (Spec.mulSeq (freshM H) (freshM P)) = Spec.mulSeq H P := Watched.num_mulSeq _ _
  have hc : (Spec.mulSeq (Spec.mulSeq (freshM H) (freshM P)) (freshM H)ᵀ 0 0).clean = true := by
    refine mul_clean (by omega) (fun k => (product_fit hf (h.left k) h.products_fit).1.1) (fun _ => rfl) ?_
    rw [en]
    have hs : (absM (Spec.mulSeq H P) * absM Hᵀ) 0 0 ≤ ∑ k, ((absM H * absM P) 0 k + n * res f) * absM H 0 k := by
      rw [Matrix.mul_apply]
      refine Finset.sum_le_sum fun k _ => mul_le_mul_of_nonneg_right ?_ (abs_nonneg _)
      exact abs_le_of_err (mul_fixed hf (h1 k)) (abs_mul_le H P 0 k)
    unfold sandwichBound at h2
    exact lt_of_le_of_lt (add_le_add_left hs _) h2
  have hnum : (Spec.mulSeq (Spec.mulSeq (freshM H) (freshM P)) (freshM H)ᵀ 0 0).num = Spec.mulSeq (Spec.mulSeq H P) Hᵀ 0 0 := by
    have := congrFun (congrFun (Watched.num_mulSeq (Spec.mulSeq (freshM H) (freshM P)) (freshM H)ᵀ) 0) 0
    rw [en] at this
    exact this
  obtain ⟨a1, a2⟩ := Watched.add_fits (b := freshM R 0 0) (by omega : 1 ≤ f) hc rfl (by
    rw [hnum]
    exact (abs_add_le _ _).trans_lt (lt_of_le_of_lt (add_le_add_left e2 _) h.variance_fits))
  refine ⟨a1, ?_⟩
  rw [a2, hnum]
  have e4 : (valM H * valM P * (valM H)ᵀ + valM R) 0 0 = (valM H * valM P * (valM H)ᵀ) 0 0 + (R 0 0).val := rfl
  have e5 : (freshM R 0 0).num.val = (R 0 0).val := rfl
  rw [e4, e5, add_sub_add_right_eq_sub]
  refine e1.trans (le_of_eq ?_)
  unfold varianceErr
  ring

theorem gain_fit (hf : 2 ≤ f) (h : CorrectInRange x P H z R C Y s) {q d : Watched f}
    (hq : MDT.squareRoot (Spec.mulSeq (Spec.mulSeq (freshM H) (freshM P)) (freshM H)ᵀ 0 0 + freshM R 0 0) = .ok q)
    (hd : MDT.recip q = .ok d) (i : Fin n) :
    Fit (scalarGain (freshM P) (freshM H) d i)
      ((valM P * (valM H)ᵀ) i 0 * (1 / (valM H * valM P * (valM H)ᵀ + valM R) 0 0))
      (gainErr f n ((valM P * (valM H)ᵀ) i 0) s (varianceErr H)) ∧
    |(scalarGain (freshM P) (freshM H) d i).num.val| ≤ gainMax f n C s (varianceErr H) := by
  obtain ⟨w1, hs, hv⟩ := inverse_fit hf (variance_fit hf h) h.variance h.root h.recip h.inverse hq hd
  obtain ⟨c1, c2⟩ := product_fit (A := P) (B := Hᵀ) hf (h.right i) h.products_fit
  have hr : 0 < res f := res_pos
  obtain ⟨v, hve⟩ : ∃ v, v = (valM H * valM P * (valM H)ᵀ + valM R) 0 0 := ⟨_, rfl⟩
  obtain ⟨c, hce⟩ : ∃ c, c = (valM P * (valM H)ᵀ) i 0 := ⟨_, rfl⟩
  have hce' : (valM P * valM Hᵀ) i 0 = c := hce.symm
  rw [hce'] at c1
  rw [← hve] at w1 hv ⊢
  rw [← hce]
  have hv0 : 0 < v := hs.trans_le hv
  have h1v : |1 / v| = 1 / v := abs_of_pos (by positivity)
  have h1s : 1 / v ≤ 1 / s := one_div_le_one_div_of_le hs hv
  have wB : |(scalarInverse d).num.val| ≤ 1 / s + inverseErr f s (varianceErr H) :=
    abs_le_of_err w1.2 (by rw [h1v]; exact h1s)
  have hfit : (C + n * res f) * (1 / s + inverseErr f s (varianceErr H)) < lim f := by
    have := h.gain_fits
    unfold gainMax at this
    linarith
  have hie : 0 ≤ inverseErr f s (varianceErr H) := (abs_nonneg _).trans w1.2
  obtain ⟨m1, m2⟩ := Fit.mul (by omega) c1 w1 c2 wB hfit
  have hcl : (Spec.mulSeq (freshM P) (freshM H)ᵀ i 0).num.val = (Spec.mulSeq (freshM P) (freshM Hᵀ) i 0).num.val := rfl
  obtain ⟨m3, _⟩ := Fit.mul (by omega) c1 w1 (abs_le_of_err c1.2 (le_refl |c|)) wB (by
    refine lt_of_le_of_lt (mul_le_mul_of_nonneg_right ?_ (by positivity)) hfit
    have := (abs_mul_le P Hᵀ i 0).trans (h.right i)
    rw [hce'] at this
    linarith)
  have e0 : scalarGain (freshM P) (freshM H) d i = Spec.mulSeq (freshM P) (freshM Hᵀ) i 0 * scalarInverse d :=
    zero_add_clean m1.1
  rw [e0]
  refine ⟨⟨m1.1, m3.2.trans ?_⟩, m2⟩
  unfold gainErr
  rw [h1v]
  have : (n : ℝ) * res f * (1 / v) ≤ n * res f / s := by
    have e : (n : ℝ) * res f / s = n * res f * (1 / s) := by rw [mul_one_div]
    rw [e]
    exact mul_le_mul_of_nonneg_left h1s (by positivity)
  linarith

theorem innovation_fit (hf : 2 ≤ f) (h : CorrectInRange x P H z R C Y s) :
    Fit (Watched.fresh (z 0) - Spec.mulVecSeq (freshM H) (fun k => Watched.fresh (x k)) 0) ((valV z - valM H *ᵥ valV x) 0)
      (n * res f) ∧
    |(Watched.fresh (z 0) - Spec.mulVecSeq (freshM H) (fun k => Watched.fresh (x k)) 0).num.val| ≤ Y + n * res f := by
  have h1 : (absM H *ᵥ absV x) 0 + n * res f < lim f := by
    linarith [h.innovation, h.innovation_fits, abs_nonneg (z 0).val]
  have hc : (Spec.mulVecSeq (freshM H) (fun k => Watched.fresh (x k)) 0).clean = true :=
    Watched.dotFirst_fits (by omega) (fun _ => rfl) (fun _ => rfl) h1
  have he := mulVec_fixed hf h1
  have hnum : (Spec.mulVecSeq (freshM H) (fun k => Watched.fresh (x k)) 0).num = Spec.mulVecSeq H x 0 :=
    Watched.num_mulVecSeq _ _ _
  obtain ⟨p, hp⟩ : ∃ p, p = (Spec.mulVecSeq (freshM H) (fun k => Watched.fresh (x k)) 0) := ⟨_, rfl⟩
  rw [← hp] at hc hnum ⊢
  rw [← hnum] at he
  have hb := abs_le_of_err he (abs_mulVec_le H x 0)
  have hlt : |(z 0).val - p.num.val| < lim f := by
    have := abs_sub (z 0).val p.num.val
    linarith [h.innovation, h.innovation_fits]
  have hval : (Watched.fresh (z 0) - p).num.val = (z 0).val - p.num.val ∧ (Watched.fresh (z 0) - p).clean = true := by
    have hr : InRange f ((z 0).bits.toInt - p.num.bits.toInt) := by
      refine inRange_exact (by omega) ?_
      push_cast
      rw [sub_div]
      exact hlt
    exact ⟨val_sub hr, Watched.sub_clean.2 ⟨rfl, hc, hr⟩⟩
  refine ⟨⟨hval.2, ?_⟩, ?_⟩
  · rw [hval.1]
    have e : (valV z - valM H *ᵥ valV x) 0 = (z 0).val - (valM H *ᵥ valV x) 0 := rfl
    rw [e, sub_sub_sub_cancel_left, abs_sub_comm]
    exact he
  · rw [hval.1]
    have := abs_sub (z 0).val p.num.val
    linarith [h.innovation]

theorem real_gain (i : Fin n) : Spec.gain (valM H) (valM P) (valM R) i 0 =
    (valM P * (valM H)ᵀ) i 0 * (1 / (valM H * valM P * (valM H)ᵀ + valM R) 0 0) := by
  unfold Spec.gain Spec.innovCov
  rw [Matrix.mul_apply, Fin.sum_univ_one, Matrix.inv_subsingleton, one_div]
  congr 1
  rw [Matrix.diagonal_apply_eq, Ring.inverse_eq_inv']

theorem real_corrX (i : Fin n) : Spec.corrX (valM H) (valM P) (valM R) (valV x) (valV z) i =
    (x i).val + Spec.gain (valM H) (valM P) (valM R) i 0 * (valV z - valM H *ᵥ valV x) 0 := by
  unfold Spec.corrX
  show valV x i + (Spec.gain _ _ _ *ᵥ _) i = _
  rw [Matrix.mulVec, dotProduct, Fin.sum_univ_one]
  rfl

theorem real_corrP (i j : Fin n) : Spec.corrP (valM H) (valM P) (valM R) i j =
    (P i j).val - Spec.gain (valM H) (valM P) (valM R) i 0 * (valM H * valM P) 0 j := by
  unfold Spec.corrP
  rw [Matrix.mul_assoc]
  rw [Matrix.sub_apply, Matrix.mul_apply, Fin.sum_univ_one]
  rfl

theorem state_fit (hf : 2 ≤ f) (h : CorrectInRange x P H z R C Y s) {q d : Watched f}
    (hq : MDT.squareRoot (Spec.mulSeq (Spec.mulSeq (freshM H) (freshM P)) (freshM H)ᵀ 0 0 + freshM R 0 0) = .ok q)
    (hd : MDT.recip q = .ok d) (i : Fin n) :
    Fit (Watched.fresh (x i) + scalarGain (freshM P) (freshM H) d i *
        (Watched.fresh (z 0) - Spec.mulVecSeq (freshM H) (fun k => Watched.fresh (x k)) 0))
      (Spec.corrX (valM H) (valM P) (valM R) (valV x) (valV z) i)
      (gainMax f n C s (varianceErr H) * (n * res f) +
        gainErr f n ((valM P * (valM H)ᵀ) i 0) s (varianceErr H) * |(valV z - valM H *ᵥ valV x) 0| + res f) := by
  obtain ⟨g1, g2⟩ := gain_fit hf h hq hd i
  obtain ⟨y1, y2⟩ := innovation_fit hf h
  rw [← real_gain] at g1
  rw [real_corrX]
  have hr : 0 < res f := res_pos
  obtain ⟨m1, m2⟩ := Fit.mul (by omega) g1 y1 g2 y2 (by linarith [h.state_fits i, abs_nonneg (x i).val])
  generalize scalarGain (freshM P) (freshM H) d i *
    (Watched.fresh (z 0) - Spec.mulVecSeq (freshM H) (fun k => Watched.fresh (x k)) 0) = p at m1 m2 ⊢
  obtain ⟨a1, a2⟩ := Watched.add_fits (a := Watched.fresh (x i)) (b := p) (by omega : 1 ≤ f) rfl m1.1
    ((abs_add_le _ _).trans_lt (lt_of_le_of_lt (add_le_add_right m2 _) (h.state_fits i)))
  refine ⟨a1, ?_⟩
  rw [a2]
  have e : (Watched.fresh (x i)).num.val = (x i).val := rfl
  rw [e, add_sub_add_left_eq_sub]
  exact m1.2

theorem covariance_fit (hf : 2 ≤ f) (h : CorrectInRange x P H z R C Y s) {q d : Watched f}
    (hq : MDT.squareRoot (Spec.mulSeq (Spec.mulSeq (freshM H) (freshM P)) (freshM H)ᵀ 0 0 + freshM R 0 0) = .ok q)
    (hd : MDT.recip q = .ok d) (i j : Fin n) :
    Fit (freshM P i j - (0 + scalarGain (freshM P) (freshM H) d i * Spec.mulSeq (freshM H) (freshM P) 0 j))
      (Spec.corrP (valM H) (valM P) (valM R) i j)
      (gainMax f n C s (varianceErr H) * (n * res f) +
        gainErr f n ((valM P * (valM H)ᵀ) i 0) s (varianceErr H) * |(valM H * valM P) 0 j| + res f) := by
  obtain ⟨g1, g2⟩ := gain_fit hf h hq hd i
  obtain ⟨c1, c2⟩ := product_fit (A := H) (B := P) hf (h.left j) h.products_fit
  rw [← real_gain] at g1
  rw [real_corrP]
  have hr : 0 < res f := res_pos
  obtain ⟨m1, m2⟩ := Fit.mul (by omega) g1 c1 g2 c2 (by linarith [h.covariance_fits i j, abs_nonneg (P i j).val])
  rw [zero_add_clean m1.1]
  generalize scalarGain (freshM P) (freshM H) d i * Spec.mulSeq (freshM H) (freshM P) 0 j = p at m1 m2 ⊢
  have hlt : |(P i j).val - p.num.val| < lim f := by
    have := abs_sub (P i j).val p.num.val
    linarith [h.covariance_fits i j]
  have hr : InRange f ((P i j).bits.toInt - p.num.bits.toInt) := by
    refine inRange_exact (by omega) ?_
    push_cast
    rw [sub_div]
    exact hlt
  refine ⟨Watched.sub_clean.2 ⟨rfl, m1.1, hr⟩, ?_⟩
  have e : (freshM P i j - p).num.val = (P i j).val - p.num.val := val_sub hr
  rw [e, sub_sub_sub_cancel_left, abs_sub_comm]
  exact m1.2

theorem scalarGain_num (d : Watched f) (i : Fin n) :
    (scalarGain (freshM P) (freshM H) d i).num = scalarGain P H d.num i := by
  have e := congrFun (congrFun (Watched.num_mulSeq (freshM P) (freshM H)ᵀ) i) 0
  show (0 : FixedPoint f) + (Spec.mulSeq (freshM P) (freshM H)ᵀ i 0).num * _ = _
  have e' : (Spec.mulSeq (freshM P) (freshM H)ᵀ i 0).num = Spec.mulSeq P Hᵀ i 0 := e
  rw [e']
  rfl

theorem variance_num :
    (Spec.mulSeq (Spec.mulSeq (freshM H) (freshM P)) (freshM H)ᵀ 0 0 + freshM R 0 0).num =
      Spec.mulSeq (Spec.mulSeq H P) Hᵀ 0 0 + R 0 0 := by
  have e := congrFun (congrFun (Watched.num_mulSeq (Spec.mulSeq (freshM H) (freshM P)) (freshM H)ᵀ) 0) 0
  rw [show Watched.nums (Spec.mulSeq (freshM H) (freshM P)) = Spec.mulSeq H P from Watched.num_mulSeq _ _] at e
  have e' : (Spec.mulSeq (Spec.mulSeq (freshM H) (freshM P)) (freshM H)ᵀ 0 0).num = Spec.mulSeq (Spec.mulSeq H P) Hᵀ 0 0 := e
  show (Spec.mulSeq (Spec.mulSeq (freshM H) (freshM P)) (freshM H)ᵀ 0 0).num + _ = _
  rw [e']
  rfl

theorem variance_positive (hf : 2 ≤ f) (h : CorrectInRange x P H z R C Y s) :
    MDT.le (Spec.mulSeq (Spec.mulSeq H P) Hᵀ 0 0 + R 0 0) 0 = false := by
  have hv := variance_fit hf h
  have h1 := h.variance
  have hr : 0 < res f := res_pos
  have hs : 0 < s := Real.sqrt_pos.1 (hr.trans h.root)
  have h2 := (abs_le.1 hv.2).1
  rw [variance_num] at h2
  rw [Bool.eq_false_iff, ne_eq, le_iff, val_zero]
  intro hc
  linarith

theorem safeRoots_watched (hf : 1 ≤ f) : SafeRoots (Watched f) := by
  constructor
  intro a ha
  obtain ⟨y, w, h1, h2⟩ := (safeRoots hf).root_recip a.num ha
  refine ⟨_, _, congrArg (Except.map _) h1, congrArg (Except.map _) h2⟩

end Step

end FixedPoint
end Minikalman
