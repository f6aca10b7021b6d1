import Verif.Proofs.Float
import Verif.Proofs.Poison

/-!
# Zeros in floating point arithmetic, and corrections with infinite measurement noise
-/

set_option linter.unusedSectionVars false

namespace Minikalman

open Matrix

variable {fmt : Format} {n m : Nat}

namespace Bin

/-- A zero of either sign. -/
def Nil (a : Bin fmt) : Prop := a.Finite ∧ a.val = 0

/-- A finite number with this value. -/
def Is (a : Bin fmt) (x : ℝ) : Prop := a.Finite ∧ a.val = x

theorem nil_zero : (0 : Bin fmt).Nil := ⟨trivial, zero_val⟩

theorem rep_lt_limit {k : Nat} (h : fmt.Rep k) : (k : ℝ) / 2 ^ fmt.frac < fmt.limit := by
  have hp : (0 : ℝ) < 2 ^ fmt.frac := by positivity
  unfold Format.limit
  rw [div_lt_div_iff_of_pos_right hp]
  by_cases hk : k = 0
  · subst hk
    have h1 : (1 : ℝ) / 2 ^ (fmt.prec + 1) < 1 := by
      rw [div_lt_one (by positivity)]
      exact one_lt_pow₀ (by norm_num) (by omega)
    have : (0 : ℝ) < 2 ^ fmt.top := by positivity
    rw [Nat.cast_zero]
    exact mul_pos this (by linarith)
  obtain ⟨q, hq⟩ := h.2
  have hq1 : k / 2 ^ fmt.gap k = q := Nat.div_eq_of_eq_mul_right (Nat.two_pow_pos _) hq
  have hqlt : q < 2 ^ fmt.prec := hq1 ▸ (fmt.gap_spec k).1
  have hg : fmt.gap k ≤ fmt.top - fmt.prec := by
    have : k.log2 < fmt.top := (Nat.log2_lt hk).2 h.1
    rw [Format.gap_def]
    omega
  have hle := fmt.prec_le
  have e1 : (2 : ℝ) ^ fmt.top = 2 ^ fmt.prec * 2 ^ (fmt.top - fmt.prec) := by
    rw [← pow_add]; congr 1; omega
  have hk' : (k : ℝ) ≤ (2 ^ fmt.prec - 1) * 2 ^ (fmt.top - fmt.prec) := by
    have h1 : (k : ℝ) = 2 ^ fmt.gap k * q := by exact_mod_cast hq
    have h2 : (q : ℝ) ≤ 2 ^ fmt.prec - 1 := by
      have : q + 1 ≤ 2 ^ fmt.prec := hqlt
      have : (q : ℝ) + 1 ≤ 2 ^ fmt.prec := by exact_mod_cast this
      linarith
    have h3 : (2 : ℝ) ^ fmt.gap k ≤ 2 ^ (fmt.top - fmt.prec) := pow_le_pow_right₀ (by norm_num) hg
    rw [h1, mul_comm]
    exact mul_le_mul h2 h3 (by positivity) (by
      have : (1 : ℝ) ≤ 2 ^ fmt.prec := one_le_pow₀ (by norm_num)
      linarith)
  refine lt_of_le_of_lt hk' ?_
  rw [e1, pow_succ]
  have hpp : (0 : ℝ) < 2 ^ fmt.prec := by positivity
  have ht : (0 : ℝ) < 2 ^ (fmt.top - fmt.prec) := by positivity
  have e2 : (2 : ℝ) ^ fmt.prec * 2 ^ (fmt.top - fmt.prec) * (1 - 1 / (2 ^ fmt.prec * 2)) =
      (2 ^ fmt.prec - 1 / 2) * 2 ^ (fmt.top - fmt.prec) := by field_simp
  rw [e2]
  exact mul_lt_mul_of_pos_right (by linarith) ht

theorem abs_lt_limit {a : Bin fmt} (h : a.Finite) : |a.val| < fmt.limit := by
  obtain ⟨s, k, hk, rfl⟩ := (finite_iff a).1 h
  rw [val_fin, abs_div, sgn_abs, abs_of_nonneg (Nat.cast_nonneg k), abs_of_pos (by positivity)]
  exact rep_lt_limit hk

/-- A result that is representable is exact. -/
theorem RoundsTo.exact {x : ℝ} {r a : Bin fmt} (h : RoundsTo x r) (ha : a.Finite) (e : a.val = x) : r.Is x := by
  have hlt := abs_lt_limit ha
  rw [e, abs_lt] at hlt
  rcases h with ⟨_, h1, h2⟩ | ⟨h1, _⟩ | ⟨h1, _⟩
  · refine ⟨h1, ?_⟩
    have := (h2 a ha).1
    rw [e, sub_self, abs_zero] at this
    exact sub_eq_zero.1 (abs_eq_zero.1 (le_antisymm this (abs_nonneg _)))
  · linarith
  · linarith

theorem add_nil {a b : Bin fmt} (ha : a.Finite) (hb : b.Nil) : (a + b).Is a.val := by
  have := add_rounds ha hb.1
  rw [hb.2, add_zero] at this
  exact RoundsTo.exact this ha rfl

theorem nil_add {a b : Bin fmt} (ha : a.Nil) (hb : b.Finite) : (a + b).Is b.val := by
  have := add_rounds ha.1 hb
  rw [ha.2, zero_add] at this
  exact RoundsTo.exact this hb rfl

theorem sub_nil {a b : Bin fmt} (ha : a.Finite) (hb : b.Nil) : (a - b).Is a.val := by
  have := sub_rounds ha hb.1
  rw [hb.2, sub_zero] at this
  exact RoundsTo.exact this ha rfl

theorem nil_nil_add {a b : Bin fmt} (ha : a.Nil) (hb : b.Nil) : (a + b).Nil := by
  have := add_nil ha.1 hb
  exact ⟨this.1, this.2.trans ha.2⟩

theorem nil_mul {a b : Bin fmt} (ha : a.Nil) (hb : b.Finite) : (a * b).Nil := by
  have := mul_rounds ha.1 hb
  rw [ha.2, zero_mul] at this
  exact RoundsTo.exact this ha.1 ha.2

theorem mul_nil {a b : Bin fmt} (ha : a.Finite) (hb : b.Nil) : (a * b).Nil := by
  have := mul_rounds ha hb.1
  rw [hb.2, mul_zero] at this
  exact RoundsTo.exact this hb.1 hb.2

theorem nil_neg {a : Bin fmt} (ha : a.Nil) : (-a).Nil :=
  ⟨neg_finite.2 ha.1, by rw [neg_val, ha.2, neg_zero]⟩

theorem nil_isum {l : List (Bin fmt)} (h : ∀ a ∈ l, a.Nil) : (MDT.isum l : Bin fmt).Nil := by
  show (l.foldl (· + ·) (.fin fmt.sumNeg 0 fmt.rep_zero) : Bin fmt).Nil
  have h0 : (Bin.fin fmt.sumNeg 0 fmt.rep_zero : Bin fmt).Nil := by
    refine ⟨trivial, ?_⟩
    rw [val_fin]
    cases fmt.sumNeg <;> simp [sgn]
  revert h0
  generalize (Bin.fin fmt.sumNeg 0 fmt.rep_zero : Bin fmt) = z
  intro h0
  induction l generalizing z with
  | nil => exact h0
  | cons a l ih => exact ih (fun b hb => h b (List.mem_cons_of_mem _ hb)) _ (nil_nil_add h0 (h a List.mem_cons_self))

theorem foldl_nil {k : Nat} {f : Fin k → Bin fmt} (hf : ∀ i, (f i).Nil) {z : Bin fmt} (hz : z.Nil) :
    (Fin.foldl k (fun acc i => acc + f i) z).Nil := by
  induction k generalizing z with
  | zero => rwa [Fin.foldl_zero]
  | succ k ih => rw [Fin.foldl_succ]; exact ih (fun i => hf i.succ) (nil_nil_add hz (hf 0))

theorem foldl_sub_nil {k : Nat} {f : Fin k → Bin fmt} (hf : ∀ i, (f i).Nil) {z : Bin fmt} (hz : z.Finite) :
    (Fin.foldl k (fun acc i => acc - f i) z).Finite := by
  induction k generalizing z with
  | zero => rwa [Fin.foldl_zero]
  | succ k ih => rw [Fin.foldl_succ]; exact ih (fun i => hf i.succ) (sub_nil hz (hf 0)).1

theorem inf_sub {a : Bin fmt} (h : a.Finite) (s : Bool) : .inf s - a = .inf s := by
  obtain ⟨t, k, hk, rfl⟩ := (finite_iff a).1 h
  rfl

theorem add_inf {a : Bin fmt} (h : a.Finite) (s : Bool) : a + .inf s = .inf s := by
  obtain ⟨t, k, hk, rfl⟩ := (finite_iff a).1 h
  rfl

theorem foldl_sub_inf {k : Nat} {f : Fin k → Bin fmt} (hf : ∀ i, (f i).Nil) :
    Fin.foldl k (fun acc i => acc - f i) (.inf false : Bin fmt) = .inf false := by
  induction k with
  | zero => rw [Fin.foldl_zero]
  | succ k ih => rw [Fin.foldl_succ, inf_sub (hf 0).1]; exact ih (fun i => hf i.succ)

theorem mulSeq_nil {R C U : Nat} {A : Matrix (Fin R) (Fin C) (Bin fmt)} {B : Matrix (Fin C) (Fin U) (Bin fmt)} {i j}
    (h : ∀ k, (A i k * B k j).Nil) : (Spec.mulSeq A B i j).Nil := foldl_nil h nil_zero

theorem mulVecSeq_nil {R C : Nat} {A : Matrix (Fin R) (Fin C) (Bin fmt)} {x : Fin C → Bin fmt} {i}
    (h : ∀ k, (A i k * x k).Nil) : (Spec.mulVecSeq A x i).Nil := by
  cases C with
  | zero => exact nil_zero
  | succ C => exact foldl_nil (fun k => h k.succ) (h 0)

end Bin

open Bin

/-- A matrix with infinite diagonal and finite entries above it. -/
structure InfDiag (S : Matrix (Fin m) (Fin m) (Bin fmt)) : Prop where
  diag : ∀ i, S i i = .inf false
  upper : ∀ i j, i < j → (S i j).Finite

theorem infDiag_rest {S L : Matrix (Fin m) (Fin m) (Bin fmt)} (hS : InfDiag S) {c r : Fin m} (hcr : c ≤ r)
    (h : ∀ k, k < c → (L c k).Nil ∧ (L r k).Nil) :
    if c = r then Spec.cholRest S L c r = .inf false else (Spec.cholRest S L c r).Finite := by
  unfold Spec.cholRest
  have hf : ∀ k : Fin c.1, (L c ⟨k.1, k.2.trans c.2⟩ * L r ⟨k.1, k.2.trans c.2⟩).Nil := fun k =>
    nil_mul (h ⟨k.1, k.2.trans c.2⟩ k.2).1 (h ⟨k.1, k.2.trans c.2⟩ k.2).2.1
  split
  · next e => subst e; rw [hS.diag]; exact foldl_sub_inf hf
  · next e => exact foldl_sub_nil hf (hS.upper c r (lt_of_le_of_ne hcr e))

/-- The factor of such a matrix: infinities on the diagonal, zeros below. -/
theorem infDiag_cols {S L : Matrix (Fin m) (Fin m) (Bin fmt)} (hS : InfDiag S) (p : Nat)
    (hd : ∀ c : Fin m, c.1 < p → MDT.squareRoot (Spec.cholRest S L c c) = .ok (L c c))
    (hc : ∀ c r : Fin m, c < r → c.1 < p → ∃ d, MDT.recip (L c c) = .ok d ∧ L r c = Spec.cholRest S L c r * d) :
    ∀ c : Fin m, c.1 < p → L c c = .inf false ∧ ∀ r, c < r → (L r c).Nil := by
  have key : ∀ k, ∀ c : Fin m, c.1 = k → c.1 < p → L c c = .inf false ∧ ∀ r, c < r → (L r c).Nil := by
    intro k
    induction k using Nat.strong_induction_on with
    | _ k ih =>
      intro c hck hcp
      have hlow : ∀ r, c ≤ r → ∀ k', k' < c → (L c k').Nil ∧ (L r k').Nil := fun r hr k' hk' =>
        have hk'' : k'.1 < c.1 := hk'
        have := ih k'.1 (by omega) k' rfl (by omega)
        ⟨this.2 c hk', this.2 r (lt_of_lt_of_le hk' hr)⟩
      have h1 := infDiag_rest hS (le_refl c) (hlow c le_rfl)
      rw [if_pos rfl] at h1
      have h2 := hd c hcp
      rw [h1] at h2
      have h3 : L c c = .inf false := (Except.ok.inj h2).symm
      refine ⟨h3, fun r hr => ?_⟩
      obtain ⟨d, h4, h5⟩ := hc c r hr hcp
      rw [h3] at h4
      have h6 : d = .fin false 0 fmt.rep_zero := (Except.ok.inj h4).symm
      have h7 := infDiag_rest hS hr.le (hlow r hr.le)
      rw [if_neg hr.ne] at h7
      rw [h5, h6]
      exact mul_nil h7 nil_zero
  exact fun c => key c.1 c rfl

theorem chol_infDiag (bld : Build) {s s' : Mat m m (Bin fmt)} {b : Bool} {S : Matrix (Fin m) (Fin m) (Bin fmt)} (hs : s.Reps S)
    (hS : InfDiag S) (h : s.choleskyDecomposeLower bld = .ok (s', b)) :
    b = true ∧ ∃ L : Matrix (Fin m) (Fin m) (Bin fmt), s'.Reps L ∧ (∀ i, L i i = .inf false) ∧
      ∀ i j, j < i → (L i j).Nil := by
  have hup : s.RepsUpper S := fun i j _ => hs i j
  cases b with
  | true =>
    obtain ⟨L, h1, _, _, h2, h3⟩ := chol_any_reps bld hs.valid hup h
    have := infDiag_cols hS m (fun c _ => (h2 c).2) (fun c r hcr _ => h3 c r hcr)
    exact ⟨rfl, L, h1, fun i => (this i i.2).1, fun i j hij => (this j j.2).2 i hij⟩
  | false =>
    obtain ⟨L, p, h1, _, h2, h3, h4, _⟩ := chol_any_fail_reps bld hs.valid hup h
    have := infDiag_cols hS p.1 (fun c hc => (h3 c hc).2) (fun c r hcr hc => h4 c r hcr hc)
    have hr := infDiag_rest hS (le_refl p) (fun k hk => ⟨(this k hk).2 p hk, (this k hk).2 p hk⟩)
    rw [if_pos rfl] at hr
    rw [hr] at h2
    cases h2

theorem recip_inf {d : Bin fmt} (h : MDT.recip (.inf false : Bin fmt) = .ok d) : d.Nil := by
  have : d = .fin false 0 fmt.rep_zero := (Except.ok.inj h).symm
  rw [this]; exact nil_zero

theorem inv_infDiag {L M X : Matrix (Fin m) (Fin m) (Bin fmt)} (hd : ∀ i, L i i = .inf false)
    (hl : ∀ i j, j < i → (L i j).Nil) (hM : Spec.FactorInverse L M) (hX : Spec.TransposedSolve L M X) :
    ∀ i j, (X i j).Nil := by
  have hMn : ∀ k, ∀ i j : Fin m, i.1 = k → j ≤ i → (M i j).Nil := by
    intro k
    induction k using Nat.strong_induction_on with
    | _ k ih =>
      intro i j hik hij
      obtain ⟨d, h1, h2⟩ := hM.entry i j hij
      rw [hd i] at h1
      rw [h2]
      refine mul_nil ?_ (recip_inf h1)
      refine (add_nil ?_ ?_).1
      · split <;> exact trivial
      · unfold Spec.sumOver
        refine nil_isum fun a ha => ?_
        obtain ⟨k', hk', rfl⟩ := List.mem_map.1 ha
        have hk2 : j ≤ k' ∧ k' < i := by simpa using hk'
        have hk3 : k'.1 < i.1 := hk2.2
        exact nil_mul (nil_neg (hl i k' hk2.2)) (ih k'.1 (by omega) k' j rfl hk2.1).1
  have hXn : ∀ k, ∀ i j : Fin m, m - i.1 = k → j ≤ i → (X i j).Nil := by
    intro k
    induction k using Nat.strong_induction_on with
    | _ k ih =>
      intro i j hik hij
      obtain ⟨d, h1, h2⟩ := hX.entry i j hij
      rw [hd i] at h1
      rw [h2]
      refine mul_nil ?_ (recip_inf h1)
      refine (add_nil (hMn i.1 i j rfl hij).1 ?_).1
      unfold Spec.sumOver
      refine nil_isum fun a ha => ?_
      obtain ⟨k', hk', rfl⟩ := List.mem_map.1 ha
      have hk2 : i < k' := by simpa using hk'
      have hk3 : i.1 < k'.1 := hk2
      exact nil_mul (nil_neg (hl k' i hk2)) (ih (m - k'.1) (by omega) k' j rfl (hij.trans hk2.le)).1
  intro i j
  rcases le_total j i with h | h
  · exact hXn _ i j rfl h
  · rw [hX.symm]; exact hXn _ j i rfl h

/-- A correction with infinite measurement noise does nothing. -/
theorem correct_inf (bld : Build) {f f' : RegularKalman n (Bin fmt)} {o o' : RegularObservation n m (Bin fmt)} {x A P Q H z R}
    (hn : 0 < n) (hm : 0 < m) (hf : f.Reps x A P Q) (ho : o.Reps H z R) (h : f.correct bld o = .ok (f', o'))
    (hx : ∀ i, (x i).Finite) (hP : ∀ i j, (P i j).Finite) (hRd : ∀ i, R i i = .inf false)
    (hRo : ∀ i j, i ≠ j → R i j = 0)
    (hy : ∀ i, ((z - Spec.mulVecSeq H x) i).Finite) (hHP : ∀ i j, (Spec.mulSeq H P i j).Finite)
    (hPH : ∀ i j, (Spec.mulSeq P Hᵀ i j).Finite) (hHPH : ∀ i j, (Spec.mulSeq (Spec.mulSeq H P) Hᵀ i j).Finite) :
    ∃ x' P', f'.x.RepsV x' ∧ f'.P.Reps P' ∧ (∀ i, (x' i).Is (x i).val) ∧ ∀ i j, (P' i j).Is (P i j).val := by
  obtain ⟨y1, y2, h1, h2, h3, h4⟩ := innovation_any hn ho.valid ho.H ho.z hf.x
  unfold RegularKalman.correct RegularObservation.correct at h
  simp only [h1, h2, res_bind_ok] at h
  obtain ⟨⟨o1, x1, P1⟩, hu, h⟩ := bind_ok h
  cases h
  obtain ⟨_, s, b, W, hs, hc, hv, hi, hW, _, h7, h8⟩ := update_any bld (o := { o with y := y2 }) hm
    (obs_with_y_valid ho.valid h4) ho.H ho.R hf.P hf.x h3 _ hu
  have hS : InfDiag (Spec.mulSeq (Spec.mulSeq H P) Hᵀ + R) := by
    refine ⟨fun i => ?_, fun i j hij => ?_⟩
    · show Spec.mulSeq (Spec.mulSeq H P) Hᵀ i i + R i i = _
      rw [hRd]; exact add_inf (hHPH i i) _
    · show (Spec.mulSeq (Spec.mulSeq H P) Hᵀ i j + R i j).Finite
      rw [hRo i j hij.ne]; exact (add_nil (hHPH i j) nil_zero).1
  obtain ⟨_, L, hL, hLd, hLl⟩ := chol_infDiag bld hs hS hc
  obtain ⟨M, X, hX, _, hM, hT⟩ := invert_any_matrix hm (fun i j _ => hL i j) (obs_with_y_valid ho.valid h4).tempSInv hi
  have hWn : ∀ i j, (W i j).Nil := by
    intro i j
    have : W i j = X i j := Option.some.inj ((hW i j).symm.trans (hX i j))
    rw [this]; exact inv_infDiag hLd hLl hM hT i j
  have hK : ∀ i j, (Spec.mulSeq (Spec.mulSeq P Hᵀ) W i j).Nil := fun i j =>
    mulSeq_nil fun k => mul_nil (hPH i k) (hWn k j)
  refine ⟨_, _, h7, h8, fun i => ?_, fun i j => ?_⟩
  · exact add_nil (hx i) (mulVecSeq_nil fun k => nil_mul (hK i k) (hy k))
  · exact sub_nil (hP i j) (mulSeq_nil fun k => nil_mul (hK i k) (hHP k j))

end Minikalman
