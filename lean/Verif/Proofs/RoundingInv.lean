import Verif.Spec.RoundingInv
import Verif.Proofs.InvAny
import Verif.Proofs.InvMatrix
import Verif.Proofs.RoundingChol

/-! # Rounding errors of the inversion -/

set_option linter.unusedSectionVars false

namespace Minikalman

open Finset

variable {T : Type} {n : Nat}

/-! ## Sums over ranges of indices -/

theorem filter_range_eq {n a b : Nat} (h : b ≤ n) :
    (List.range n).filter (fun k => decide (a ≤ k ∧ k < b)) = List.range' a (b - a) := by
  induction n generalizing b with
  | zero => obtain rfl : b = 0 := by omega
            simp
  | succ n ih =>
    rw [List.range_succ, List.filter_append]
    rcases Nat.lt_or_ge n b with hb | hb
    · obtain rfl : b = n + 1 := by omega
      rcases Nat.lt_or_ge n a with ha | ha
      · rw [show n + 1 - a = 0 by omega]
        simp only [List.range'_zero, List.append_eq_nil_iff, List.filter_eq_nil_iff]
        constructor
        · intro k hk; simp at hk ⊢; omega
        · intro k hk; simp at hk ⊢; omega
      · have := ih (b := n) le_rfl
        have e : (List.range n).filter (fun k => decide (a ≤ k ∧ k < n + 1)) = (List.range n).filter (fun k => decide (a ≤ k ∧ k < n)) := by
          apply List.filter_congr
          intro k hk
          rw [List.mem_range] at hk
          simp only [decide_eq_decide]; omega
        rw [e, this, show n + 1 - a = (n - a) + 1 by omega, List.range'_concat]
        congr 1
        simp only [List.filter_cons, List.filter_nil]
        rw [if_pos (by simp; omega)]
        congr 1; omega
    · rw [ih hb]
      simp; omega

theorem finRange_filter_map {n a b : Nat} (h : b ≤ n) (g : Nat → T) :
    ((List.finRange n).filter (fun k : Fin n => decide (a ≤ k.1 ∧ k.1 < b))).map (fun k => g k.1) =
      (List.range' a (b - a)).map g := by
  rw [← filter_range_eq h, ← List.map_coe_finRange_eq_range, List.filter_map, List.map_map]
  rfl

theorem sum_filter_map {M : Type} [AddCommMonoid M] (p : Fin n → Prop) [DecidablePred p] (f : Fin n → M) :
    (((List.finRange n).filter (fun k => decide (p k))).map f).sum = ∑ k, if p k then f k else 0 := by
  rw [Fin.sum_univ_def]
  induction List.finRange n with
  | nil => simp
  | cons a l ih => by_cases h : p a <;> simp [h, ih]

/-! ## Bounds -/

theorem abs_list_sum_mul_le {ι : Type} (v w : ι → ℝ) (l : List ι) :
    |(l.map fun k => v k * w k).sum| ≤ (l.map fun k => |v k| * |w k|).sum := by
  induction l with
  | nil => simp
  | cons b l ih =>
    simp only [List.map_cons, List.sum_cons]
    exact (abs_add_le _ _).trans (add_le_add (abs_mul _ _).le ih)

theorem list_sum_abs_nonneg {ι : Type} (v w : ι → ℝ) (l : List ι) : 0 ≤ (l.map fun k => |v k| * |w k|).sum :=
  (abs_nonneg _).trans (abs_list_sum_mul_le v w l)

variable [Zero T] [One T] [Add T] [Sub T] [Mul T] [Neg T]

/-- Sums of negated products. -/
theorem Rounded.negDot_bound (ra : Rounded T) (hneg : ∀ a, ra.fin (-a) → ra.fin a ∧ ra.val (-a) = -ra.val a) {ι : Type}
    {z : T} (hz : ra.val z = 0) {v w : ι → T} (l : List ι)
    (hf : ra.fin ((l.map fun k => (-v k) * w k).foldl (· + ·) z)) :
    (∀ k ∈ l, ra.fin (v k) ∧ ra.fin (w k)) ∧
    |ra.val ((l.map fun k => (-v k) * w k).foldl (· + ·) z) - -(l.map fun k => ra.val (v k) * ra.val (w k)).sum| ≤
      ra.γ (l.length + 1) * (l.map fun k => |ra.val (v k)| * |ra.val (w k)|).sum + ra.δ l.length := by
  have hu := ra.u_nonneg
  have hη := ra.η_nonneg
  induction l using List.reverseRecOn with
  | nil => simp [hz, Rounded.δ]
  | append_singleton l a ih =>
    simp only [List.map_append, List.map_cons, List.map_nil, List.foldl_append, List.foldl_cons, List.foldl_nil,
      List.sum_append, List.sum_cons, List.sum_nil, add_zero, List.length_append, List.length_cons, List.length_nil,
      zero_add] at hf ⊢
    obtain ⟨h1, h2, _⟩ := ra.add_err _ _ hf
    obtain ⟨h3, h4, h5⟩ := ra.mul_err _ _ h2
    obtain ⟨h6, h7⟩ := hneg _ h3
    obtain ⟨g1, g2⟩ := ih h1
    refine ⟨fun k hk => ?_, ?_⟩
    · rcases List.mem_append.mp hk with hk | hk
      · exact g1 k hk
      · rw [List.mem_singleton] at hk; subst hk; exact ⟨h6, h4⟩
    have hb := ra.add_bound hf g2 h5
    rw [h7] at hb
    have hA0 := list_sum_abs_nonneg (fun k => ra.val (v k)) (fun k => ra.val (w k)) l
    have hS := abs_list_sum_mul_le (fun k => ra.val (v k)) (fun k => ra.val (w k)) l
    generalize (l.map fun k => ra.val (v k) * ra.val (w k)).sum = s at *
    generalize (l.map fun k => |ra.val (v k)| * |ra.val (w k)|).sum = A at *
    generalize l.length = k at *
    rw [show -(s + ra.val (v a) * ra.val (w a)) = -s + -ra.val (v a) * ra.val (w a) by ring]
    refine hb.trans ?_
    rw [abs_mul, abs_neg, abs_neg]
    set q := |ra.val (v a)| * |ra.val (w a)| with hq
    have hq0 : 0 ≤ q := by positivity
    have hγ : ra.γ 2 ≤ ra.γ (k + 1 + 1) := ra.γ_mono (by omega)
    have hkp : ra.η * (1 + ra.u) ≤ ra.η * (1 + ra.u) ^ (k + 1) := by
      refine mul_le_mul_of_nonneg_left ?_ hη
      calc (1 + ra.u) = (1 + ra.u) ^ 1 := (pow_one _).symm
        _ ≤ (1 + ra.u) ^ (k + 1) := pow_le_pow_right₀ (by linarith) (by omega)
    have h1 : ra.u * (|s| + q) ≤ ra.u * (A + q) :=
      mul_le_mul_of_nonneg_left (add_le_add hS (le_refl _)) hu
    have h2 : ra.γ 2 * q ≤ ra.γ (k + 1 + 1) * q := mul_le_mul_of_nonneg_right hγ hq0
    have e1 : (1 + ra.u) * (ra.γ (k + 1) * A + ra.δ k + (ra.u * q + ra.η)) + ra.u * (A + q) =
        ra.γ (k + 1 + 1) * A + ra.γ 2 * q + (ra.δ k * (1 + ra.u) + ra.η * (1 + ra.u)) := by
      unfold Rounded.γ; ring
    have e2 : ra.δ k * (1 + ra.u) + ra.η * (1 + ra.u) ^ (k + 1) = ra.δ (k + 1) := by
      unfold Rounded.δ; push_cast; ring
    nlinarith [h1, h2, hkp, e1, e2]

variable [MDT T]

/-- A computed number times a computed reciprocal. -/
theorem RoundedRoots.quot_bound (ra : RoundedRoots T) {c : Nat} {s q d : T} {S B : ℝ} (hf : ra.fin (s * d)) (hqf : ra.fin q)
    (hd : MDT.recip q = .ok d) (hS : |S| ≤ B) (hb : |ra.val s - S| ≤ ra.γ (c + 1) * B + ra.δ c) :
    |ra.val (s * d) * ra.val q - S| ≤ ra.cholBound c B (ra.val q) := by
  have hu := ra.u_nonneg
  have hη := ra.η_nonneg
  obtain ⟨hs, hdf, hm⟩ := ra.mul_err _ _ hf
  obtain ⟨hq0, hr⟩ := ra.recip_err _ _ hd hqf hdf
  generalize ra.val (s * d) = l at *
  generalize ra.val s = s at *
  have hB0 : 0 ≤ B := (abs_nonneg _).trans hS
  generalize ra.val q = x at *
  generalize ra.val d = y at *
  set W := (1 + ra.u) ^ (c + 1) * B + ra.δ c with hW
  have hδ := ra.toRounded.δ_nonneg c
  have hsW : |s| ≤ W := by
    have h1 : |s| ≤ |s - S| + |S| := by
      refine le_trans (le_of_eq ?_) (abs_add_le _ _)
      congr 1; ring
    have : ra.γ (c + 1) * B + ra.δ c + B = W := by rw [hW]; unfold Rounded.γ; ring
    linarith
  have hW0 : 0 ≤ W := (abs_nonneg _).trans hsW
  have hx0 : 0 < |x| := abs_pos.mpr hq0
  -- |y x - 1|
  have h1 : |y * x - 1| ≤ ra.u + ra.η * |x| := by
    have e : y * x - 1 = (y - x⁻¹) * x := by field_simp
    rw [e, abs_mul]
    have := mul_le_mul_of_nonneg_right hr hx0.le
    rw [abs_inv] at this
    have e2 : (ra.u * |x|⁻¹ + ra.η) * |x| = ra.u + ra.η * |x| := by field_simp
    linarith
  have h2 : |s * y| * |x| ≤ |s| * (1 + ra.u + ra.η * |x|) := by
    have h3 : |y * x| ≤ 1 + ra.u + ra.η * |x| := by
      calc |y * x| = |(y * x - 1) + 1| := by congr 1; ring
        _ ≤ |y * x - 1| + |(1 : ℝ)| := abs_add_le _ _
        _ ≤ _ := by rw [abs_one]; linarith
    rw [abs_mul, mul_assoc, ← abs_mul]
    exact mul_le_mul_of_nonneg_left h3 (abs_nonneg _)
  have h3 : |l * x - s| ≤ |s| * (ra.γ 2 + (1 + ra.u) * ra.η * |x|) + ra.η * |x| := by
    calc |l * x - s| = |(l - s * y) * x + s * (y * x - 1)| := by congr 1; ring
      _ ≤ |(l - s * y) * x| + |s * (y * x - 1)| := abs_add_le _ _
      _ = |l - s * y| * |x| + |s| * |y * x - 1| := by rw [abs_mul, abs_mul]
      _ ≤ (ra.u * |s * y| + ra.η) * |x| + |s| * (ra.u + ra.η * |x|) :=
          add_le_add (mul_le_mul_of_nonneg_right hm hx0.le) (mul_le_mul_of_nonneg_left h1 (abs_nonneg _))
      _ = ra.u * (|s * y| * |x|) + ra.η * |x| + |s| * (ra.u + ra.η * |x|) := by ring
      _ ≤ ra.u * (|s| * (1 + ra.u + ra.η * |x|)) + ra.η * |x| + |s| * (ra.u + ra.η * |x|) := by
          have := mul_le_mul_of_nonneg_left h2 hu
          linarith
      _ = _ := by unfold Rounded.γ; ring
  have h4 : |s| * (ra.γ 2 + (1 + ra.u) * ra.η * |x|) ≤ W * (ra.γ 2 + (1 + ra.u) * ra.η * |x|) := by
    refine mul_le_mul_of_nonneg_right hsW ?_
    have := ra.toRounded.γ_nonneg 2
    positivity
  have h5 : |l * x - S| ≤ |l * x - s| + |s - S| := by
    refine le_trans (le_of_eq ?_) (abs_add_le _ _)
    congr 1; ring
  have e1 : ra.γ 2 * W + (ra.γ (c + 1) * B + ra.δ c) = ra.γ (c + 3) * B + (1 + ra.u) ^ 2 * ra.δ c := by
    rw [hW]; unfold Rounded.γ; ring
  have h6 : W * ((1 + ra.u) * ra.η * |x|) + ra.η * |x| ≤ (1 + ra.u) * ra.η * ((1 + |x|) * (1 + W)) := by
    have t1 : 0 ≤ ra.u * (ra.η * |x|) := by positivity
    have t2 : 0 ≤ (1 + ra.u) * ra.η * (1 + W) := by positivity
    nlinarith
  have h7 : 0 ≤ ra.η ^ 2 := sq_nonneg _
  unfold cholBound
  nlinarith

namespace RoundedInverse

/-- One entry of a substitution. -/
theorem subst_bound (ra : RoundedInverse T) {p : Fin n → Prop} [DecidablePred p] {i : Fin n} (hi : ¬ p i) {init q d : T}
    {v w : Fin n → T} (hf : ra.fin ((init + Spec.sumOver p fun k => (-v k) * w k) * d)) (hqf : ra.fin q)
    (hd : MDT.recip q = .ok d) :
    (ra.fin init ∧ ra.fin d ∧ ∀ k, p k → ra.fin (v k) ∧ ra.fin (w k)) ∧
    |ra.val ((init + Spec.sumOver p fun k => (-v k) * w k) * d) * ra.val q -
        (ra.val init - ∑ k, if p k then ra.val (v k) * ra.val (w k) else 0)| ≤
      ra.cholBound n (|ra.val init| + ∑ k, if p k then |ra.val (v k)| * |ra.val (w k)| else 0) (ra.val q) := by
  obtain ⟨z, hzf, hz, hsum⟩ := ra.isum_eq
  have hu := ra.u_nonneg
  have hη := ra.η_nonneg
  obtain ⟨hs, hdf, _⟩ := ra.mul_err _ _ hf
  obtain ⟨h1, h2, _⟩ := ra.add_err _ _ hs
  have h2' := h2
  unfold Spec.sumOver at h2'
  rw [hsum] at h2'
  obtain ⟨g1, g2⟩ := ra.toRounded.negDot_bound ra.neg_err hz (v := v) (w := w) _ h2'
  rw [sum_filter_map p (fun k => ra.val (v k) * ra.val (w k)), sum_filter_map p (fun k => |ra.val (v k)| * |ra.val (w k)|)] at g2
  have hlen : ((List.finRange n).filter (fun k => decide (p k))).length + 1 ≤ n := by
    have h0 : ((List.finRange n).filter (fun k => decide (p k))).length < (List.finRange n).length :=
      List.length_filter_lt_length_iff_exists.mpr ⟨i, List.mem_finRange _, by simpa using hi⟩
    rw [List.length_finRange] at h0
    omega
  generalize hl : ((List.finRange n).filter (fun k => decide (p k))).length = len at *
  refine ⟨⟨h1, hdf, fun k hk => g1 k (by simpa using hk)⟩, ?_⟩
  have e0 : MDT.isum (((List.finRange n).filter (fun k => decide (p k))).map fun k => (-v k) * w k) =
      Spec.sumOver p fun k => (-v k) * w k := rfl
  rw [← hsum, e0] at g2
  have hA0 : 0 ≤ ∑ k, if p k then |ra.val (v k)| * |ra.val (w k)| else 0 :=
    Finset.sum_nonneg fun k _ => by split_ifs <;> positivity
  have hS : |∑ k, if p k then ra.val (v k) * ra.val (w k) else 0| ≤
      ∑ k, if p k then |ra.val (v k)| * |ra.val (w k)| else 0 := by
    refine (Finset.abs_sum_le_sum_abs _ _).trans (Finset.sum_le_sum fun k _ => ?_)
    split_ifs
    · exact (abs_mul _ _).le
    · simp
  have hb := ra.toRounded.add_bound (a := init) (S := ra.val init) (ea := 0) hs (by simp) g2
  generalize hA : (∑ k, if p k then |ra.val (v k)| * |ra.val (w k)| else 0) = A at *
  generalize (∑ k, if p k then ra.val (v k) * ra.val (w k) else 0) = σ at *
  have hI := abs_nonneg (ra.val init)
  refine (ra.quot_bound (c := len + 1) (S := ra.val init - σ) (B := |ra.val init| + A) hf hqf hd ?_ ?_).trans
    (ra.cholBound_mono hlen (by positivity) (le_refl _))
  · exact (abs_sub _ _).trans (by linarith)
  · rw [← sub_eq_add_neg] at hb
    refine hb.trans ?_
    rw [abs_neg]
    have t1 : ra.u * |σ| ≤ ra.u * A := mul_le_mul_of_nonneg_left hS hu
    have e1 : (1 + ra.u) * (0 + (ra.γ (len + 1) * A + ra.δ len)) + ra.u * (|ra.val init| + A) =
        ra.γ (len + 1 + 1) * A + ra.u * |ra.val init| + (1 + ra.u) * ra.δ len := by unfold Rounded.γ; ring
    have t2 : ra.u ≤ ra.γ (len + 1 + 1) := by
      have := ra.toRounded.γ_mono (show 1 ≤ len + 1 + 1 by omega)
      unfold Rounded.γ at this ⊢; simpa using this
    have t3 : ra.u * |ra.val init| ≤ ra.γ (len + 1 + 1) * |ra.val init| := mul_le_mul_of_nonneg_right t2 hI
    have t4 : (1 + ra.u) * ra.δ len ≤ ra.δ (len + 1) := by
      unfold Rounded.δ
      push_cast
      have : 0 ≤ (1 + ra.u) ^ (len + 1) * ra.η := by positivity
      have e : (len + 1 : ℝ) * (1 + ra.u) ^ (len + 1) * ra.η =
        (1 + ra.u) * (len * (1 + ra.u) ^ len * ra.η) + (1 + ra.u) ^ (len + 1) * ra.η := by ring
      rw [e]; linarith
    nlinarith

/-- A sum with one index taken out. -/
theorem sum_split {p : Fin n → Prop} [DecidablePred p] {i : Fin n} (hi : ¬ p i) {t : Fin n → ℝ}
    (h0 : ∀ k, ¬ p k → k ≠ i → t k = 0) : ∑ k, t k = t i + ∑ k, if p k then t k else 0 := by
  rw [← Finset.add_sum_erase _ _ (Finset.mem_univ i), ← Finset.add_sum_erase (a := i) _ (fun k => if p k then t k else 0)
    (Finset.mem_univ i), if_neg hi, zero_add]
  congr 1
  refine Finset.sum_congr rfl fun k hk => ?_
  split_ifs with h
  · rfl
  · exact h0 k h (Finset.ne_of_mem_erase hk)

theorem sum_part_le {p : Fin n → Prop} [DecidablePred p] {t : Fin n → ℝ} (h0 : ∀ k, 0 ≤ t k) :
    ∑ k, (if p k then t k else 0) ≤ ∑ k, t k :=
  Finset.sum_le_sum fun k _ => by split_ifs; exacts [le_rfl, h0 k]

theorem part_nonneg {p : Fin n → Prop} [DecidablePred p] {t : Fin n → ℝ} (h0 : ∀ k, 0 ≤ t k) :
    0 ≤ ∑ k, (if p k then t k else 0) :=
  Finset.sum_nonneg fun k _ => by split_ifs; exacts [h0 k, le_rfl]

variable {L M X : Matrix (Fin n) (Fin n) T}

/-- The residual of the inverse of the factor. -/
theorem factor_residual (ra : RoundedInverse T) (hL : ∀ i j, i < j → L i j = 0) (hM : Spec.FactorInverse L M)
    (hLf : ∀ i, ra.fin (L i i)) (hMf : ∀ i j, j ≤ i → ra.fin (M i j)) (i j : Fin n) :
    |(ra.valM L * ra.valM M) i j - (1 : Matrix (Fin n) (Fin n) ℝ) i j| ≤ ra.factorErr L M i j := by
  show _ ≤ if j ≤ i then _ else _
  by_cases hij : j ≤ i
  · rw [if_pos hij]
    obtain ⟨d, hd, e⟩ := hM.entry i j hij
    have hf := hMf i j hij
    rw [e] at hf
    obtain ⟨_, hb⟩ := ra.subst_bound (p := fun k => j ≤ k ∧ k < i) (i := i) (by simp) (v := fun k => L i k)
      (w := fun k => M k j) hf (hLf i) hd
    rw [← e] at hb
    have hsplit : (ra.valM L * ra.valM M) i j = ra.val (L i i) * ra.val (M i j) +
        ∑ k, if j ≤ k ∧ k < i then ra.val (L i k) * ra.val (M k j) else 0 := by
      rw [Matrix.mul_apply]
      refine sum_split (p := fun k => j ≤ k ∧ k < i) (i := i) (by simp) (t := fun k => ra.val (L i k) * ra.val (M k j)) ?_
      intro k hk hki
      rcases lt_or_ge k j with h | h
      · rw [hM.above k j h, ra.val_zero, mul_zero]
      · rw [hL i k (by by_contra hc; exact hk ⟨h, lt_of_le_of_ne (not_lt.mp hc) hki⟩), ra.val_zero, zero_mul]
    have hone : ra.val (if i = j then 1 else 0 : T) = (1 : Matrix (Fin n) (Fin n) ℝ) i j := by
      rw [Matrix.one_apply]; split_ifs; exacts [ra.val_one, ra.val_zero]
    have hone' : |(1 : Matrix (Fin n) (Fin n) ℝ) i j| = if i = j then 1 else 0 := by
      rw [Matrix.one_apply]; split_ifs <;> simp
    rw [hone, hone'] at hb
    rw [hsplit]
    have hn0 : ∀ k, 0 ≤ |ra.val (L i k)| * |ra.val (M k j)| := fun k => by positivity
    refine le_trans (le_of_eq ?_) (hb.trans (ra.cholBound_mono le_rfl ?_ ?_))
    · congr 1; ring
    · have := part_nonneg (p := fun k => j ≤ k ∧ k < i) hn0
      split_ifs <;> linarith
    · exact add_le_add (le_refl _) (sum_part_le hn0)
  · rw [if_neg hij]
    rw [Matrix.mul_apply, Matrix.one_apply, if_neg (fun h => hij h.ge), sub_zero]
    rw [Finset.sum_eq_zero, abs_zero]
    intro k _
    show ra.val (L i k) * ra.val (M k j) = 0
    rcases lt_or_ge k j with h | h
    · rw [hM.above k j h, ra.val_zero, mul_zero]
    · rw [hL i k (lt_of_lt_of_le (not_le.mp hij) h), ra.val_zero, zero_mul]

/-- Finite solutions come from finite right hand sides. -/
theorem solve_fin (ra : RoundedInverse T) (hX : Spec.TransposedSolve L M X)
    (hXf : ∀ i j, ra.fin (X i j)) (i j : Fin n) (hij : j ≤ i) : ra.fin (M i j) ∧ ∃ d, MDT.recip (L i i) = .ok d ∧ ra.fin d := by
  obtain ⟨d, hd, e⟩ := hX.entry i j hij
  have hf := hXf i j
  rw [e] at hf
  obtain ⟨h1, h2, _⟩ := ra.mul_err _ _ hf
  exact ⟨(ra.add_err _ _ h1).1, d, hd, h2⟩

/-- The residual of the solution. -/
theorem solve_residual (ra : RoundedInverse T) (hL : ∀ i j, i < j → L i j = 0) (hX : Spec.TransposedSolve L M X)
    (hLf : ∀ i, ra.fin (L i i)) (hXf : ∀ i j, ra.fin (X i j)) (i j : Fin n) (hij : j ≤ i) :
    |((ra.valM L).transpose * ra.valM X) i j - ra.val (M i j)| ≤ ra.solveErr L M X i j := by
  show _ ≤ if j ≤ i then _ else _
  rw [if_pos hij]
  obtain ⟨d, hd, e⟩ := hX.entry i j hij
  have hf := hXf i j
  rw [e] at hf
  obtain ⟨_, hb⟩ := ra.subst_bound (p := fun k => i < k) (i := i) (by simp) (v := fun k => L k i)
    (w := fun k => X k j) hf (hLf i) hd
  rw [← e] at hb
  have hsplit : ((ra.valM L).transpose * ra.valM X) i j = ra.val (L i i) * ra.val (X i j) +
      ∑ k, if i < k then ra.val (L k i) * ra.val (X k j) else 0 := by
    rw [Matrix.mul_apply]
    refine sum_split (p := fun k => i < k) (i := i) (by simp) (t := fun k => ra.val (L k i) * ra.val (X k j)) ?_
    intro k hk hki
    rw [hL k i (lt_of_le_of_ne (not_lt.mp hk) hki), ra.val_zero, zero_mul]
  rw [hsplit]
  have hn0 : ∀ k, 0 ≤ |ra.val (L k i)| * |ra.val (X k j)| := fun k => by positivity
  refine le_trans (le_of_eq ?_) (hb.trans (ra.cholBound_mono le_rfl ?_ ?_))
  · congr 1; ring
  · exact add_nonneg (abs_nonneg _) (part_nonneg hn0)
  · exact add_le_add (le_refl _) (sum_part_le hn0)

open Matrix

/-- The error of the inverse. -/
theorem inverse_error (ra : RoundedInverse T) (hL : ∀ i j, i < j → L i j = 0) (hM : Spec.FactorInverse L M)
    (hX : Spec.TransposedSolve L M X) (hLf : ∀ i, ra.fin (L i i)) (hXf : ∀ i j, ra.fin (X i j)) (i j : Fin n) :
    |ra.val (X i j) - (ra.valM L * (ra.valM L)ᵀ)⁻¹ i j| ≤ ra.inverseErr L M X i j := by
  have hd : ∀ i, ra.valM L i i ≠ 0 := fun i => by
    obtain ⟨_, d, h1, h2⟩ := ra.solve_fin hX hXf i i le_rfl
    exact (ra.recip_err _ _ h1 (hLf i) h2).1
  have hL' : ∀ i j, i < j → ra.valM L i j = 0 := fun i j h => by
    show ra.val (L i j) = 0
    rw [hL i j h, ra.val_zero]
  have hdet : IsUnit (ra.valM L).det := (Matrix.isUnit_iff_isUnit_det _).mp (isUnit_of_lower hL' hd)
  have hdetT : IsUnit (ra.valM L)ᵀ.det := by rwa [Matrix.det_transpose]
  have hinvLow : ∀ k j : Fin n, k < j → (ra.valM L)⁻¹ k j = 0 := by
    let _ := Matrix.invertibleOfIsUnitDet (ra.valM L) hdet
    exact fun k j h => Matrix.blockTriangular_inv_of_blockTriangular (M := ra.valM L) (b := OrderDual.toDual)
      (fun i j h => hL' i j h) h
  set Li := (ra.valM L)⁻¹ with hLi
  have hinv : (ra.valM L * (ra.valM L)ᵀ)⁻¹ = Liᵀ * Li := by
    rw [Matrix.mul_inv_rev, hLi, Matrix.transpose_nonsing_inv]
  have hMf := fun i j h => (ra.solve_fin hX hXf i j h).1
  -- the error in terms of the residuals
  have key : ra.valM X - Liᵀ * Li = Liᵀ * (((ra.valM L)ᵀ * ra.valM X - ra.valM M) + Li * (ra.valM L * ra.valM M - 1)) := by
    have e1 : Liᵀ * ((ra.valM L)ᵀ * ra.valM X) = ra.valM X := by
      rw [hLi, Matrix.transpose_nonsing_inv, ← Matrix.mul_assoc, Matrix.nonsing_inv_mul _ hdetT, Matrix.one_mul]
    have e2 : Li * (ra.valM L * ra.valM M) = ra.valM M := by
      rw [hLi, ← Matrix.mul_assoc, Matrix.nonsing_inv_mul _ hdet, Matrix.one_mul]
    rw [Matrix.mul_sub Li, e2, Matrix.mul_one, Matrix.mul_add, Matrix.mul_sub, e1, Matrix.mul_sub]
    abel
  have main : ∀ i j : Fin n, j ≤ i → |ra.val (X i j) - (Liᵀ * Li) i j| ≤
      ((absR Li)ᵀ * (ra.solveErr L M X + absR Li * ra.factorErr L M)) i j := by
    intro i j hij
    have e : ra.val (X i j) - (Liᵀ * Li) i j = (ra.valM X - Liᵀ * Li) i j := rfl
    rw [e, key, Matrix.mul_apply, Matrix.mul_apply]
    refine (Finset.abs_sum_le_sum_abs _ _).trans (Finset.sum_le_sum fun k _ => ?_)
    rcases lt_or_ge k i with hk | hk
    · have h0 : Liᵀ i k = 0 := hinvLow k i hk
      have h0' : (absR Li)ᵀ i k = 0 := by show |Li k i| = 0; rw [hinvLow k i hk, abs_zero]
      rw [h0, h0']; simp
    · rw [abs_mul]
      refine mul_le_mul_of_nonneg_left ?_ (abs_nonneg _)
      rw [Matrix.add_apply, Matrix.add_apply]
      refine (abs_add_le _ _).trans (add_le_add ?_ ?_)
      · exact ra.solve_residual hL hX hLf hXf k j (hij.trans hk)
      · rw [Matrix.mul_apply, Matrix.mul_apply]
        refine (Finset.abs_sum_le_sum_abs _ _).trans (Finset.sum_le_sum fun l _ => ?_)
        rw [abs_mul]
        exact mul_le_mul_of_nonneg_left (ra.factor_residual hL hM hLf hMf l j) (abs_nonneg _)
  rw [hinv]
  show _ ≤ ((absR Li)ᵀ * (ra.solveErr L M X + absR Li * ra.factorErr L M)) (max i j) (min i j)
  rcases le_total j i with h | h
  · rw [max_eq_left h, min_eq_right h]; exact main i j h
  · rw [max_eq_right h, min_eq_left h, hX.symm i j]
    have : (Liᵀ * Li) i j = (Liᵀ * Li) j i := by
      have : (Liᵀ * Li)ᵀ = Liᵀ * Li := by rw [Matrix.transpose_mul, Matrix.transpose_transpose]
      exact congrFun (congrFun this j) i
    rw [this]
    exact main j i h

end RoundedInverse

/-! ## The code -/

theorem invert_any_matrix {m inverse inv : Mat n n T} {L : Matrix (Fin n) (Fin n) T} (hn : 0 < n) (hm : m.RepsLower L)
    (hv : inverse.Valid) (h : m.invertLCholesky inverse = .ok inv) :
    ∃ M X, inv.Reps X ∧ inverse.SameTail inv ∧ Spec.FactorInverse L M ∧ Spec.TransposedSolve L M X := by
  obtain ⟨h1, h2, M, d, h3, h4, h5⟩ := inv_any hn hm.valid hv h
  have hvi : inv.Valid := h1.le hv
  refine ⟨Matrix.of fun i j => if j ≤ i then M i j else 0, Matrix.of fun i j => cl n inv.data i j,
    fun i j => getElem?_cl hvi i.2 j.2, h1, ⟨fun i j hij => ?_, fun i j hij => ⟨d i, ?_, ?_⟩⟩,
    ⟨fun i j => h2 i j i.2 j.2, fun i j hij => ⟨d i, ?_, ?_⟩⟩⟩
  · exact if_neg (not_le.mpr hij)
  · rw [← hm.cl i i le_rfl]; exact h3 i i.2
  · show (if j ≤ i then M i j else 0) = _
    rw [if_pos hij, h4 i j i.2 hij]
    unfold invRec1 Spec.sumOver
    congr 2
    · by_cases e : i = j
      · rw [if_pos e, if_pos (congrArg Fin.val e)]
      · rw [if_neg e, if_neg (fun h => e (Fin.ext h))]
    · congr 1
      rw [← finRange_filter_map (by omega : i.1 ≤ n)]
      refine List.map_congr_left fun k hk => ?_
      have hk' : j ≤ k ∧ k < i := by simpa using hk
      show _ = -L i k * (if j ≤ k then M k j else 0)
      rw [if_pos hk'.1, hm.cl i k hk'.2.le]
  · rw [← hm.cl i i le_rfl]; exact h3 i i.2
  · show cl n inv.data i j = ((if j ≤ i then M i j else 0) + _) * _
    rw [if_pos hij, h5 i j i.2 hij]
    unfold invRec2 Spec.sumOver
    congr 3
    rw [← finRange_filter_map (le_refl n)]
    have e : (List.finRange n).filter (fun k : Fin n => decide (i.1 + 1 ≤ k.1 ∧ k.1 < n)) =
        (List.finRange n).filter (fun k : Fin n => decide (i < k)) := by
      apply List.filter_congr
      intro k _
      have := k.2
      simp only [decide_eq_decide, Fin.lt_def]; omega
    rw [e]
    refine List.map_congr_left fun k hk => ?_
    have hk' : i < k := by simpa using hk
    show _ = -L k i * cl n inv.data k j
    rw [hm.cl k i hk'.le]

end Minikalman
