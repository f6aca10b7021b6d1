import Verif.Proofs.Grid
import Verif.Spec.Exact
import Mathlib.LinearAlgebra.Matrix.Block
import Mathlib.LinearAlgebra.Matrix.NonsingularInverse

/-! # Inversion from the Cholesky factor -/

set_option linter.unusedSectionVars false

namespace Minikalman

open Finset

variable {T : Type} {n : Nat}

theorem collect_eq {lo hi : Nat} {f : Nat → Res T} {g : Nat → T} (hle : lo ≤ hi)
    (h : ∀ k, lo ≤ k → k < hi → f k = .ok (g k)) :
    Mat.collect lo hi f = .ok ((List.range' lo (hi - lo)).map g) := by
  unfold Mat.collect
  refine forUp_eq (fun k => (List.range' lo (k - lo)).map g) hle (by simp) ?_
  intro k h1 h2
  rw [h k h1 h2, res_bind_ok, show k + 1 - lo = (k - lo) + 1 by omega, List.range'_concat]
  simp [pure, Except.pure]
  congr 1; omega

theorem sum_range'_map {M : Type} [AddCommMonoid M] (g : Nat → M) (lo k : Nat) :
    ((List.range' lo k).map g).sum = ∑ i ∈ Ico lo (lo + k), g i := by
  induction k with
  | zero => simp
  | succ k ih =>
    rw [List.range'_concat, List.map_append, List.sum_append, ih, ← add_assoc, sum_Ico_succ_top (by omega)]
    simp

section AnyArith
variable [Zero T] [One T] [Add T] [Sub T] [Mul T] [Neg T] [MDT T]

/-- Body of the first outer loop. -/
def invBody1 (n : Nat) (mat : List T) (i : Nat) (inv : List T) : Res (List T) := do
  let elII ← rd mat (i * n + i)
  let invElII ← MDT.recip elII
  forUp 0 (i + 1) (fun j inv => do
    let sum : T := if i = j then 1 else 0
    let terms ← Mat.collect j i (fun k => do
      let mv ← rd mat (i * n + k)
      let iv ← rd inv (j * n + k)
      pure ((-mv) * iv))
    let sum := sum + MDT.isum terms
    wr inv (j * n + i) (sum * invElII)) inv

/-- Body of the second outer loop. -/
def invBody2 (n : Nat) (mat : List T) (i : Nat) (inv : List T) : Res (List T) := do
  let elII ← rd mat (i * n + i)
  let invElII ← MDT.recip elII
  forUp 0 (i + 1) (fun j inv => do
    let s0 ← rd inv (j * n + i)
    let sum := if i < j then 0 else s0
    let terms ← Mat.collect (i + 1) n (fun k => do
      let mv ← rd mat (k * n + i)
      let iv ← rd inv (j * n + k)
      pure ((-mv) * iv))
    let sum := sum + MDT.isum terms
    let value := sum * invElII
    let inv ← wr inv (i * n + j) value
    wr inv (j * n + i) value) inv

theorem invert_unfold (m inverse : Mat n n T) (hn : 0 < n) :
    m.invertLCholesky inverse = (do
      let inv ← forUp 0 n (invBody1 n m.data) inverse.data
      let inv ← forDown n (invBody2 n m.data) inv
      pure ⟨inv⟩) := by
  unfold Mat.invertLCholesky
  simp only [usub_eq (show 1 ≤ n by omega), show n - 1 + 1 = n by omega, res_bind_ok]
  rfl

/-- Value written by the first phase. -/
def val1 (n : Nat) (mat inv : List T) (d : T) (i j : Nat) : T :=
  ((if i = j then 1 else 0) + MDT.isum ((List.range' j (i - j)).map fun k => (-cl n mat i k) * cl n inv j k)) * d

/-- Value written by the second phase. -/
def val2 (n : Nat) (mat inv : List T) (d : T) (i j : Nat) : T :=
  (cl n inv j i + MDT.isum ((List.range' (i + 1) (n - (i + 1))).map fun k => (-cl n mat k i) * cl n inv j k)) * d

theorem invBody1_eq {mat inv : List T} (hm : n * n ≤ mat.length) {i : Nat} (hi : i < n) :
    invBody1 n mat i inv = (do
      let d ← MDT.recip (cl n mat i i)
      forUp 0 (i + 1) (fun j inv => do
        let terms ← Mat.collect j i (fun k => do
          let mv ← rd mat (i * n + k)
          let iv ← rd inv (j * n + k)
          pure ((-mv) * iv))
        wr inv (j * n + i) (((if i = j then 1 else 0) + MDT.isum terms) * d)) inv) := by
  unfold invBody1
  rw [rd_eq (getElem?_cl hm hi hi)]
  rfl

theorem invStep1 {mat inv : List T} (hm : n * n ≤ mat.length) (hv : n * n ≤ inv.length) {i j : Nat} (hi : i < n)
    (hj : j ≤ i) (d : T) :
    (do
        let terms ← Mat.collect j i (fun k => do
          let mv ← rd mat (i * n + k)
          let iv ← rd inv (j * n + k)
          pure ((-mv) * iv))
        wr inv (j * n + i) (((if i = j then 1 else 0) + MDT.isum terms) * d) : Res (List T))
    = .ok (inv.set (j * n + i) (val1 n mat inv d i j)) := by
  rw [collect_eq (g := fun k => (-cl n mat i k) * cl n inv j k) hj]
  · rw [res_bind_ok, wr_eq (lt_of_lt_of_le (idx_lt (by omega) hi) hv)]; rfl
  · intro k h1 h2
    simp only [rd_eq (getElem?_cl hm hi (show k < n by omega)), rd_eq (getElem?_cl hv (show j < n by omega)
      (show k < n by omega)), res_bind_ok]
    rfl

theorem invBody2_eq {mat inv : List T} (hm : n * n ≤ mat.length) {i : Nat} (hi : i < n) :
    invBody2 n mat i inv = (do
      let d ← MDT.recip (cl n mat i i)
      forUp 0 (i + 1) (fun j inv => do
        let s0 ← rd inv (j * n + i)
        let terms ← Mat.collect (i + 1) n (fun k => do
          let mv ← rd mat (k * n + i)
          let iv ← rd inv (j * n + k)
          pure ((-mv) * iv))
        let inv ← wr inv (i * n + j) (((if i < j then 0 else s0) + MDT.isum terms) * d)
        wr inv (j * n + i) (((if i < j then 0 else s0) + MDT.isum terms) * d)) inv) := by
  unfold invBody2
  rw [rd_eq (getElem?_cl hm hi hi)]
  rfl

theorem invStep2 {mat inv : List T} (hm : n * n ≤ mat.length) (hv : n * n ≤ inv.length) {i j : Nat} (hi : i < n)
    (hj : j ≤ i) (d : T) :
    (do
        let s0 ← rd inv (j * n + i)
        let terms ← Mat.collect (i + 1) n (fun k => do
          let mv ← rd mat (k * n + i)
          let iv ← rd inv (j * n + k)
          pure ((-mv) * iv))
        let inv ← wr inv (i * n + j) (((if i < j then 0 else s0) + MDT.isum terms) * d)
        wr inv (j * n + i) (((if i < j then 0 else s0) + MDT.isum terms) * d) : Res (List T))
    = .ok ((inv.set (i * n + j) (val2 n mat inv d i j)).set (j * n + i) (val2 n mat inv d i j)) := by
  rw [collect_eq (g := fun k => (-cl n mat k i) * cl n inv j k) (by omega)]
  · rw [rd_eq (getElem?_cl hv (show j < n by omega) hi)]
    simp only [res_bind_ok, if_neg (show ¬ i < j by omega)]
    rw [wr_eq (lt_of_lt_of_le (idx_lt hi (by omega)) hv), res_bind_ok, wr_eq]
    · rfl
    · rw [List.length_set]; exact lt_of_lt_of_le (idx_lt (by omega) hi) hv
  · intro k h1 h2
    simp only [rd_eq (getElem?_cl hm h2 hi), rd_eq (getElem?_cl hv (show j < n by omega) h2), res_bind_ok]
    rfl

/-! ## Exact symmetry (any arithmetic) -/

theorem cl_set_pair {t : List T} (h : n * n ≤ t.length) {a b r c : Nat} (ha : a < n) (hb : b < n)
    (hc : c < n) (v : T) :
    cl n ((t.set (a * n + b) v).set (b * n + a) v) r c =
      if (r = a ∧ c = b) ∨ (r = b ∧ c = a) then v else cl n t r c := by
  rw [cl_set (by simpa using h) hb ha hc, cl_set h ha hb hc]
  by_cases h1 : b = r ∧ a = c
  · rw [if_pos h1, if_pos (by omega)]
  · rw [if_neg h1]
    by_cases h2 : a = r ∧ b = c
    · rw [if_pos h2, if_pos (by omega)]
    · rw [if_neg h2, if_neg (by omega)]

theorem invert_tail {m inverse : Mat n n T} (hn : 0 < n) (hm : m.Valid) (hv : inverse.Valid) :
    Part (m.invertLCholesky inverse) (fun r => TailEq n inverse.data r.data ∧
      ∀ a b, a < n → b < n → cl n r.data a b = cl n r.data b a) := by
  rw [invert_unfold _ _ hn]
  refine (part_forUp (I := fun _ inv => TailEq n inverse.data inv) (Nat.zero_le _) (TailEq.refl _) ?_).bind
    fun inv hinv => ?_
  · intro i inv _ hi hinv
    rw [invBody1_eq hm hi]
    refine (Part.any _).bind fun d _ => part_forUp (I := fun _ inv => TailEq n inverse.data inv) (Nat.zero_le _) hinv ?_
    intro j inv _ hj hinv
    rw [invStep1 hm (hinv.le hv) hi (by omega)]
    exact Part.ok (hinv.set (by omega) hi _)
  · refine (part_forDown (I := fun i inv => TailEq n inverse.data inv ∧
      ∀ a b, a < n → b < n → (i ≤ a ∨ i ≤ b) → cl n inv a b = cl n inv b a) ⟨hinv, fun a b _ _ _ => by omega⟩ ?_).bind
      fun inv hinv => Part.pure ⟨hinv.1, fun a b ha hb => hinv.2 a b ha hb (by omega)⟩
    intro i inv hi hinv
    rw [invBody2_eq hm hi]
    refine (Part.any _).bind fun d _ => (part_forUp (I := fun j inv => TailEq n inverse.data inv ∧
      ∀ a b, a < n → b < n → (i + 1 ≤ a ∨ i + 1 ≤ b ∨ (a = i ∧ b < j) ∨ (b = i ∧ a < j)) →
        cl n inv a b = cl n inv b a) (Nat.zero_le _) ⟨hinv.1, fun a b ha hb h => hinv.2 a b ha hb (by omega)⟩ ?_).mono ?_
    · intro j inv _ hj hinv
      rw [invStep2 hm (hinv.1.le hv) hi (by omega)]
      refine Part.ok ⟨(hinv.1.set hi (by omega) _).set (by omega) hi _, fun a b ha hb h => ?_⟩
      rw [cl_set_pair (hinv.1.le hv) hi (by omega) hb, cl_set_pair (hinv.1.le hv) hi (by omega) ha]
      by_cases h1 : (a = i ∧ b = j) ∨ (a = j ∧ b = i)
      · rw [if_pos h1, if_pos (by omega)]
      · rw [if_neg h1, if_neg (by omega)]
        exact hinv.2 a b ha hb (by omega)
    · rintro inv ⟨h1, h2⟩
      exact ⟨h1, fun a b ha hb h => h2 a b ha hb (by omega)⟩

/-! ## Independence of the old output and of the strict upper triangle (any arithmetic) -/

theorem invert_rel {m m' inverse inverse' : Mat n n T} (hn : 0 < n) (hm : m.Valid) (hm' : m'.Valid)
    (hv : inverse.Valid) (hv' : inverse'.Valid)
    (hag : ∀ r c, r < n → c ≤ r → cl n m.data r c = cl n m'.data r c) :
    Rel2 (m.invertLCholesky inverse) (m'.invertLCholesky inverse')
      (fun a b => TailEq n inverse.data a.data ∧ TailEq n inverse'.data b.data ∧
        ∀ r c, r < n → c < n → cl n a.data r c = cl n b.data r c) := by
  rw [invert_unfold _ _ hn, invert_unfold _ _ hn]
  refine (rel2_forUp (I := fun i a b => TailEq n inverse.data a ∧ TailEq n inverse'.data b ∧
    ∀ r c, r ≤ c → c < n → c < i → cl n a r c = cl n b r c) (Nat.zero_le _)
    ⟨TailEq.refl _, TailEq.refl _, fun _ _ _ _ h => by omega⟩ ?_).bind fun a b hab => ?_
  · rintro i a b _ hi ⟨ht, ht', hab⟩
    rw [invBody1_eq hm hi, invBody1_eq hm' hi, hag i i hi le_rfl]
    refine (Rel2.refl _).bind fun d d' hd => ?_
    subst hd
    refine (rel2_forUp (I := fun j a b => TailEq n inverse.data a ∧ TailEq n inverse'.data b ∧
      ∀ r c, r ≤ c → c < n → (c < i ∨ (c = i ∧ r < j)) → cl n a r c = cl n b r c) (Nat.zero_le _)
      ⟨ht, ht', fun r c h1 h2 h3 => hab r c h1 h2 (by omega)⟩ ?_).mono ?_
    · rintro j a b _ hj ⟨ht, ht', hab⟩
      rw [invStep1 hm (ht.le hv) hi (by omega), invStep1 hm' (ht'.le hv') hi (by omega)]
      have hval : val1 n m.data a d i j = val1 n m'.data b d i j := by
        unfold val1
        congr 3
        apply List.map_congr_left
        intro k hk
        rw [List.mem_range'_1] at hk
        rw [hag i k hi (by omega), hab j k (by omega) (by omega) (by omega)]
      refine Rel2.ok ⟨ht.set (by omega) hi _, ht'.set (by omega) hi _, fun r c h1 h2 h3 => ?_⟩
      rw [cl_set (ht.le hv) (by omega) hi h2, cl_set (ht'.le hv') (by omega) hi h2, hval]
      by_cases h4 : j = r ∧ i = c
      · rw [if_pos h4, if_pos h4]
      · rw [if_neg h4, if_neg h4]; exact hab r c h1 h2 (by omega)
    · rintro a b ⟨ht, ht', hab⟩
      exact ⟨ht, ht', fun r c h1 h2 h3 => hab r c h1 h2 (by omega)⟩
  · obtain ⟨ht, ht', hab⟩ := hab
    refine (rel2_forDown (I := fun i a b => TailEq n inverse.data a ∧ TailEq n inverse'.data b ∧
      ∀ r c, r < n → c < n → (r ≤ c ∨ i ≤ r) → cl n a r c = cl n b r c)
      ⟨ht, ht', fun r c h1 h2 h3 => hab r c (by omega) h2 h2⟩ ?_).bind fun a b hab => Rel2.pure
        ⟨hab.1, hab.2.1, fun r c h1 h2 => hab.2.2 r c h1 h2 (by omega)⟩
    rintro i a b hi ⟨ht, ht', hab⟩
    rw [invBody2_eq hm hi, invBody2_eq hm' hi, hag i i hi le_rfl]
    refine (Rel2.refl _).bind fun d d' hd => ?_
    subst hd
    refine (rel2_forUp (I := fun j a b => TailEq n inverse.data a ∧ TailEq n inverse'.data b ∧
      ∀ r c, r < n → c < n → (r ≤ c ∨ i + 1 ≤ r ∨ (r = i ∧ c < j)) → cl n a r c = cl n b r c) (Nat.zero_le _)
      ⟨ht, ht', fun r c h1 h2 h3 => hab r c h1 h2 (by omega)⟩ ?_).mono ?_
    · rintro j a b _ hj ⟨ht, ht', hab⟩
      rw [invStep2 hm (ht.le hv) hi (by omega), invStep2 hm' (ht'.le hv') hi (by omega)]
      have hval : val2 n m.data a d i j = val2 n m'.data b d i j := by
        unfold val2
        rw [hab j i (by omega) hi (by omega)]
        congr 3
        apply List.map_congr_left
        intro k hk
        rw [List.mem_range'_1] at hk
        rw [hag k i (by omega) (by omega), hab j k (by omega) (by omega) (by omega)]
      refine Rel2.ok ⟨(ht.set hi (by omega) _).set (by omega) hi _, (ht'.set hi (by omega) _).set (by omega) hi _,
        fun r c h1 h2 h3 => ?_⟩
      rw [cl_set_pair (ht.le hv) hi (by omega) h2, cl_set_pair (ht'.le hv') hi (by omega) h2, hval]
      by_cases h4 : (r = i ∧ c = j) ∨ (r = j ∧ c = i)
      · rw [if_pos h4, if_pos h4]
      · rw [if_neg h4, if_neg h4]; exact hab r c h1 h2 (by omega)
    · rintro a b ⟨ht, ht', hab⟩
      exact ⟨ht, ht', fun r c h1 h2 h3 => hab r c h1 h2 (by omega)⟩

end AnyArith

/-! ## Exact arithmetic: the inverse -/

section Exact
variable [Field T] [MDT T] [ExactField T]

theorem val1_eq {mat inv : List T} {d : T} {i j : Nat} (hj : j ≤ i) :
    val1 n mat inv d i j = ((if i = j then 1 else 0) - ∑ k ∈ Ico j i, cl n mat i k * cl n inv j k) * d := by
  unfold val1
  rw [ExactField.isum_eq, sum_range'_map, show j + (i - j) = i by omega]
  simp [sub_eq_add_neg]

theorem val2_eq {mat inv : List T} {d : T} {i j : Nat} (hi : i < n) :
    val2 n mat inv d i j = (cl n inv j i - ∑ k ∈ Ico (i + 1) n, cl n mat k i * cl n inv j k) * d := by
  unfold val2
  rw [ExactField.isum_eq, sum_range'_map, show i + 1 + (n - (i + 1)) = n by omega]
  simp [sub_eq_add_neg]

/-- Phases on grids: `X` plays the inverse of the factor, `W` the inverse of the product. -/
theorem invert_grid {m inverse : Mat n n T} (hn : 0 < n) (hm : m.Valid) (hv : inverse.Valid)
    (X W : Nat → Nat → T) (hd : ∀ i, i < n → cl n m.data i i ≠ 0)
    (hX : ∀ i j, i < n → j ≤ i → ∑ k ∈ Ico j (i + 1), cl n m.data i k * X k j = if i = j then 1 else 0)
    (hW : ∀ i j, i < n → j ≤ i → ∑ k ∈ Ico i n, cl n m.data k i * W j k = X i j)
    (hsym : ∀ i j, i < n → j < n → W i j = W j i) :
    Holds (m.invertLCholesky inverse) (fun r => TailEq n inverse.data r.data ∧
      ∀ i j, i < n → j < n → cl n r.data i j = W i j) := by
  rw [invert_unfold _ _ hn]
  refine (forUp_inv (I := fun i inv => TailEq n inverse.data inv ∧
    ∀ r c, r ≤ c → c < n → c < i → cl n inv r c = X c r) (Nat.zero_le _)
    ⟨TailEq.refl _, fun _ _ _ _ h => by omega⟩ ?_).bind fun inv hinv => ?_
  · rintro i inv _ hi ⟨ht, hinv⟩
    rw [invBody1_eq hm hi, ExactField.recip_eq _ (hd i hi), res_bind_ok]
    refine (forUp_inv (I := fun j inv => TailEq n inverse.data inv ∧
      ∀ r c, r ≤ c → c < n → (c < i ∨ (c = i ∧ r < j)) → cl n inv r c = X c r) (Nat.zero_le _)
      ⟨ht, fun r c h1 h2 h3 => hinv r c h1 h2 (by omega)⟩ ?_).mono ?_
    · rintro j inv _ hj ⟨ht, hinv⟩
      rw [invStep1 hm (ht.le hv) hi (by omega), val1_eq (by omega)]
      refine Holds.ok ⟨ht.set (by omega) hi _, fun r c h1 h2 h3 => ?_⟩
      rw [cl_set (ht.le hv) (by omega) hi h2]
      by_cases h4 : j = r ∧ i = c
      · obtain ⟨rfl, rfl⟩ := h4
        rw [if_pos ⟨rfl, rfl⟩, ← hX i j hi (by omega), sum_Ico_succ_top (by omega)]
        have hs : ∑ k ∈ Ico j i, cl n m.data i k * cl n inv j k = ∑ k ∈ Ico j i, cl n m.data i k * X k j :=
          sum_congr rfl fun k hk => by
            rw [Finset.mem_Ico] at hk
            rw [hinv j k hk.1 (by omega) (by omega)]
        rw [hs, add_sub_cancel_left, mul_comm (cl n m.data i i), mul_assoc, mul_inv_cancel₀ (hd i hi), mul_one]
      · rw [if_neg h4]; exact hinv r c h1 h2 (by omega)
    · rintro inv ⟨ht, hinv⟩
      exact ⟨ht, fun r c h1 h2 h3 => hinv r c h1 h2 (by omega)⟩
  · obtain ⟨ht, hinv⟩ := hinv
    refine (forDown_inv (I := fun i inv => TailEq n inverse.data inv ∧
      ∀ r c, r < n → c < n → (if i ≤ r ∨ i ≤ c then cl n inv r c = W r c else r ≤ c → cl n inv r c = X c r))
      ⟨ht, fun r c h1 h2 => by rw [if_neg (by omega)]; intro h3; exact hinv r c h3 h2 h2⟩ ?_).bind
      fun inv hinv => Holds.pure ⟨hinv.1, fun r c h1 h2 => by simpa using hinv.2 r c h1 h2⟩
    rintro i inv hi ⟨ht, hinv⟩
    rw [invBody2_eq hm hi, ExactField.recip_eq _ (hd i hi), res_bind_ok]
    refine (forUp_inv (I := fun j inv => TailEq n inverse.data inv ∧
      ∀ r c, r < n → c < n → (if i + 1 ≤ r ∨ i + 1 ≤ c ∨ (r = i ∧ c < j) ∨ (c = i ∧ r < j) then
        cl n inv r c = W r c else r ≤ c → cl n inv r c = X c r)) (Nat.zero_le _)
      ⟨ht, fun r c h1 h2 => ?_⟩ ?_).mono ?_
    · have := hinv r c h1 h2
      by_cases h : i + 1 ≤ r ∨ i + 1 ≤ c
      · rw [if_pos h] at this; rw [if_pos (by omega)]; exact this
      · rw [if_neg h] at this; rw [if_neg (by omega)]; exact this
    · rintro j inv _ hj ⟨ht, hinv⟩
      rw [invStep2 hm (ht.le hv) hi (by omega)]
      have hval : val2 n m.data inv (cl n m.data i i)⁻¹ i j = W j i := by
        rw [val2_eq hi]
        have h1 := hinv j i (by omega) hi
        rw [if_neg (by omega)] at h1
        rw [h1 (by omega), ← hW i j hi (by omega), sum_eq_sum_Ico_succ_bot hi]
        have hs : ∑ k ∈ Ico (i + 1) n, cl n m.data k i * cl n inv j k =
            ∑ k ∈ Ico (i + 1) n, cl n m.data k i * W j k :=
          sum_congr rfl fun k hk => by
            rw [Finset.mem_Ico] at hk
            have := hinv j k (by omega) (by omega)
            rw [if_pos (by omega)] at this
            rw [this]
        rw [hs, add_sub_cancel_right, mul_comm (cl n m.data i i), mul_assoc, mul_inv_cancel₀ (hd i hi), mul_one]
      rw [hval]
      refine Holds.ok ⟨(ht.set hi (by omega) _).set (by omega) hi _, fun r c h1 h2 => ?_⟩
      rw [cl_set_pair (ht.le hv) hi (by omega) h2]
      have := hinv r c h1 h2
      by_cases h4 : (r = i ∧ c = j) ∨ (r = j ∧ c = i)
      · rw [if_pos h4, if_pos (by omega)]
        rcases h4 with ⟨rfl, rfl⟩ | ⟨rfl, rfl⟩
        · exact hsym _ _ h2 h1
        · rfl
      · rw [if_neg h4]
        by_cases h5 : i + 1 ≤ r ∨ i + 1 ≤ c ∨ (r = i ∧ c < j) ∨ (c = i ∧ r < j)
        · rw [if_pos h5] at this
          rw [if_pos (by omega)]; exact this
        · rw [if_neg h5] at this
          rw [if_neg (by omega)]; exact this
    · rintro inv ⟨ht, hinv⟩
      refine ⟨ht, fun r c h1 h2 => ?_⟩
      have := hinv r c h1 h2
      by_cases h : i ≤ r ∨ i ≤ c
      · rw [if_pos h]
        by_cases h5 : i + 1 ≤ r ∨ i + 1 ≤ c ∨ (r = i ∧ c < i + 1) ∨ (c = i ∧ r < i + 1)
        · rw [if_pos h5] at this; exact this
        · omega
      · rw [if_neg h]
        rw [if_neg (by omega)] at this; exact this

end Exact
end Minikalman
