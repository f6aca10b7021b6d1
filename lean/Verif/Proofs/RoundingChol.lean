import Verif.Proofs.Rounding
import Verif.Proofs.CholAny

/-! # Rounding errors of the Cholesky decomposition -/

set_option linter.unusedSectionVars false

namespace Minikalman

open Finset

variable {T : Type} [Zero T] [One T] [Add T] [Sub T] [Mul T] [Neg T] {n : Nat}

namespace Rounded

theorem δ_mono (ra : Rounded T) {k l : Nat} (h : k ≤ l) : ra.δ k ≤ ra.δ l := by
  unfold δ
  have h1 : (1 + ra.u) ^ k ≤ (1 + ra.u) ^ l := pow_le_pow_right₀ (by linarith [ra.u_nonneg]) h
  have h2 : (k : ℝ) ≤ l := by exact_mod_cast h
  have h3 := ra.one_le_pow k
  have := ra.η_nonneg
  refine mul_le_mul_of_nonneg_right (mul_le_mul h2 h1 (by linarith) (by positivity)) this

/-- A sum of products subtracted from `init`. -/
theorem subTo_bound (ra : Rounded T) {init : T} {v w : Nat → T} {k : Nat}
    (hf : ra.fin (subTo init (fun i => v i * w i) k)) :
    ra.fin init ∧
    |ra.val (subTo init (fun i => v i * w i) k) - (ra.val init - ∑ i ∈ range k, ra.val (v i) * ra.val (w i))| ≤
      ra.γ (k + 1) * (|ra.val init| + ∑ i ∈ range k, |ra.val (v i)| * |ra.val (w i)|) + ra.δ k := by
  have hu := ra.u_nonneg
  have hη := ra.η_nonneg
  induction k with
  | zero =>
    refine ⟨hf, ?_⟩
    have := mul_nonneg (ra.γ_nonneg 1) (abs_nonneg (ra.val init))
    simpa [subTo, δ] using this
  | succ k ih =>
    change ra.fin (subTo init (fun i => v i * w i) k - v k * w k) at hf
    obtain ⟨h1, h2, _⟩ := ra.sub_err _ _ hf
    obtain ⟨h3, h4, h5⟩ := ra.mul_err _ _ h2
    obtain ⟨g1, g3⟩ := ih h1
    refine ⟨g1, ?_⟩
    have hb := ra.sub_bound hf g3 h5
    rw [Finset.sum_range_succ, Finset.sum_range_succ, ← sub_sub, ← add_assoc]
    refine hb.trans ?_
    set A := ∑ i ∈ range k, |ra.val (v i)| * |ra.val (w i)| with hA
    have hA0 : 0 ≤ A := Finset.sum_nonneg fun i _ => by positivity
    have hS : |ra.val init - ∑ i ∈ range k, ra.val (v i) * ra.val (w i)| ≤ |ra.val init| + A := by
      refine (abs_sub _ _).trans (add_le_add (le_refl _) ((Finset.abs_sum_le_sum_abs _ _).trans ?_))
      exact Finset.sum_le_sum fun i _ => (abs_mul _ _).le
    rw [abs_mul]
    set q := |ra.val (v k)| * |ra.val (w k)| with hq
    have hq0 : 0 ≤ q := by positivity
    have hI0 : 0 ≤ |ra.val init| := abs_nonneg _
    set B := |ra.val init| + A with hB
    have hγ : ra.γ 2 ≤ ra.γ (k + 1 + 1) := ra.γ_mono (by omega)
    have hkp : ra.η * (1 + ra.u) ≤ ra.η * (1 + ra.u) ^ (k + 1) := by
      refine mul_le_mul_of_nonneg_left ?_ hη
      calc (1 + ra.u) = (1 + ra.u) ^ 1 := (pow_one _).symm
        _ ≤ (1 + ra.u) ^ (k + 1) := pow_le_pow_right₀ (by linarith) (by omega)
    have h1 : ra.u * (|ra.val init - ∑ i ∈ range k, ra.val (v i) * ra.val (w i)| + q) ≤ ra.u * (B + q) :=
      mul_le_mul_of_nonneg_left (add_le_add hS (le_refl _)) hu
    have h2 : ra.γ 2 * q ≤ ra.γ (k + 1 + 1) * q := mul_le_mul_of_nonneg_right hγ hq0
    have e1 : (1 + ra.u) * (ra.γ (k + 1) * B + ra.δ k + (ra.u * q + ra.η)) + ra.u * (B + q) =
        ra.γ (k + 1 + 1) * B + ra.γ 2 * q + (ra.δ k * (1 + ra.u) + ra.η * (1 + ra.u)) := by
      unfold γ; ring
    have e2 : ra.δ k * (1 + ra.u) + ra.η * (1 + ra.u) ^ (k + 1) = ra.δ (k + 1) := by
      unfold δ; push_cast; ring
    nlinarith [h1, h2, hkp, e1, e2]

end Rounded

namespace RoundedRoots

variable [MDT T]

theorem cholBound_mono (ra : RoundedRoots T) {k l : Nat} (h : k ≤ l) {B B' q : ℝ} (hB : 0 ≤ B) (hBB : B ≤ B') :
    ra.cholBound k B q ≤ ra.cholBound l B' q := by
  unfold cholBound
  have hu := ra.u_nonneg
  have hη := ra.η_nonneg
  have h1 := ra.toRounded.γ_mono (show k + 3 ≤ l + 3 by omega)
  have h2 := ra.toRounded.γ_nonneg (k + 3)
  have h3 := ra.toRounded.δ_mono h
  have h4 := ra.toRounded.δ_nonneg k
  have h5 : (1 + ra.u) ^ (k + 1) ≤ (1 + ra.u) ^ (l + 1) := pow_le_pow_right₀ (by linarith) (by omega)
  have h6 := ra.toRounded.one_le_pow (k + 1)
  have h7 : (1 + ra.u) ^ (k + 1) * B ≤ (1 + ra.u) ^ (l + 1) * B' := mul_le_mul h5 hBB hB (by linarith)
  have h8 : ra.γ (k + 3) * B ≤ ra.γ (l + 3) * B' := mul_le_mul h1 hBB hB (h2.trans h1)
  have h9 : (1 + ra.u) * ra.η * ((1 + |q|) * (1 + ((1 + ra.u) ^ (k + 1) * B + ra.δ k))) ≤
      (1 + ra.u) * ra.η * ((1 + |q|) * (1 + ((1 + ra.u) ^ (l + 1) * B' + ra.δ l))) := by
    refine mul_le_mul_of_nonneg_left (mul_le_mul_of_nonneg_left (by linarith) (by positivity)) (by positivity)
  have h10 : (1 + ra.u) ^ 2 * ra.δ k ≤ (1 + ra.u) ^ 2 * ra.δ l := mul_le_mul_of_nonneg_left h3 (by positivity)
  linarith

/-- A pivot. -/
theorem pivot_bound (ra : RoundedRoots T) {c : Nat} {init q : T} {v : Nat → T} (hf : ra.fin q)
    (hq : MDT.squareRoot (subTo init (fun i => v i * v i) c) = .ok q)
    (hle : MDT.le (subTo init (fun i => v i * v i) c) 0 = false) :
    |ra.val q * ra.val q + ∑ i ∈ range c, ra.val (v i) * ra.val (v i) - ra.val init| ≤
      ra.cholBound c (|ra.val init| + ∑ i ∈ range c, |ra.val (v i)| * |ra.val (v i)|) (ra.val q) := by
  have hu := ra.u_nonneg
  have hη := ra.η_nonneg
  obtain ⟨hs, he⟩ := ra.sqrt_err _ _ hq hf
  obtain ⟨_, hb⟩ := ra.toRounded.subTo_bound hs
  have hpos := ra.le_zero _ hs hle
  generalize ra.val (subTo init (fun i => v i * v i) c) = s at *
  generalize hBd : |ra.val init| + ∑ i ∈ range c, |ra.val (v i)| * |ra.val (v i)| = B at *
  have hB0 : 0 ≤ B := by rw [← hBd]; exact add_nonneg (abs_nonneg _) (Finset.sum_nonneg fun i _ => by positivity)
  have hS : |ra.val init - ∑ i ∈ range c, ra.val (v i) * ra.val (v i)| ≤ B := by
    rw [← hBd]
    refine (abs_sub _ _).trans (add_le_add (le_refl _) ((Finset.abs_sum_le_sum_abs _ _).trans ?_))
    exact Finset.sum_le_sum fun i _ => (abs_mul _ _).le
  generalize ra.val init = a at *
  generalize ∑ i ∈ range c, ra.val (v i) * ra.val (v i) = p at *
  generalize ra.val q = x at *
  set W := (1 + ra.u) ^ (c + 1) * B + ra.δ c with hW
  have hδ := ra.toRounded.δ_nonneg c
  have hsW : s ≤ W := by
    have h1 : s ≤ |s - (a - p)| + |a - p| := by
      have := le_abs_self (s - (a - p)); have := le_abs_self (a - p); linarith
    have : ra.γ (c + 1) * B + ra.δ c + B = W := by rw [hW]; unfold Rounded.γ; ring
    linarith
  have hr : √s * √s = s := Real.mul_self_sqrt hpos.le
  have hr0 : 0 ≤ √s := Real.sqrt_nonneg s
  have hr1 : 2 * √s ≤ 1 + W := by nlinarith [sq_nonneg (√s - 1)]
  -- |x x - s|
  have h1 : |x * x - s| ≤ (ra.u * √s + ra.η) * ((2 + ra.u) * √s + ra.η) := by
    have e : x * x - s = (x - √s) * (x + √s) := by rw [← hr]; ring_nf; rw [Real.sq_sqrt hpos.le]; simp [Real.sq_sqrt, hpos.le]
    have h2 : |x + √s| ≤ (2 + ra.u) * √s + ra.η := by
      calc |x + √s| = |(x - √s) + 2 * √s| := by congr 1; ring
        _ ≤ |x - √s| + |2 * √s| := abs_add_le _ _
        _ ≤ (ra.u * √s + ra.η) + 2 * √s := add_le_add he (le_of_eq (abs_of_nonneg (by linarith)))
        _ = _ := by ring
    rw [e, abs_mul]
    exact mul_le_mul he h2 (abs_nonneg _) (by positivity)
  have h2 : (ra.u * √s + ra.η) * ((2 + ra.u) * √s + ra.η) =
      ra.γ 2 * s + 2 * √s * ((1 + ra.u) * ra.η) + ra.η ^ 2 := by
    have : ra.γ 2 * s = ra.γ 2 * (√s * √s) := by rw [hr]
    rw [this]; unfold Rounded.γ; ring
  have h3 : 2 * √s * ((1 + ra.u) * ra.η) ≤ (1 + W) * ((1 + ra.u) * ra.η) :=
    mul_le_mul_of_nonneg_right hr1 (by positivity)
  have h4 : ra.γ 2 * s ≤ ra.γ 2 * W := mul_le_mul_of_nonneg_left hsW (ra.toRounded.γ_nonneg 2)
  have h5 : |x * x + p - a| ≤ |x * x - s| + |s - (a - p)| := by
    refine le_trans (le_of_eq ?_) (abs_add_le _ _)
    congr 1; ring
  have e1 : ra.γ 2 * W + (ra.γ (c + 1) * B + ra.δ c) = ra.γ (c + 3) * B + (1 + ra.u) ^ 2 * ra.δ c := by
    rw [hW]; unfold Rounded.γ; ring
  have hW0 : 0 ≤ W := hpos.le.trans hsW
  have h6 : (1 + W) * ((1 + ra.u) * ra.η) ≤ (1 + ra.u) * ra.η * ((1 + |x|) * (1 + W)) := by
    have h7 : (1 + W) ≤ (1 + |x|) * (1 + W) := by nlinarith [abs_nonneg x]
    have := mul_le_mul_of_nonneg_left h7 (show 0 ≤ (1 + ra.u) * ra.η by positivity)
    linarith
  unfold cholBound
  linarith

/-- An entry below the diagonal. -/
theorem below_bound (ra : RoundedRoots T) {c : Nat} {init q d : T} {v w : Nat → T}
    (hf : ra.fin (subTo init (fun i => v i * w i) c * d)) (hqf : ra.fin q) (hd : MDT.recip q = .ok d) :
    |ra.val (subTo init (fun i => v i * w i) c * d) * ra.val q + ∑ i ∈ range c, ra.val (v i) * ra.val (w i) -
        ra.val init| ≤
      ra.cholBound c (|ra.val init| + ∑ i ∈ range c, |ra.val (v i)| * |ra.val (w i)|) (ra.val q) := by
  have hu := ra.u_nonneg
  have hη := ra.η_nonneg
  obtain ⟨hs, hdf, hm⟩ := ra.mul_err _ _ hf
  obtain ⟨hq0, hr⟩ := ra.recip_err _ _ hd hqf hdf
  obtain ⟨_, hb⟩ := ra.toRounded.subTo_bound hs
  generalize ra.val (subTo init (fun i => v i * w i) c * d) = l at *
  generalize ra.val (subTo init (fun i => v i * w i) c) = s at *
  generalize hBd : |ra.val init| + ∑ i ∈ range c, |ra.val (v i)| * |ra.val (w i)| = B at *
  have hB0 : 0 ≤ B := by rw [← hBd]; exact add_nonneg (abs_nonneg _) (Finset.sum_nonneg fun i _ => by positivity)
  have hS : |ra.val init - ∑ i ∈ range c, ra.val (v i) * ra.val (w i)| ≤ B := by
    rw [← hBd]
    refine (abs_sub _ _).trans (add_le_add (le_refl _) ((Finset.abs_sum_le_sum_abs _ _).trans ?_))
    exact Finset.sum_le_sum fun i _ => (abs_mul _ _).le
  generalize ra.val init = a at *
  generalize ∑ i ∈ range c, ra.val (v i) * ra.val (w i) = p at *
  generalize ra.val q = x at *
  generalize ra.val d = y at *
  set W := (1 + ra.u) ^ (c + 1) * B + ra.δ c with hW
  have hδ := ra.toRounded.δ_nonneg c
  have hsW : |s| ≤ W := by
    have h1 : |s| ≤ |s - (a - p)| + |a - p| := by
      refine le_trans (le_of_eq ?_) (abs_add_le _ _)
      congr 1; ring
    have : ra.γ (c + 1) * B + ra.δ c + B = W := by rw [hW]; unfold Rounded.γ; ring
    linarith
  have hW0 : 0 ≤ W := (abs_nonneg _).trans hsW
  have hx0 : 0 < |x| := abs_pos.mpr hq0
  -- |y x - 1|
  have h1 : |y * x - 1| ≤ ra.u + ra.η * |x| := by
    have e : y * x - 1 = (y - x⁻¹) * x := by field_simp
    rw [e, abs_mul]
    have := mul_le_mul_of_nonneg_right hr hx0.le
    rw [abs_inv] at this
    have e2 : (ra.u * |x|⁻¹ + ra.η) * |x| = ra.u + ra.η * |x| := by field_simp
    linarith
  have h2 : |s * y| * |x| ≤ |s| * (1 + ra.u + ra.η * |x|) := by
    have h3 : |y * x| ≤ 1 + ra.u + ra.η * |x| := by
      calc |y * x| = |(y * x - 1) + 1| := by congr 1; ring
        _ ≤ |y * x - 1| + |(1 : ℝ)| := abs_add_le _ _
        _ ≤ _ := by rw [abs_one]; linarith
    rw [abs_mul, mul_assoc, ← abs_mul]
    exact mul_le_mul_of_nonneg_left h3 (abs_nonneg _)
  have h3 : |l * x - s| ≤ |s| * (ra.γ 2 + (1 + ra.u) * ra.η * |x|) + ra.η * |x| := by
    calc |l * x - s| = |(l - s * y) * x + s * (y * x - 1)| := by congr 1; ring
      _ ≤ |(l - s * y) * x| + |s * (y * x - 1)| := abs_add_le _ _
      _ = |l - s * y| * |x| + |s| * |y * x - 1| := by rw [abs_mul, abs_mul]
      _ ≤ (ra.u * |s * y| + ra.η) * |x| + |s| * (ra.u + ra.η * |x|) :=
          add_le_add (mul_le_mul_of_nonneg_right hm hx0.le) (mul_le_mul_of_nonneg_left h1 (abs_nonneg _))
      _ = ra.u * (|s * y| * |x|) + ra.η * |x| + |s| * (ra.u + ra.η * |x|) := by ring
      _ ≤ ra.u * (|s| * (1 + ra.u + ra.η * |x|)) + ra.η * |x| + |s| * (ra.u + ra.η * |x|) := by
          have := mul_le_mul_of_nonneg_left h2 hu
          linarith
      _ = _ := by unfold Rounded.γ; ring
  have h4 : |s| * (ra.γ 2 + (1 + ra.u) * ra.η * |x|) ≤ W * (ra.γ 2 + (1 + ra.u) * ra.η * |x|) := by
    refine mul_le_mul_of_nonneg_right hsW ?_
    have := ra.toRounded.γ_nonneg 2
    positivity
  have h5 : |l * x + p - a| ≤ |l * x - s| + |s - (a - p)| := by
    refine le_trans (le_of_eq ?_) (abs_add_le _ _)
    congr 1; ring
  have e1 : ra.γ 2 * W + (ra.γ (c + 1) * B + ra.δ c) = ra.γ (c + 3) * B + (1 + ra.u) ^ 2 * ra.δ c := by
    rw [hW]; unfold Rounded.γ; ring
  have h6 : W * ((1 + ra.u) * ra.η * |x|) + ra.η * |x| ≤ (1 + ra.u) * ra.η * ((1 + |x|) * (1 + W)) := by
    have t1 : 0 ≤ ra.u * (ra.η * |x|) := by positivity
    have t2 : 0 ≤ (1 + ra.u) * ra.η * (1 + W) := by positivity
    nlinarith
  have h7 : 0 ≤ ra.η ^ 2 := sq_nonneg _
  unfold cholBound
  nlinarith

end RoundedRoots

variable [MDT T]

theorem cholRest_eq {t0 t : List T} {A L : Matrix (Fin n) (Fin n) T}
    (hL : ∀ i j : Fin n, L i j = cl n t i j) {c r : Fin n} (hA : A c r = cl n t0 c r) :
    Spec.cholRest A L c r = cholSum n t0 t c r := by
  unfold Spec.cholRest cholSum
  rw [hA]
  have key : ∀ k (hk : k ≤ c.1), Fin.foldl k (fun acc (i : Fin k) => acc - L c ⟨i.1, i.2.trans (lt_of_le_of_lt hk c.2)⟩ *
      L r ⟨i.1, i.2.trans (lt_of_le_of_lt hk c.2)⟩) (cl n t0 c r) =
      subTo (cl n t0 c r) (fun k => cl n t c k * cl n t r k) k := by
    intro k
    induction k with
    | zero => intro _; simp [subTo]
    | succ k ih =>
      intro hk
      rw [Fin.foldl_succ_last, subTo, ← ih (by omega), hL, hL]
      rfl
  exact key c.1 le_rfl

theorem chol_any_reps (bld : Build) {m m' : Mat n n T} {A : Matrix (Fin n) (Fin n) T} (hm : m.Valid)
    (hA : m.RepsUpper A) (h : m.choleskyDecomposeLower bld = .ok (m', true)) :
    ∃ L : Matrix (Fin n) (Fin n) T, m'.Reps L ∧ m.SameTail m' ∧ (∀ r c, r < c → L r c = 0) ∧
      (∀ c, MDT.le (Spec.cholRest A L c c) 0 = false ∧ MDT.squareRoot (Spec.cholRest A L c c) = .ok (L c c)) ∧
      ∀ c r, c < r → ∃ d, MDT.recip (L c c) = .ok d ∧ L r c = Spec.cholRest A L c r * d := by
  obtain ⟨h1, h2, h3, h4⟩ := chol_any bld hm h
  have hl : n * n ≤ m'.data.length := h1.le hm
  have hA' : ∀ i j : Fin n, i ≤ j → A i j = cl n m.data i j := by
    intro i j hij
    have := hA i j hij
    rw [getElem?_cl hm i.2 j.2] at this
    exact (Option.some.inj this).symm
  refine ⟨Matrix.of fun i j => cl n m'.data i j, fun i j => getElem?_cl hl i.2 j.2, ⟨h1.1, h1.2⟩,
    fun r c hrc => h2 r c hrc c.2, fun c => ?_, fun c r hcr => ?_⟩
  · rw [cholRest_eq (t0 := m.data) (t := m'.data) (L := Matrix.of fun i j : Fin n => cl n m'.data i j) (fun _ _ => rfl) (hA' c c le_rfl)]
    exact h3 c c.2
  · rw [cholRest_eq (t0 := m.data) (t := m'.data) (L := Matrix.of fun i j : Fin n => cl n m'.data i j) (fun _ _ => rfl) (hA' c r hcr.le)]
    exact h4 c r hcr r.2

/-- A reported failure, in terms of matrices. -/
theorem chol_any_fail_reps (bld : Build) {m m' : Mat n n T} {A : Matrix (Fin n) (Fin n) T} (hm : m.Valid)
    (hA : m.RepsUpper A) (h : m.choleskyDecomposeLower bld = .ok (m', false)) :
    ∃ (L : Matrix (Fin n) (Fin n) T) (p : Fin n), m'.Reps L ∧ m.SameTail m' ∧ MDT.le (Spec.cholRest A L p p) 0 = true ∧
      (∀ c, c < p → MDT.le (Spec.cholRest A L c c) 0 = false ∧ MDT.squareRoot (Spec.cholRest A L c c) = .ok (L c c)) ∧
      (∀ c r, c < r → c < p → ∃ d, MDT.recip (L c c) = .ok d ∧ L r c = Spec.cholRest A L c r * d) ∧
      (∃ d, L p p = Spec.cholRest A L p p * d ∧
        ((p.1 = 0 ∧ d = 0) ∨ ∃ q : Fin n, q.1 + 1 = p.1 ∧ MDT.recip (L q q) = .ok d)) ∧
      ∀ r c, r < c ∨ (p ≤ c ∧ ¬ (r = p ∧ c = p)) → m.get r c = m'.get r c := by
  obtain ⟨i, hi, h1, h2, h3, h4, ⟨d, h5, h6⟩, h7⟩ := chol_any_fail bld hm h
  have hl : n * n ≤ m'.data.length := h1.le hm
  have hA' : ∀ i j : Fin n, i ≤ j → A i j = cl n m.data i j := by
    intro i j hij
    have := hA i j hij
    rw [getElem?_cl hm i.2 j.2] at this
    exact (Option.some.inj this).symm
  refine ⟨Matrix.of fun i j => cl n m'.data i j, ⟨i, hi⟩, fun i j => getElem?_cl hl i.2 j.2, ⟨h1.1, h1.2⟩, ?_,
    fun c hc => ?_, fun c r hcr hc => ?_, ⟨d, ?_, ?_⟩, fun r c h => ?_⟩
  · rw [cholRest_eq (t0 := m.data) (t := m'.data) (L := Matrix.of fun i j : Fin n => cl n m'.data i j) (fun _ _ => rfl)
      (hA' _ _ le_rfl)]
    exact h2
  · rw [cholRest_eq (t0 := m.data) (t := m'.data) (L := Matrix.of fun i j : Fin n => cl n m'.data i j) (fun _ _ => rfl) (hA' c c le_rfl)]
    exact h3 c hc
  · rw [cholRest_eq (t0 := m.data) (t := m'.data) (L := Matrix.of fun i j : Fin n => cl n m'.data i j) (fun _ _ => rfl) (hA' c r hcr.le)]
    exact h4 c r hcr r.2 hc
  · rw [cholRest_eq (t0 := m.data) (t := m'.data) (L := Matrix.of fun i j : Fin n => cl n m'.data i j) (fun _ _ => rfl)
      (hA' _ _ le_rfl)]
    exact h5
  · rcases h6 with h6 | ⟨h6, h8⟩
    · exact Or.inl h6
    · exact Or.inr ⟨⟨i - 1, by omega⟩, by simp only; omega, h8⟩
  · unfold Mat.get Mat.getAt
    rw [rd_eq (getElem?_cl hm r.2 c.2), rd_eq (getElem?_cl hl r.2 c.2), h7 r c r.2 c.2]
    rcases h with h | ⟨h, h'⟩
    · exact Or.inl h
    · exact Or.inr ⟨h, fun e => h' ⟨Fin.ext e.1, Fin.ext e.2⟩⟩

theorem chol_backward (ra : RoundedRoots T) (bld : Build) {m m' : Mat n n T} {A L : Matrix (Fin n) (Fin n) T}
    (hm : m.Valid) (hA : m.RepsUpper A) (h : m.choleskyDecomposeLower bld = .ok (m', true)) (hL : m'.Reps L)
    (hf : ∀ i j, ra.fin (L i j)) (i j : Fin n) (hij : j ≤ i) :
    |(ra.valM L * (ra.valM L).transpose) i j - ra.val (A j i)| ≤
      ra.cholBound n (|ra.val (A j i)| + (ra.absM L * (ra.absM L).transpose) i j) (ra.val (L j j)) := by
  obtain ⟨h1, h2, h3, h4⟩ := chol_any bld hm h
  have hl : n * n ≤ m'.data.length := h1.le hm
  have hLc : ∀ i j : Fin n, L i j = cl n m'.data i j := by
    intro i j
    have := hL i j
    rw [getElem?_cl hl i.2 j.2] at this
    exact (Option.some.inj this).symm
  have hAc : A j i = cl n m.data j i := by
    have := hA j i hij
    rw [getElem?_cl hm j.2 i.2] at this
    exact (Option.some.inj this).symm
  -- the sums over all columns stop at the pivot
  have hz : ∀ k, j.1 < k → k < n → cl n m'.data j k = 0 := fun k hk hkn => h2 j k hk hkn
  have s1 : (ra.valM L * (ra.valM L).transpose) i j =
      ∑ k ∈ range (j.1 + 1), ra.val (cl n m'.data j k) * ra.val (cl n m'.data i k) := by
    rw [Matrix.mul_apply]
    have e : ∀ k : Fin n, ra.valM L i k * (ra.valM L).transpose k j =
        (fun k => ra.val (cl n m'.data j k) * ra.val (cl n m'.data i k)) k.1 := fun k => by
      show ra.val (L i k) * ra.val (L j k) = _
      rw [hLc, hLc, mul_comm]
    rw [Finset.sum_congr rfl fun k _ => e k, Fin.sum_univ_eq_sum_range
      (fun k => ra.val (cl n m'.data j k) * ra.val (cl n m'.data i k))]
    refine (Finset.sum_subset (Finset.range_mono (by omega)) fun k hk hk' => ?_).symm
    rw [hz k (by simpa using hk') (by simpa using hk), ra.val_zero, zero_mul]
  have s2 : ∑ k ∈ range j.1, |ra.val (cl n m'.data j k)| * |ra.val (cl n m'.data i k)| ≤
      (ra.absM L * (ra.absM L).transpose) i j := by
    rw [Matrix.mul_apply]
    have e : ∀ k : Fin n, ra.absM L i k * (ra.absM L).transpose k j =
        (fun k => |ra.val (cl n m'.data j k)| * |ra.val (cl n m'.data i k)|) k.1 := fun k => by
      show |ra.val (L i k)| * |ra.val (L j k)| = _
      rw [hLc, hLc, mul_comm]
    rw [Finset.sum_congr rfl fun k _ => e k, Fin.sum_univ_eq_sum_range
      (fun k => |ra.val (cl n m'.data j k)| * |ra.val (cl n m'.data i k)|)]
    exact Finset.sum_le_sum_of_subset_of_nonneg (Finset.range_mono j.2.le) fun k _ _ => by positivity
  have s0 : 0 ≤ ∑ k ∈ range j.1, |ra.val (cl n m'.data j k)| * |ra.val (cl n m'.data i k)| :=
    Finset.sum_nonneg fun k _ => by positivity
  refine le_trans ?_ (ra.cholBound_mono j.2.le (add_nonneg (abs_nonneg _) s0) (add_le_add (le_refl _) s2))
  rw [s1, Finset.sum_range_succ, add_comm (∑ k ∈ range j.1, _), hLc j j]
  have hqf : ra.fin (cl n m'.data j j) := by rw [← hLc]; exact hf j j
  rcases hij.eq_or_lt with rfl | hlt
  · obtain ⟨g1, g2⟩ := h3 j j.2
    rw [hAc]
    exact ra.pivot_bound hqf g2 g1
  · obtain ⟨d, g1, g2⟩ := h4 j i hlt i.2
    have hif : ra.fin (cl n m'.data i j) := by rw [← hLc]; exact hf i j
    rw [hAc]
    have := ra.below_bound (d := d) (v := fun k => cl n m'.data j k) (w := fun k => cl n m'.data i k) (c := j.1)
      (init := cl n m.data j i) (by rw [g2] at hif; exact hif) hqf g1
    change |ra.val (cholSum n m.data m'.data j i * d) * _ + _ - _| ≤ _ at this
    rw [← g2, mul_comm (ra.val (cl n m'.data i j))] at this
    exact this

end Minikalman
