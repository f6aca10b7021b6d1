import Verif.Spec.Buffers
import Verif.Proofs.Hoare
import Mathlib.Algebra.BigOperators.Fin
import Mathlib.Tactic.Ring
import Mathlib.Tactic.Linarith

/-! # Buffer lemmas: index arithmetic, update tracking -/

namespace Minikalman

variable {T : Type} {R C U n : Nat}

theorem idx_lt {i j : Nat} (hi : i < R) (hj : j < C) : i * C + j < R * C := by
  calc i * C + j < i * C + C := by omega
    _ = (i + 1) * C := by ring
    _ ≤ R * C := Nat.mul_le_mul_right _ hi

theorem idx_div {i j : Nat} (hj : j < C) : (i * C + j) / C = i := by
  rw [Nat.mul_comm, Nat.mul_add_div (by omega), Nat.div_eq_of_lt hj, Nat.add_zero]

theorem idx_mod {i j : Nat} (hj : j < C) : (i * C + j) % C = j := by
  rw [Nat.mul_comm, Nat.mul_add_mod, Nat.mod_eq_of_lt hj]

theorem idx_inj {i j i' j' : Nat} (hj : j < C) (hj' : j' < C) :
    i * C + j = i' * C + j' ↔ i = i' ∧ j = j' := by
  constructor
  · intro h
    have h1 := idx_div (i := i) hj
    have h2 := idx_mod (i := i) hj
    rw [h, idx_div hj'] at h1
    rw [h, idx_mod hj'] at h2
    exact ⟨h1.symm, h2.symm⟩
  · rintro ⟨rfl, rfl⟩; rfl

theorem idx_eta (k : Nat) : (k / C) * C + k % C = k := Nat.div_add_mod' k C

theorem idx_row_lt {k : Nat} (h : k < R * C) : k / C < R := Nat.div_lt_of_lt_mul (by rwa [Nat.mul_comm] at h)

theorem idx_col_lt {k : Nat} (h : k < R * C) : k % C < C := by
  apply Nat.mod_lt
  rcases Nat.eq_zero_or_pos C with rfl | h'
  · simp at h
  · exact h'

/-- `c` arose from `c0` by overwriting exactly the cells in `W` with the values `v`. -/
def Upd (c0 c : List T) (W : Nat → Prop) (v : Nat → T) : Prop :=
  c.length = c0.length ∧ ∀ k, (W k → k < c0.length → c[k]? = some (v k)) ∧ (¬ W k → c[k]? = c0[k]?)

theorem Upd.refl (c0 : List T) (v : Nat → T) {W : Nat → Prop} (hW : ∀ k, ¬ W k) : Upd c0 c0 W v :=
  ⟨rfl, fun k => ⟨fun h => absurd h (hW k), fun _ => rfl⟩⟩

theorem Upd.congr {c0 c : List T} {W W' : Nat → Prop} {v : Nat → T} (h : Upd c0 c W v)
    (hW : ∀ k, W' k ↔ W k) : Upd c0 c W' v := by
  obtain rfl : W' = W := funext fun k => propext (hW k)
  exact h

theorem Upd.set {c0 c : List T} {W W' : Nat → Prop} {v : Nat → T} {i : Nat} {x : T} (h : Upd c0 c W v)
    (hx : x = v i) (hW : ∀ k, W' k ↔ (W k ∨ k = i)) : Upd c0 (c.set i x) W' v := by
  refine ⟨by simp [h.1], fun k => ?_⟩
  rw [List.getElem?_set, hW]
  by_cases hik : i = k
  · subst hik
    constructor
    · intro _ hk; simp [h.1, hk, hx]
    · intro hn; exact absurd (Or.inr rfl) hn
  · have hki : ¬ k = i := fun h => hik h.symm
    simp only [hik, if_false, hki, or_false]
    exact h.2 k

theorem Upd.length {c0 c : List T} {W : Nat → Prop} {v : Nat → T} (h : Upd c0 c W v) :
    c.length = c0.length := h.1

theorem Upd.old {c0 c : List T} {W : Nat → Prop} {v : Nat → T} (h : Upd c0 c W v) {k : Nat}
    (hk : ¬ W k) : c[k]? = c0[k]? := (h.2 k).2 hk

theorem Upd.new {c0 c : List T} {W : Nat → Prop} {v : Nat → T} (h : Upd c0 c W v) {k : Nat}
    (hk : W k) (hl : k < c0.length) : c[k]? = some (v k) := (h.2 k).1 hk hl

/-- Row-major extension of a matrix to natural number indices. -/
def Mat.cell [Zero T] (m : Mat R C T) (i j : Nat) : T := (m.data[i * C + j]?).getD 0

theorem Mat.getElem?_cell [Zero T] {m : Mat R C T} (h : m.Valid) {i j : Nat} (hi : i < R) (hj : j < C) :
    m.data[i * C + j]? = some (m.cell i j) := by
  have : i * C + j < m.data.length := lt_of_lt_of_le (idx_lt hi hj) h
  simp [Mat.cell, List.getElem?_eq_getElem this]

theorem Mat.Reps.valid {m : Mat R C T} {A} (h : m.Reps A) : m.Valid := by
  unfold Mat.Valid
  rcases Nat.eq_zero_or_pos R with rfl | hR
  · simp
  rcases Nat.eq_zero_or_pos C with rfl | hC
  · simp
  have := h ⟨R - 1, by omega⟩ ⟨C - 1, by omega⟩
  obtain ⟨h', -⟩ := List.getElem?_eq_some_iff.mp this
  simp only at h'
  have : (R - 1) * C + (C - 1) + 1 = R * C := by
    obtain ⟨r, rfl⟩ : ∃ r, R = r + 1 := ⟨R - 1, by omega⟩
    obtain ⟨c, rfl⟩ : ∃ c, C = c + 1 := ⟨C - 1, by omega⟩
    simp; ring
  omega

theorem Mat.Reps.cell [Zero T] {m : Mat R C T} {A} (h : m.Reps A) (i : Fin R) (j : Fin C) :
    m.cell i j = A i j := by
  simp [Mat.cell, h i j]

theorem Mat.RepsV.valid {m : Mat n 1 T} {v} (h : m.RepsV v) : m.Valid := by
  apply Mat.Reps.valid (A := fun i _ => v i)
  intro i j
  have : (j : Nat) = 0 := by omega
  simpa [this] using h i

theorem Mat.repsV_iff {m : Mat n 1 T} {v} : m.RepsV v ↔ m.Reps (fun i _ => v i) := by
  constructor
  · intro h i j
    have : (j : Nat) = 0 := by omega
    simpa [this] using h i
  · intro h i
    simpa using h i 0

theorem Mat.RepsV.cell [Zero T] {m : Mat n 1 T} {v} (h : m.RepsV v) (i : Fin n) :
    m.cell i 0 = v i := (Mat.repsV_iff.mp h).cell i 0

theorem Mat.Valid.reps [Zero T] {m : Mat R C T} (h : m.Valid) : m.Reps (fun i j => m.cell i j) :=
  fun i j => Mat.getElem?_cell h i.2 j.2

theorem Mat.Valid.repsV [Zero T] {m : Mat n 1 T} (h : m.Valid) : m.RepsV (fun i => m.cell i 0) :=
  Mat.repsV_iff.mpr (by
    intro i j
    have : (j : Nat) = 0 := by omega
    rw [this]
    exact Mat.getElem?_cell h i.2 (by omega))

theorem Mat.Reps.unique {m : Mat R C T} {A B} (h : m.Reps A) (h' : m.Reps B) : A = B := by
  ext i j
  have := (h i j).symm.trans (h' i j)
  exact Option.some.inj this

theorem Mat.RepsV.unique {m : Mat n 1 T} {v w} (h : m.RepsV v) (h' : m.RepsV w) : v = w := by
  funext i
  exact Option.some.inj ((h i).symm.trans (h' i))

theorem Mat.SameTail.refl (m : Mat R C T) : m.SameTail m := ⟨rfl, fun _ _ => rfl⟩

theorem Mat.SameTail.trans {a b c : Mat R C T} (h : a.SameTail b) (h' : b.SameTail c) : a.SameTail c :=
  ⟨h'.1.trans h.1, fun k hk => (h'.2 k hk).trans (h.2 k hk)⟩

theorem Mat.SameTail.symm {a b : Mat R C T} (h : a.SameTail b) : b.SameTail a :=
  ⟨h.1.symm, fun k hk => (h.2 k hk).symm⟩

theorem Mat.SameTail.valid {a b : Mat R C T} (h : a.SameTail b) (ha : a.Valid) : b.Valid := by
  unfold Mat.Valid at *; rw [h.1]; exact ha

/-- Contents and surplus determine the buffer. -/
theorem Mat.ext_of_reps {c a b : Mat R C T} {A} (ha : a.Reps A) (hb : b.Reps A)
    (hca : c.SameTail a) (hcb : c.SameTail b) : a = b := by
  have : a.data = b.data := by
    apply List.ext_getElem?
    intro k
    by_cases hk : k < R * C
    · have h1 := ha ⟨k / C, idx_row_lt hk⟩ ⟨k % C, idx_col_lt hk⟩
      have h2 := hb ⟨k / C, idx_row_lt hk⟩ ⟨k % C, idx_col_lt hk⟩
      simp only [idx_eta] at h1 h2
      rw [h1, h2]
    · rw [hca.2 k (by omega), hcb.2 k (by omega)]
  cases a; cases b; simp_all

theorem Mat.ext_of_repsV {c a b : Mat n 1 T} {v} (ha : a.RepsV v) (hb : b.RepsV v)
    (hca : c.SameTail a) (hcb : c.SameTail b) : a = b :=
  Mat.ext_of_reps (Mat.repsV_iff.mp ha) (Mat.repsV_iff.mp hb) hca hcb

/-- Finished update loop over a whole matrix. -/
theorem Upd.reps {c : Mat R U T} {d : List T} {v : Nat → T} {W : Nat → Prop}
    (h : Upd c.data d W v) (hW : ∀ k, W k ↔ k < R * U) (hc : c.Valid) :
    Mat.Reps (⟨d⟩ : Mat R U T) (fun i j => v (i * U + j)) ∧ c.SameTail ⟨d⟩ := by
  refine ⟨fun i j => ?_, h.1, fun k hk => ?_⟩
  · have := idx_lt i.2 j.2
    exact h.new ((hW _).mpr this) (lt_of_lt_of_le this hc)
  · exact h.old (fun hw => by have := (hW _).mp hw; omega)

/-! ## Sequential sums over natural numbers -/

/-- `init + f 0 + ... + f (n-1)` from left to right. -/
def sumTo [Add T] (init : T) (f : Nat → T) : Nat → T
  | 0 => init
  | n + 1 => sumTo init f n + f n

theorem sumTo_congr [Add T] {init : T} {f g : Nat → T} {n : Nat} (h : ∀ k, k < n → f k = g k) :
    sumTo init f n = sumTo init g n := by
  induction n with
  | zero => rfl
  | succ n ih => simp only [sumTo]; rw [ih (fun k hk => h k (by omega)), h n (by omega)]

theorem foldl_eq_sumTo [Add T] {n : Nat} (init : T) (f : Nat → T) :
    Fin.foldl n (fun acc (k : Fin n) => acc + f k) init = sumTo init f n := by
  induction n with
  | zero => simp [sumTo]
  | succ n ih => rw [Fin.foldl_succ_last, sumTo, ← ih]; rfl

theorem dotFrom_eq_sumTo [Add T] [Mul T] {n : Nat} {init : T} {v w : Fin n → T} {f : Nat → T}
    (h : ∀ k : Fin n, v k * w k = f k) : Spec.dotFrom init v w = sumTo init f n := by
  rw [← foldl_eq_sumTo]
  unfold Spec.dotFrom
  congr 1
  funext acc k
  rw [h k]

theorem dotFirst_eq_sumTo [Zero T] [Add T] [Mul T] {n : Nat} (hn : 0 < n) {v w : Fin n → T} {f : Nat → T}
    (h : ∀ k : Fin n, v k * w k = f k) :
    Spec.dotFirst v w = sumTo (f 0) (fun k => f (k + 1)) (n - 1) := by
  obtain ⟨n, rfl⟩ : ∃ m, n = m + 1 := ⟨n - 1, by omega⟩
  rw [Nat.add_sub_cancel, ← foldl_eq_sumTo]
  change Fin.foldl n (fun acc k => acc + v k.succ * w k.succ) (v 0 * w 0) = _
  rw [h 0]
  congr 1
  funext acc k
  rw [h k.succ]; rfl

theorem dotFrom_eq_add_sum [Semiring T] {n : Nat} (a : T) (v w : Fin n → T) :
    Spec.dotFrom a v w = a + ∑ k, v k * w k := by
  unfold Spec.dotFrom
  induction n with
  | zero => simp
  | succ n ih => rw [Fin.foldl_succ_last, Fin.sum_univ_castSucc, ih, add_assoc]

theorem dotFrom_zero_eq_sum [Semiring T] {n : Nat} (v w : Fin n → T) :
    Spec.dotFrom 0 v w = ∑ k, v k * w k := by
  rw [dotFrom_eq_add_sum, zero_add]

theorem dotFirst_eq_sum [Semiring T] {n : Nat} (v w : Fin n → T) :
    Spec.dotFirst v w = ∑ k, v k * w k := by
  cases n with
  | zero => simp [Spec.dotFirst]
  | succ n =>
    rw [Fin.sum_univ_succ]
    exact dotFrom_eq_add_sum (v 0 * w 0) (fun k => v k.succ) (fun k => w k.succ)

theorem mulSeq_eq_mul [Semiring T] (A : Matrix (Fin R) (Fin C) T) (B : Matrix (Fin C) (Fin U) T) :
    Spec.mulSeq A B = A * B := by
  ext i j
  simp [Spec.mulSeq, dotFrom_zero_eq_sum, Matrix.mul_apply]

theorem mulVecSeq_eq_mulVec [Semiring T] (A : Matrix (Fin R) (Fin C) T) (x : Fin C → T) :
    Spec.mulVecSeq A x = A.mulVec x := by
  ext i
  simp [Spec.mulVecSeq, dotFirst_eq_sum, Matrix.mulVec, dotProduct]

end Minikalman
