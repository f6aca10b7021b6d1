import Verif.Spec.Schedule
import Mathlib.Data.Rat.Cast.Order
import Mathlib.Algebra.BigOperators.Fin
import Mathlib.Algebra.Order.BigOperators.Group.Finset
import Mathlib.Data.Real.Basic
import Mathlib.Tactic.Linarith
import Mathlib.Tactic.Ring
import Mathlib.Tactic.Positivity

/-! # Bounds for the states of a recorded program: helper lemmas

A recorded program is a sequence of affine maps of the state (C89). For data known up to a given tolerance and an arithmetic
that is exact up to a given error, a functional of the final state is bounded by pulling it back through the program. The
computations are in rational numbers, so that the kernel can do them. -/

set_option linter.unusedSectionVars false

namespace Minikalman

variable {T : Type} {n k m : Nat}

/-- Numbers with a real value, such that operations on good numbers whose exact result is at most `M` in magnitude have a good
result, off by at most `ε`. -/
structure Near (T : Type) [Zero T] [Add T] [Sub T] [Mul T] where
  val : T → ℝ
  ok : T → Prop
  ε : ℚ
  M : ℚ
  ε_nonneg : 0 ≤ ε
  zero : ok 0 ∧ val 0 = 0
  add {a b : T} : ok a → ok b → |val a + val b| ≤ M → ok (a + b) ∧ |val (a + b) - (val a + val b)| ≤ ε
  sub {a b : T} : ok a → ok b → |val a - val b| ≤ M → ok (a - b) ∧ |val (a - b) - (val a - val b)| ≤ ε
  mul {a b : T} : ok a → ok b → |val a * val b| ≤ M → ok (a * b) ∧ |val (a * b) - val a * val b| ≤ ε
  rat : T → Option ℚ
  rat_ok {a : T} {q : ℚ} : rat a = some q → ok a ∧ val a = q

namespace Near

variable [Zero T] [Add T] [Sub T] [Mul T] (N : Near T)

theorem err_abs {a b c d : ℝ} (h : |a - b| ≤ d) (hb : |b| ≤ c) : |a| ≤ c + d := by
  have := abs_sub_abs_le_abs_sub a b
  linarith

theorem foldl_near {c : Nat} (v w : Fin c → T) (hv : ∀ i, N.ok (v i)) (hw : ∀ i, N.ok (w i)) {a : T} (ha : N.ok a) {s : ℝ}
    {d : ℝ} (h : |N.val a - s| ≤ d) (hd : |s| + d + (∑ i, |N.val (v i)| * |N.val (w i)|) + 2 * c * N.ε ≤ N.M) :
    N.ok (Fin.foldl c (fun acc i => acc + v i * w i) a) ∧
      |N.val (Fin.foldl c (fun acc i => acc + v i * w i) a) - (s + ∑ i, N.val (v i) * N.val (w i))| ≤ d + 2 * c * N.ε := by
  have he : (0 : ℝ) ≤ N.ε := by exact_mod_cast N.ε_nonneg
  have hd0 : 0 ≤ d := (abs_nonneg _).trans h
  induction c generalizing a s d with
  | zero => simpa using ⟨ha, h⟩
  | succ c ih =>
    rw [Fin.sum_univ_succ] at hd
    rw [Fin.foldl_succ, Fin.sum_univ_succ]
    have hs : 0 ≤ ∑ i : Fin c, |N.val (v i.succ)| * |N.val (w i.succ)| :=
      Finset.sum_nonneg fun i _ => mul_nonneg (abs_nonneg _) (abs_nonneg _)
    have hc : 0 ≤ 2 * (c : ℝ) * N.ε := by positivity
    push_cast at hd ⊢
    have hp : |N.val (v 0) * N.val (w 0)| = |N.val (v 0)| * |N.val (w 0)| := abs_mul _ _
    have hs0 := abs_nonneg s
    have hp0 := abs_nonneg (N.val (v 0) * N.val (w 0))
    obtain ⟨m1, m2⟩ := N.mul (hv 0) (hw 0) (by rw [hp] at *; linarith)
    have hm := err_abs m2 le_rfl
    have hA := err_abs h le_rfl
    have habs := abs_add_le (N.val a) (N.val (v 0 * w 0))
    obtain ⟨a1, a2⟩ := N.add ha m1 (by rw [hp] at hm; linarith)
    have key : |N.val (a + v 0 * w 0) - (s + N.val (v 0) * N.val (w 0))| ≤ d + 2 * N.ε := by
      rw [abs_le] at h m2 a2 ⊢
      constructor <;> linarith [h.1, h.2, m2.1, m2.2, a2.1, a2.2]
    have hsum := abs_add_le s (N.val (v 0) * N.val (w 0))
    obtain ⟨i1, i2⟩ := ih (fun i => v i.succ) (fun i => w i.succ) (fun i => hv _) (fun i => hw _) a1 key
      (by rw [hp] at hsum; linarith) (by linarith)
    refine ⟨i1, ?_⟩
    rw [← add_assoc]
    refine i2.trans (le_of_eq ?_)
    ring

theorem dotFirst_near {c : Nat} (v w : Fin c → T) (hv : ∀ i, N.ok (v i)) (hw : ∀ i, N.ok (w i))
    (hd : (∑ i, |N.val (v i)| * |N.val (w i)|) + 2 * c * N.ε ≤ N.M) :
    N.ok (Spec.dotFirst v w) ∧ |N.val (Spec.dotFirst v w) - ∑ i, N.val (v i) * N.val (w i)| ≤ 2 * c * N.ε := by
  have he : (0 : ℝ) ≤ N.ε := by exact_mod_cast N.ε_nonneg
  cases c with
  | zero => simpa [Spec.dotFirst] using N.zero
  | succ c =>
    rw [Fin.sum_univ_succ] at hd
    rw [Fin.sum_univ_succ]
    have hs : 0 ≤ ∑ i : Fin c, |N.val (v i.succ)| * |N.val (w i.succ)| :=
      Finset.sum_nonneg fun i _ => mul_nonneg (abs_nonneg _) (abs_nonneg _)
    have hc : 0 ≤ 2 * (c : ℝ) * N.ε := by positivity
    push_cast at hd ⊢
    have hp : |N.val (v 0) * N.val (w 0)| = |N.val (v 0)| * |N.val (w 0)| := abs_mul _ _
    obtain ⟨m1, m2⟩ := N.mul (hv 0) (hw 0) (by linarith)
    obtain ⟨i1, i2⟩ := N.foldl_near (fun i => v i.succ) (fun i => w i.succ) (fun i => hv _) (fun i => hw _) m1 m2 (by linarith)
    refine ⟨i1, i2.trans ?_⟩
    linarith

end Near

/-! ## Rational vectors -/

namespace Cert

/-- An entry of a list (zero beyond its end). -/
def cell (v : List ℚ) (i : Nat) : ℚ := (v[i]?).getD 0

/-- `f 0 + f 1 + ...`, `c` summands. -/
def sumTo : Nat → (Nat → ℚ) → ℚ
  | 0, _ => 0
  | c + 1, f => sumTo c f + f c

/-- A list with the entries `f 0`, `f 1`, .... -/
def tab (c : Nat) (f : Nat → ℚ) : List ℚ := (List.range c).map f

theorem sumTo_eq (c : Nat) (f : Nat → ℚ) : sumTo c f = ∑ i : Fin c, f i := by
  induction c with
  | zero => rfl
  | succ c ih => rw [sumTo, ih, Fin.sum_univ_castSucc]; rfl

theorem cell_tab {c : Nat} {f : Nat → ℚ} {i : Nat} (h : i < c) : cell (tab c f) i = f i := by
  unfold cell tab
  simp [h]

/-- `lᵀ A` for the row-major `a × b` matrix `A`. -/
def comb (a b : Nat) (l A : List ℚ) : List ℚ := tab b fun j => sumTo a fun i => cell l i * cell A (i * b + j)

/-- Sum of the magnitudes. -/
def norm (c : Nat) (v : List ℚ) : ℚ := sumTo c fun i => |cell v i|

/-- Scalar product. -/
def dot (c : Nat) (v w : List ℚ) : ℚ := sumTo c fun i => cell v i * cell w i

/-- The affine maps of a program, with the nominal data. -/
inductive Lin
  | skip
  | predict (A : List ℚ)
  | control (l : Nat) (B u : List ℚ)
  | correct (m : Nat) (H K z : List ℚ)

/-- Errors of operations, tolerated magnitude, tolerance of measurements and of inputs. -/
structure Tol where
  ε : ℚ
  M : ℚ
  r : ℚ
  s : ℚ

/-- Pull a functional back through a map: the functional, the contribution of the data, and bounds for the contributions
of rounding errors and of the tolerance of the data. -/
def Lin.pull (n : Nat) (t : Tol) (l : List ℚ) : Lin → List ℚ × ℚ × ℚ × ℚ
  | .skip => (l, 0, 0, 0)
  | .predict A => (comb n n l A, 0, norm n l * (2 * n * t.ε), 0)
  | .control k B u =>
    let c := comb n k l B
    (l, dot k c u, norm n l * ((2 * k + 1) * t.ε), norm k c * t.s)
  | .correct m H K z =>
    let c := comb n m l K
    let h := comb m n c H
    (tab n fun i => cell l i - cell h i, dot m c z, norm m c * ((2 * n + 1) * t.ε) + norm n l * ((2 * m + 1) * t.ε),
      norm m c * t.r)

/-- A functional of the state after a program (latest call first): nominal value, bounds for the effects of rounding errors and
of the tolerance of the data. -/
def bound (n : Nat) (t : Tol) (x0 : List ℚ) (l : List ℚ) : List Lin → ℚ × ℚ × ℚ
  | [] => (dot n l x0, 0, 0)
  | a :: h =>
    let p := a.pull n t l
    let b := bound n t x0 p.1 h
    (b.1 + p.2.1, b.2.1 + p.2.2.1, b.2.2 + p.2.2.2)

/-- The unit vector. -/
def unit (n i : Nat) : List ℚ := tab n fun j => if j = i then 1 else 0

/-- Bounds for the magnitudes of the state variables after a program. -/
def mags (n : Nat) (t : Tol) (x0 : List ℚ) (h : List Lin) : List ℚ :=
  tab n fun i => let b := bound n t x0 (unit n i) h; |b.1| + b.2.1 + b.2.2

/-- All numbers below `c` satisfy `p`. -/
def allTo (c : Nat) (p : Nat → Bool) : Bool := (List.range c).all p

theorem allTo_iff {c : Nat} {p : Nat → Bool} : allTo c p = true ↔ ∀ i : Fin c, p i = true := by
  unfold allTo
  rw [List.all_eq_true]
  constructor
  · intro h i; exact h i (List.mem_range.2 i.2)
  · intro h i hi; exact h ⟨i, List.mem_range.1 hi⟩

/-- No operation of the call exceeds the tolerated magnitude, if the state variables before are bounded by `xs`. -/
def Lin.small (n : Nat) (t : Tol) (xs : List ℚ) : Lin → Bool
  | .skip => true
  | .predict A => allTo n fun i => decide ((sumTo n fun j => |cell A (i * n + j)| * cell xs j) + 2 * n * t.ε ≤ t.M)
  | .control k B u => allTo n fun i =>
      decide (cell xs i + (sumTo k fun j => |cell B (i * k + j)| * (|cell u j| + t.s)) + 2 * k * t.ε ≤ t.M)
  | .correct m H K z =>
    let ys := tab m fun j => |cell z j| + t.r + (sumTo n fun i => |cell H (j * n + i)| * cell xs i) + 2 * n * t.ε
    (allTo m fun j => decide (cell ys j ≤ t.M)) &&
    allTo n fun i => decide (cell xs i + (sumTo m fun j => |cell K (i * m + j)| * (cell ys j + t.ε)) + 2 * m * t.ε ≤ t.M)

/-- Check all calls of a program after the calls `h` (latest first). -/
def certify (n : Nat) (t : Tol) (x0 : List ℚ) (h : List Lin) : List Lin → Bool
  | [] => true
  | a :: as => a.small n t (mags n t x0 h) && certify n t x0 (a :: h) as

/-! ## Compilation of records -/

/-- The rational values of a slice, if all numbers are good. -/
def rats (rat : T → Option ℚ) (v : List T) : Option (List ℚ) := v.mapM rat

/-- The affine map of a recorded call, given the nominal inputs and measurements, and these after the call. -/
def compile1 (rat : T → Option ℚ) (us zs : List (List ℚ)) : Recorded T × Op T → Option (Lin × List (List ℚ) × List (List ℚ))
  | (.predict A, .predict) => (rats rat A).map fun a => (.predict a, us, zs)
  | (.predict A, .predictTuned _) => (rats rat A).map fun a => (.predict a, us, zs)
  | (.control l B, .control i) => if l = 0 then some (.skip, us, zs) else
      (rats rat B).map fun b => (.control l b ((us[i]?).getD []), us, zs)
  | (.correct m H K, .correct i) => (rats rat H).bind fun h => (rats rat K).map fun k =>
      (.correct m h k ((zs[i]?).getD []), us, zs)
  | (_, .setU i v) => (rats rat v).map fun c => (.skip, us.set i c, zs)
  | (_, .setZ i v) => (rats rat v).map fun c => (.skip, us, zs.set i c)
  | (_, .setA _) => some (.skip, us, zs)
  | (_, .setP _) => some (.skip, us, zs)
  | (_, .setQ _) => some (.skip, us, zs)
  | (_, .setB _ _) => some (.skip, us, zs)
  | (_, .setQc _ _) => some (.skip, us, zs)
  | (_, .setH _ _) => some (.skip, us, zs)
  | (_, .setR _ _) => some (.skip, us, zs)
  | _ => none

/-- The affine maps of a recorded program. -/
def compile (rat : T → Option ℚ) (us zs : List (List ℚ)) : List (Recorded T × Op T) → Option (List Lin)
  | [] => some []
  | a :: as => (compile1 rat us zs a).bind fun p => (compile rat p.2.1 p.2.2 as).map fun ls => p.1 :: ls

end Cert

namespace Near

open Cert

variable [Zero T] [Add T] [Sub T] [Mul T] (N : Near T)

/-- The tolerances. -/
def tol (r s : ℚ) : Tol := ⟨N.ε, N.M, r, s⟩

theorem rats_cell {v : List T} {c : List ℚ} (h : rats N.rat v = some c) (i : Nat) :
    N.ok ((v[i]?).getD 0) ∧ N.val ((v[i]?).getD 0) = cell c i := by
  unfold rats at h
  induction v generalizing c i with
  | nil =>
    cases h
    simpa [cell] using N.zero
  | cons a v ih =>
    rw [List.mapM_cons] at h
    cases ha : N.rat a with
    | none => rw [ha] at h; cases h
    | some q =>
      cases hv : v.mapM N.rat with
      | none => rw [ha, hv] at h; cases h
      | some c' =>
        rw [ha, hv] at h
        cases h
        cases i with
        | zero => simpa [cell] using N.rat_ok ha
        | succ i => simpa [cell] using ih hv i

/-- A slice holds good numbers within the tolerance `r` of the nominal ones. -/
def Close (r : ℚ) (v : List T) (c : List ℚ) : Prop :=
  ∀ i, N.ok ((v[i]?).getD 0) ∧ |N.val ((v[i]?).getD 0) - cell c i| ≤ r

/-- A functional at a state. -/
noncomputable def at' (l : List ℚ) (x : Fin n → T) : ℝ := ∑ i : Fin n, (cell l i : ℝ) * N.val (x i)

/-- The state is good and within the bounds computed for the program `h`. -/
def Within (r s : ℚ) (x0 : List ℚ) (h : List Lin) (x : Fin n → T) : Prop :=
  (∀ i, N.ok (x i)) ∧ ∀ l, |N.at' l x - (bound n (N.tol r s) x0 l h).1| ≤
    (bound n (N.tol r s) x0 l h).2.1 + (bound n (N.tol r s) x0 l h).2.2

theorem within_abs {r s : ℚ} {x0 : List ℚ} {h : List Lin} {x : Fin n → T} (hw : N.Within r s x0 h x) (i : Fin n) :
    |N.val (x i)| ≤ cell (mags n (N.tol r s) x0 h) i := by
  have h1 := hw.2 (unit n i)
  have h2 : N.at' (unit n i) x = N.val (x i) := by
    unfold at'
    rw [Finset.sum_eq_single i]
    · rw [unit, cell_tab i.2]; simp
    · intro j _ hj
      rw [unit, cell_tab j.2, if_neg (fun h => hj (Fin.ext h))]; simp
    · simp
  rw [h2] at h1
  rw [mags, cell_tab i.2]
  have := err_abs h1 le_rfl
  push_cast
  linarith

/-- Pulling back: the functional of a combination of rows. -/
theorem comb_at (a b : Nat) (l A : List ℚ) (w : Fin b → ℝ) :
    ∑ j : Fin b, (cell (comb a b l A) j : ℝ) * w j = ∑ i : Fin a, (cell l i : ℝ) * ∑ j : Fin b, (cell A (i * b + j) : ℝ) * w j := by
  have : ∀ j : Fin b, (cell (comb a b l A) j : ℝ) * w j = ∑ i : Fin a, (cell l i : ℝ) * ((cell A (i * b + j) : ℝ) * w j) := by
    intro j
    rw [comb, cell_tab j.2, sumTo_eq, Rat.cast_sum, Finset.sum_mul]
    exact Finset.sum_congr rfl fun i _ => by push_cast; ring
  rw [Finset.sum_congr rfl fun j _ => this j, Finset.sum_comm]
  exact Finset.sum_congr rfl fun i _ => (Finset.mul_sum _ _ _).symm

theorem sum_err {c : Nat} (l : List ℚ) (w : Fin c → ℝ) {d : ℝ} (h : ∀ i, |w i| ≤ d) :
    |∑ i : Fin c, (cell l i : ℝ) * w i| ≤ norm c l * d := by
  refine (Finset.abs_sum_le_sum_abs _ _).trans ?_
  rw [norm, sumTo_eq, Rat.cast_sum, Finset.sum_mul]
  refine Finset.sum_le_sum fun i _ => ?_
  rw [abs_mul, Rat.cast_abs]
  exact mul_le_mul_of_nonneg_left (h i) (abs_nonneg _)

/-- A product with a good matrix. -/
theorem mulVec_near {R C : Nat} {A : List T} {a : List ℚ} (ha : rats N.rat A = some a) (x : Fin C → T) (hx : ∀ j, N.ok (x j))
    (i : Fin R) {xs : Fin C → ℝ} (hxs : ∀ j, |N.val (x j)| ≤ xs j)
    (h : (∑ j : Fin C, |(cell a (i * C + j) : ℝ)| * xs j) + 2 * C * N.ε ≤ N.M) :
    N.ok (Spec.mulVecSeq (Spec.matOf A : Matrix (Fin R) (Fin C) T) x i) ∧
    |N.val (Spec.mulVecSeq (Spec.matOf A : Matrix (Fin R) (Fin C) T) x i) - ∑ j : Fin C, (cell a (i * C + j) : ℝ) * N.val (x j)| ≤
      2 * C * N.ε ∧ |N.val (Spec.mulVecSeq (Spec.matOf A : Matrix (Fin R) (Fin C) T) x i)| ≤
      (∑ j : Fin C, |(cell a (i * C + j) : ℝ)| * xs j) + 2 * C * N.ε := by
  have hc : ∀ j : Fin C, N.ok ((Spec.matOf A : Matrix (Fin R) (Fin C) T) i j) ∧
      N.val ((Spec.matOf A : Matrix (Fin R) (Fin C) T) i j) = cell a (i * C + j) := fun j => N.rats_cell ha _
  have hs : ∑ j : Fin C, |N.val ((Spec.matOf A : Matrix (Fin R) (Fin C) T) i j)| * |N.val (x j)| ≤
      ∑ j : Fin C, |(cell a (i * C + j) : ℝ)| * xs j :=
    Finset.sum_le_sum fun j _ => by rw [(hc j).2]; exact mul_le_mul_of_nonneg_left (hxs j) (abs_nonneg _)
  obtain ⟨h1, h2⟩ := N.dotFirst_near (fun j => (Spec.matOf A : Matrix (Fin R) (Fin C) T) i j) x (fun j => (hc j).1) hx (by linarith)
  simp only [(hc _).2] at h2
  refine ⟨h1, h2, err_abs h2 ?_⟩
  refine (Finset.abs_sum_le_sum_abs _ _).trans (Finset.sum_le_sum fun j _ => ?_)
  rw [abs_mul]
  exact mul_le_mul_of_nonneg_left (hxs j) (abs_nonneg _)

theorem within_predict {r s : ℚ} {x0 : List ℚ} {h : List Lin} {x : Fin n → T} (hw : N.Within r s x0 h x) {A : List T}
    {a : List ℚ} (ha : rats N.rat A = some a) (hs : (Lin.predict a).small n (N.tol r s) (mags n (N.tol r s) x0 h) = true) :
    N.Within (n := n) r s x0 (.predict a :: h) (Spec.mulVecSeq (Spec.matOf A) x) := by
  simp only [Lin.small, allTo_iff, decide_eq_true_eq] at hs
  have key := fun i : Fin n => N.mulVec_near (R := n) ha x hw.1 i (N.within_abs hw) (by
    have := hs i
    rw [sumTo_eq] at this
    exact_mod_cast this)
  refine ⟨fun i => (key i).1, fun l => ?_⟩
  have e1 := sum_err l (fun i : Fin n => N.val (Spec.mulVecSeq (Spec.matOf A) x i) -
    ∑ j : Fin n, (cell a (i * n + j) : ℝ) * N.val (x j)) fun i => (key i).2.1
  simp only [mul_sub, Finset.sum_sub_distrib] at e1
  rw [← comb_at] at e1
  have e2 := hw.2 (comb n n l a)
  simp only [bound, Lin.pull]
  unfold at' at e2 ⊢
  have : ((2 * n * N.ε : ℚ) : ℝ) = 2 * n * N.ε := by push_cast; rfl
  simp only [tol] at e2 ⊢
  push_cast
  rw [abs_le] at e1 e2 ⊢
  constructor <;> linarith [e1.1, e1.2, e2.1, e2.2]

theorem within_control {r s : ℚ} {x0 : List ℚ} {h : List Lin} {x : Fin n → T} (hw : N.Within r s x0 h x) {B : List T}
    {b : List ℚ} (hb : rats N.rat B = some b) {u : List T} {c : List ℚ} (hu : N.Close s u c)
    (hs : (Lin.control k b c).small n (N.tol r s) (mags n (N.tol r s) x0 h) = true) :
    N.Within r s x0 (.control k b c :: h) (x + Spec.mulVecSeq (Spec.matOf B) (Spec.vecOf u : Fin k → T)) := by
  simp only [Lin.small, allTo_iff, decide_eq_true_eq] at hs
  have hin : ∀ j : Fin k, |N.val ((Spec.vecOf u : Fin k → T) j)| ≤ |(cell c j : ℝ)| + s := fun j => err_abs (hu j).2 le_rfl
  have hsi : ∀ i : Fin n, (cell (mags n (N.tol r s) x0 h) i : ℝ) +
      (∑ j : Fin k, |(cell b (i * k + j) : ℝ)| * (|(cell c j : ℝ)| + s)) + 2 * k * N.ε ≤ N.M := by
    intro i
    have := hs i
    rw [sumTo_eq] at this
    exact_mod_cast this
  have hx := N.within_abs hw
  have key := fun i : Fin n => N.mulVec_near (R := n) hb (Spec.vecOf u : Fin k → T) (fun j => (hu j).1) i hin (by
    have := (abs_nonneg _).trans (hx i)
    linarith [hsi i])
  have add := fun i : Fin n => N.add (hw.1 i) (key i).1 (by
    have := abs_add_le (N.val (x i)) (N.val (Spec.mulVecSeq (Spec.matOf B) (Spec.vecOf u : Fin k → T) i))
    linarith [hsi i, hx i, (key i).2.2])
  refine ⟨fun i => (add i).1, fun l => ?_⟩
  have e1 := sum_err l (fun i : Fin n => N.val ((x + Spec.mulVecSeq (Spec.matOf B) (Spec.vecOf u : Fin k → T) : Fin n → T) i) -
    (N.val (x i) + ∑ j : Fin k, (cell b (i * k + j) : ℝ) * N.val ((Spec.vecOf u : Fin k → T) j)))
    (d := ((2 * k + 1) * N.ε : ℚ)) (fun i => by
      have h1 := (add i).2
      have h2 := (key i).2.1
      push_cast
      show |N.val (x i + _) - _| ≤ _
      rw [abs_le] at h1 h2 ⊢
      constructor <;> linarith [h1.1, h1.2, h2.1, h2.2])
  simp only [mul_sub, mul_add, Finset.sum_sub_distrib, Finset.sum_add_distrib] at e1
  rw [← comb_at] at e1
  have e3 := sum_err (comb n k l b) (fun j : Fin k => N.val ((Spec.vecOf u : Fin k → T) j) - cell c j) (d := s)
    fun j => (hu j).2
  simp only [mul_sub, Finset.sum_sub_distrib] at e3
  have e2 := hw.2 l
  simp only [bound, Lin.pull, dot]
  unfold at' at e2 ⊢
  simp only [tol, sumTo_eq] at e2 ⊢
  push_cast at e1 ⊢
  rw [abs_le] at e1 e2 e3 ⊢
  constructor <;> linarith [e1.1, e1.2, e2.1, e2.2, e3.1, e3.2]

theorem within_correct {r s : ℚ} {x0 : List ℚ} {h : List Lin} {x : Fin n → T} (hw : N.Within r s x0 h x) {H K : List T}
    {hh kk : List ℚ} (hH : rats N.rat H = some hh) (hK : rats N.rat K = some kk) {z : List T} {c : List ℚ} (hz : N.Close r z c)
    (hs : (Lin.correct m hh kk c).small n (N.tol r s) (mags n (N.tol r s) x0 h) = true) :
    N.Within r s x0 (.correct m hh kk c :: h)
      (x + Spec.mulVecSeq (Spec.matOf K) ((Spec.vecOf z : Fin m → T) - Spec.mulVecSeq (Spec.matOf H) x)) := by
  simp only [Lin.small, Bool.and_eq_true, allTo_iff, decide_eq_true_eq] at hs
  obtain ⟨hs1, hs2⟩ := hs
  obtain ⟨ys, hys⟩ : ∃ ys, ys = tab m fun j => |cell c j| + (N.tol r s).r +
    (sumTo n fun i => |cell hh (j * n + i)| * cell (mags n (N.tol r s) x0 h) i) + 2 * n * (N.tol r s).ε := ⟨_, rfl⟩
  rw [← hys] at hs1 hs2
  have hyj : ∀ j : Fin m, (cell ys j : ℝ) = |(cell c j : ℝ)| + r +
      (∑ i : Fin n, |(cell hh (j * n + i) : ℝ)| * cell (mags n (N.tol r s) x0 h) i) + 2 * n * N.ε := by
    intro j
    rw [hys, cell_tab j.2, sumTo_eq]
    simp only [tol]
    push_cast
    rfl
  have hx := N.within_abs hw
  have hzj : ∀ j : Fin m, |N.val ((Spec.vecOf z : Fin m → T) j)| ≤ |(cell c j : ℝ)| + r := fun j => err_abs (hz j).2 le_rfl
  have hsj : ∀ j : Fin m, (cell ys j : ℝ) ≤ N.M := fun j => by exact_mod_cast hs1 j
  have hsi : ∀ i : Fin n, (cell (mags n (N.tol r s) x0 h) i : ℝ) +
      (∑ j : Fin m, |(cell kk (i * m + j) : ℝ)| * (cell ys j + N.ε)) + 2 * m * N.ε ≤ N.M := by
    intro i
    have := hs2 i
    rw [sumTo_eq] at this
    exact_mod_cast this
  have hobs := fun j : Fin m => N.mulVec_near (R := m) hH x hw.1 j hx (by
    have := (abs_nonneg _).trans (hzj j)
    linarith [hsj j, hyj j])
  have hy := fun j : Fin m => N.sub (hz j).1 (hobs j).1 (by
    have h1 := abs_sub (N.val ((Spec.vecOf z : Fin m → T) j)) (N.val (Spec.mulVecSeq (Spec.matOf H) x j))
    exact h1.trans (by linarith [hsj j, hyj j, hzj j, (hobs j).2.2]))
  have hya : ∀ j : Fin m, |N.val (((Spec.vecOf z : Fin m → T) - Spec.mulVecSeq (Spec.matOf H) x : Fin m → T) j)| ≤ cell ys j + N.ε := by
    intro j
    refine err_abs (hy j).2 ?_
    have h1 := abs_sub (N.val ((Spec.vecOf z : Fin m → T) j)) (N.val (Spec.mulVecSeq (Spec.matOf H) x j))
    exact h1.trans (by linarith [hyj j, hzj j, (hobs j).2.2])
  have key := fun i : Fin n => N.mulVec_near (R := n) hK ((Spec.vecOf z : Fin m → T) - Spec.mulVecSeq (Spec.matOf H) x)
    (fun j => (hy j).1) i hya (by
      have := (abs_nonneg _).trans (hx i)
      linarith [hsi i])
  generalize hyy : (Spec.vecOf z : Fin m → T) - Spec.mulVecSeq (Spec.matOf H) x = y at key hya
  have add := fun i : Fin n => N.add (hw.1 i) (key i).1 (by
    have := abs_add_le (N.val (x i)) (N.val (Spec.mulVecSeq (Spec.matOf K) y i))
    linarith [hsi i, hx i, (key i).2.2])
  refine ⟨fun i => (add i).1, fun l => ?_⟩
  have e1 := sum_err l (fun i : Fin n => N.val ((x + Spec.mulVecSeq (Spec.matOf K) y : Fin n → T) i) -
    (N.val (x i) + ∑ j : Fin m, (cell kk (i * m + j) : ℝ) * N.val (y j)))
    (d := ((2 * m + 1) * N.ε : ℚ)) (fun i => by
      have h1 := (add i).2
      have h2 := (key i).2.1
      push_cast
      show |N.val (x i + _) - _| ≤ _
      rw [abs_le] at h1 h2 ⊢
      constructor <;> linarith [h1.1, h1.2, h2.1, h2.2])
  simp only [mul_sub, mul_add, Finset.sum_sub_distrib, Finset.sum_add_distrib] at e1
  rw [← comb_at] at e1
  obtain ⟨cc, hcc⟩ : ∃ cc, cc = comb n m l kk := ⟨_, rfl⟩
  rw [← hcc] at e1
  have e4 := sum_err cc (fun j : Fin m => N.val (y j) - (N.val ((Spec.vecOf z : Fin m → T) j) -
    ∑ i : Fin n, (cell hh (j * n + i) : ℝ) * N.val (x i))) (d := ((2 * n + 1) * N.ε : ℚ)) (fun j => by
      have h1 := (hy j).2
      have h2 := (hobs j).2.1
      have h3 : N.val (y j) = N.val ((Spec.vecOf z : Fin m → T) j - Spec.mulVecSeq (Spec.matOf H) x j) := by rw [← hyy]; rfl
      push_cast
      rw [h3]
      change |N.val ((Spec.vecOf z : Fin m → T) j - Spec.mulVecSeq (Spec.matOf H) x j) -
        (N.val ((Spec.vecOf z : Fin m → T) j) - N.val (Spec.mulVecSeq (Spec.matOf H) x j))| ≤ _ at h1
      rw [abs_le] at h1 h2 ⊢
      constructor <;> linarith [h1.1, h1.2, h2.1, h2.2])
  simp only [mul_sub, Finset.sum_sub_distrib] at e4
  rw [← comb_at] at e4
  have e3 := sum_err cc (fun j : Fin m => N.val ((Spec.vecOf z : Fin m → T) j) - cell c j) (d := r)
    fun j => (hz j).2
  simp only [mul_sub, Finset.sum_sub_distrib] at e3
  have e2 := hw.2 (tab n fun i => cell l i - cell (comb m n cc hh) i)
  have e5 : N.at' (tab n fun i => cell l i - cell (comb m n cc hh) i) x =
      ∑ i : Fin n, (cell l i : ℝ) * N.val (x i) - ∑ i : Fin n, (cell (comb m n cc hh) i : ℝ) * N.val (x i) := by
    unfold at'
    rw [← Finset.sum_sub_distrib]
    refine Finset.sum_congr rfl fun i _ => ?_
    rw [cell_tab i.2]
    push_cast; ring
  rw [e5] at e2
  simp only [bound, Lin.pull, dot]
  rw [← hcc]
  unfold at'
  simp only [tol, sumTo_eq] at e2 ⊢
  push_cast at e1 e4 ⊢
  rw [abs_le] at e1 e2 e3 e4 ⊢
  constructor <;> linarith [e1.1, e1.2, e2.1, e2.2, e3.1, e3.2, e4.1, e4.2]

/-- A call and the same call with data within the tolerance. -/
inductive OpClose (r s : ℚ) : Op T → Op T → Prop
  | same (op : Op T) : (∀ i v, op ≠ .setZ i v) → (∀ i v, op ≠ .setU i v) → OpClose r s op op
  | setZ (i : Nat) (v v' : List T) : (∀ c, rats N.rat v = some c → N.Close r v' c) → OpClose r s (.setZ i v) (.setZ i v')
  | setU (i : Nat) (v v' : List T) : (∀ c, rats N.rat v = some c → N.Close s v' c) → OpClose r s (.setU i v) (.setU i v')

/-- Slices that are close to nominal ones. -/
def AllClose (r : ℚ) (vs : List (List T)) (cs : List (List ℚ)) : Prop := List.Forall₂ (N.Close r) vs cs

theorem AllClose.get {r : ℚ} (hr : 0 ≤ r) {vs : List (List T)} {cs : List (List ℚ)} (h : N.AllClose r vs cs) (i : Nat) :
    N.Close r ((vs[i]?).getD []) ((cs[i]?).getD []) := by
  induction h generalizing i with
  | nil =>
    intro j
    simp only [List.getElem?_nil, Option.getD_none, cell, N.zero.2]
    exact ⟨N.zero.1, by simpa using hr⟩
  | cons h0 _ ih =>
    cases i with
    | zero => exact h0
    | succ i => simpa using ih i

theorem AllClose.set {r : ℚ} {vs : List (List T)} {cs : List (List ℚ)} (h : N.AllClose r vs cs) (i : Nat) {v c}
    (hv : N.Close r v c) : N.AllClose r (vs.set i v) (cs.set i c) := by
  induction h generalizing i with
  | nil => exact .nil
  | cons h0 hs ih =>
    cases i with
    | zero => exact .cons hv hs
    | succ i => exact .cons h0 (ih i)

theorem step_within {r s : ℚ} (hr : 0 ≤ r) (hs : 0 ≤ s) {x0 : List ℚ} {h : List Lin} {e : Estimator n T}
    (hw : N.Within r s x0 h e.x) {us zs : List (List ℚ)} (hu : N.AllClose s e.u us) (hz : N.AllClose r e.z zs)
    {g : Recorded T} {op op' : Op T} (ho : N.OpClose r s op op') {a us' zs'}
    (hc : compile1 N.rat us zs (g, op) = some (a, us', zs')) (ha : a.small n (N.tol r s) (mags n (N.tol r s) x0 h) = true) :
    N.Within r s x0 (a :: h) (e.step (g, op')).x ∧ N.AllClose s (e.step (g, op')).u us' ∧
      N.AllClose r (e.step (g, op')).z zs' := by
  have skip : N.Within r s x0 (.skip :: h) e.x := by
    refine ⟨hw.1, fun l => ?_⟩
    simpa [bound, Lin.pull] using hw.2 l
  cases ho with
  | setZ i v v' hv =>
    have : ∃ c, rats N.rat v = some c ∧ (Lin.skip, us, zs.set i c) = (a, us', zs') := by
      cases g <;> simpa [compile1, Option.map_eq_some_iff] using hc
    obtain ⟨c, h1, h2⟩ := this
    cases h2
    have hz' := AllClose.set N hz i (hv c h1)
    cases g <;> exact ⟨skip, hu, hz'⟩
  | setU i v v' hv =>
    have : ∃ c, rats N.rat v = some c ∧ (Lin.skip, us.set i c, zs) = (a, us', zs') := by
      cases g <;> simpa [compile1, Option.map_eq_some_iff] using hc
    obtain ⟨c, h1, h2⟩ := this
    cases h2
    have hu' := AllClose.set N hu i (hv c h1)
    cases g <;> exact ⟨skip, hu', hz⟩
  | same op h1 h2 =>
    cases op with
    | setZ i v => exact absurd rfl (h1 i v)
    | setU i v => exact absurd rfl (h2 i v)
    | setX v => cases g <;> simp [compile1] at hc
    | predict =>
      cases g with
      | predict A =>
        simp only [compile1, Option.map_eq_some_iff] at hc
        obtain ⟨b, h3, h4⟩ := hc
        cases h4
        exact ⟨N.within_predict hw h3 ha, hu, hz⟩
      | _ => simp [compile1] at hc
    | predictTuned lambda =>
      cases g with
      | predict A =>
        simp only [compile1, Option.map_eq_some_iff] at hc
        obtain ⟨b, h3, h4⟩ := hc
        cases h4
        exact ⟨N.within_predict hw h3 ha, hu, hz⟩
      | _ => simp [compile1] at hc
    | control i =>
      cases g with
      | control l B =>
        by_cases h0 : l = 0
        · simp only [compile1, h0, if_true, Option.some.injEq, Prod.mk.injEq] at hc
          obtain ⟨rfl, rfl, rfl⟩ := hc
          simp only [Estimator.step, h0, if_true]
          exact ⟨skip, hu, hz⟩
        · simp only [compile1, h0, if_false, Option.map_eq_some_iff] at hc
          obtain ⟨b, h3, h4⟩ := hc
          cases h4
          simp only [Estimator.step, h0, if_false]
          exact ⟨N.within_control hw h3 (AllClose.get N hs hu i) ha, hu, hz⟩
      | _ => simp [compile1] at hc
    | correct i =>
      cases g with
      | correct m H K =>
        simp only [compile1, Option.bind_eq_some_iff, Option.map_eq_some_iff] at hc
        obtain ⟨b, h3, c, h4, h5⟩ := hc
        cases h5
        exact ⟨N.within_correct hw h3 h4 (AllClose.get N hr hz i) ha, hu, hz⟩
      | _ => simp [compile1] at hc
    | setA v | setP v | setQ v | setB i v | setQc i v | setH i v | setR i v =>
      have h3 : (Lin.skip, us, zs) = (a, us', zs') := by cases g <;> simpa [compile1] using hc
      cases h3
      cases g <;> exact ⟨skip, hu, hz⟩

theorem replay_within {r s : ℚ} (hr : 0 ≤ r) (hs : 0 ≤ s) {x0 : List ℚ} {gains : List (Recorded T)} {ops ops' : List (Op T)}
    (ho : List.Forall₂ (N.OpClose r s) ops ops') {h : List Lin} {e : Estimator n T} (hw : N.Within r s x0 h e.x)
    {us zs : List (List ℚ)} (hu : N.AllClose s e.u us) (hz : N.AllClose r e.z zs) {ls : List Lin}
    (hc : compile N.rat us zs (gains.zip ops) = some ls) (ha : certify n (N.tol r s) x0 h ls = true) :
    N.Within r s x0 (ls.reverse ++ h) (e.replay gains ops').x := by
  induction ho generalizing h e us zs ls gains with
  | nil =>
    rw [List.zip_nil_right] at hc
    cases hc
    cases gains <;> exact hw
  | @cons op op' ops ops' h0 _ ih =>
    cases gains with
    | nil => cases hc; exact hw
    | cons g gains =>
      simp only [List.zip_cons_cons, compile, Option.bind_eq_some_iff, Option.map_eq_some_iff] at hc
      obtain ⟨⟨a, us', zs'⟩, h1, ls', h2, rfl⟩ := hc
      simp only [certify, Bool.and_eq_true] at ha
      obtain ⟨s1, s2, s3⟩ := N.step_within hr hs hw hu hz h0 h1 ha.1
      have := ih s1 s2 s3 h2 ha.2
      rw [List.reverse_cons, List.append_assoc]
      exact this

end Near
end Minikalman
