import Verif.Spec.History
import Verif.Spec.Extended
import Verif.Spec.RoundingInv
import Verif.Spec.Float
import Verif.Spec.FixedPoint
import Mathlib.Order.Filter.Basic
import Mathlib.Topology.Instances.Real.Lemmas

/-!
# Programs in arithmetics of growing precision

A family of element types `T k`, and a notion `lim a x` of a family of numbers `a k : T k` tending to a real number `x`. What
it means that the buffers of a family of programs tend to the matrices of a textbook filter, and that the data of a family of
calls tend to the data of a call with real numbers.
-/

namespace Minikalman

open Filter

variable {ι : Type} {T : ι → Type} {n l m R C : Nat}

/-- The lists have the length of `t`, and the entries at each position tend to the entry of `t` in the sense of `r`. -/
def ListTends {α : ι → Type} {β : Type} (r : (∀ k, α k) → β → Prop) (s : ∀ k, List (α k)) (t : List β) : Prop :=
  (∀ k, (s k).length = t.length) ∧ ∀ (i : Nat) (x : β), t[i]? = some x → ∃ f, (∀ k, (s k)[i]? = some (f k)) ∧ r f x

/-- The element types `T k` approximate the real numbers: sums, products, ... of families that tend to real numbers tend to the
sums, products, ... of these, from some point on the reciprocal and the square root do not panic where they are defined
and not singular, and a family that tends to a positive number is eventually recognised as positive. -/
structure ScalarLimit (F : Filter ι) (lim : (∀ k, T k) → ℝ → Prop) [∀ k, Zero (T k)] [∀ k, One (T k)] [∀ k, Add (T k)]
    [∀ k, Sub (T k)] [∀ k, Mul (T k)] [∀ k, Neg (T k)] [∀ k, MDT (T k)] : Prop where
  zero : lim (fun _ => 0) 0
  one : lim (fun _ => 1) 1
  add : ∀ {a b x y}, lim a x → lim b y → lim (fun k => a k + b k) (x + y)
  sub : ∀ {a b x y}, lim a x → lim b y → lim (fun k => a k - b k) (x - y)
  mul : ∀ {a b x y}, lim a x → lim b y → lim (fun k => a k * b k) (x * y)
  neg : ∀ {a x}, lim a x → lim (fun k => -a k) (-x)
  isum : ∀ {s t}, ListTends lim s t → lim (fun k => MDT.isum (s k)) t.sum
  recip : ∀ {a x}, lim a x → x ≠ 0 → ∃ d, (∀ᶠ k in F, MDT.recip (a k) = .ok (d k)) ∧ lim d x⁻¹
  squareRoot : ∀ {a x}, lim a x → 0 < x → ∃ d, (∀ᶠ k in F, MDT.squareRoot (a k) = .ok (d k)) ∧ lim d (Real.sqrt x)
  pos : ∀ {a x}, lim a x → 0 < x → ∀ᶠ k in F, MDT.le (a k) 0 = false

/-- All cells of the buffers tend to the cells of `b` (a buffer of real numbers, or of any other type). -/
def MatTends {X : Type} (lim : (∀ k, T k) → X → Prop) (a : ∀ k, Mat R C (T k)) (b : Mat R C X) : Prop :=
  ListTends lim (fun k => (a k).data) b.data

variable (lim : (∀ k, T k) → ℝ → Prop)

/-- The inputs of the controls tend to the inputs of `d`. Temporaries do not matter. -/
inductive CtlTends : (∀ k, (l : Nat) × Control n l (T k)) → (l : Nat) × Control n l ℝ → Prop
  | mk {l : Nat} {c : ∀ k, Control n l (T k)} {d : Control n l ℝ} (B : MatTends lim (fun k => (c k).B) d.B)
      (u : MatTends lim (fun k => (c k).u) d.u) (Q : MatTends lim (fun k => (c k).Q) d.Q) :
      CtlTends (fun k => ⟨l, c k⟩) ⟨l, d⟩

/-- The inputs of the observations tend to the inputs of `p`. Temporaries and outputs do not matter. -/
inductive ObsTends : (∀ k, (m : Nat) × RegularObservation n m (T k)) → (m : Nat) × RegularObservation n m ℝ → Prop
  | mk {m : Nat} {o : ∀ k, RegularObservation n m (T k)} {p : RegularObservation n m ℝ} (H : MatTends lim (fun k => (o k).H) p.H)
      (z : MatTends lim (fun k => (o k).z) p.z) (R : MatTends lim (fun k => (o k).R) p.R) :
      ObsTends (fun k => ⟨m, o k⟩) ⟨m, p⟩

/-- The user visible buffers of the programs tend to those of the program `v` with real numbers. Temporaries may hold anything. -/
structure World.TendsTo (w : ∀ k, World n (T k)) (v : World n ℝ) : Prop where
  valid : ∀ k, (w k).Valid
  x : MatTends lim (fun k => (w k).kf.x) v.kf.x
  A : MatTends lim (fun k => (w k).kf.A) v.kf.A
  P : MatTends lim (fun k => (w k).kf.P) v.kf.P
  Q : MatTends lim (fun k => (w k).kf.Q) v.kf.Q
  ctl : ListTends (CtlTends lim) (fun k => (w k).ctl) v.ctl
  obs : ListTends (ObsTends lim) (fun k => (w k).obs) v.obs

/-- The matrices the programs hold tend to those of the textbook filter `s`. -/
def World.Tends (w : ∀ k, World n (T k)) (s : Spec.State n ℝ) : Prop := ∃ v : World n ℝ, v.Reps s ∧ World.TendsTo lim w v

/-- The same calls with data that tend to the data of a call with real numbers (or numbers of any other type). -/
inductive Op.Tends {X : Type} (lim : (∀ k, T k) → X → Prop) : (∀ k, Op (T k)) → Op X → Prop
  | predict : Op.Tends lim (fun _ => .predict) .predict
  | predictTuned {a x} (h : lim a x) : Op.Tends lim (fun k => .predictTuned (a k)) (.predictTuned x)
  | control (i) : Op.Tends lim (fun _ => .control i) (.control i)
  | correct (i) : Op.Tends lim (fun _ => .correct i) (.correct i)
  | setX {v w} (h : ListTends lim v w) : Op.Tends lim (fun k => .setX (v k)) (.setX w)
  | setA {v w} (h : ListTends lim v w) : Op.Tends lim (fun k => .setA (v k)) (.setA w)
  | setP {v w} (h : ListTends lim v w) : Op.Tends lim (fun k => .setP (v k)) (.setP w)
  | setQ {v w} (h : ListTends lim v w) : Op.Tends lim (fun k => .setQ (v k)) (.setQ w)
  | setU (i) {v w} (h : ListTends lim v w) : Op.Tends lim (fun k => .setU i (v k)) (.setU i w)
  | setB (i) {v w} (h : ListTends lim v w) : Op.Tends lim (fun k => .setB i (v k)) (.setB i w)
  | setQc (i) {v w} (h : ListTends lim v w) : Op.Tends lim (fun k => .setQc i (v k)) (.setQc i w)
  | setZ (i) {v w} (h : ListTends lim v w) : Op.Tends lim (fun k => .setZ i (v k)) (.setZ i w)
  | setH (i) {v w} (h : ListTends lim v w) : Op.Tends lim (fun k => .setH i (v k)) (.setH i w)
  | setR (i) {v w} (h : ListTends lim v w) : Op.Tends lim (fun k => .setR i (v k)) (.setR i w)

/-! ## Programs close to a textbook filter -/

/-- The number is finite and its value differs from `x` by at most `δ`. -/
def Close {T : Type} (fin : T → Prop) (val : T → ℝ) (δ : ℝ) (a : T) (x : ℝ) : Prop := fin a ∧ |val a - x| ≤ δ

/-- From some point on the numbers are finite, and their values tend to `x`. -/
def Converges (F : Filter ι) (fin : ∀ k, T k → Prop) (val : ∀ k, T k → ℝ) (a : ∀ k, T k) (x : ℝ) : Prop :=
  (∀ᶠ k in F, fin k (a k)) ∧ Tendsto (fun k => val k (a k)) F (nhds x)

section Near
variable {T : Type} (near : T → ℝ → Prop)

/-- The cells of the buffer are near those of the matrix. -/
def Mat.Near (a : Mat R C T) (M : Matrix (Fin R) (Fin C) ℝ) : Prop :=
  ∀ (i : Fin R) (j : Fin C), ∃ t, a.data[(i : Nat) * C + (j : Nat)]? = some t ∧ near t (M i j)

/-- The cells of the buffer are near those of the vector. -/
def Mat.NearV (a : Mat n 1 T) (v : Fin n → ℝ) : Prop := ∀ i : Fin n, ∃ t, a.data[(i : Nat)]? = some t ∧ near t (v i)

/-- A control object is near a control input. -/
inductive CtlNear : (l : Nat) × Control n l T → (l : Nat) × Spec.Ctl n l ℝ → Prop
  | mk {l : Nat} {c : Control n l T} {d : Spec.Ctl n l ℝ} (B : c.B.Near near d.B) (u : c.u.NearV near d.u) (Q : c.Q.Near near d.Q) :
      CtlNear ⟨l, c⟩ ⟨l, d⟩

/-- An observation object is near a measurement. -/
inductive ObsNear : (m : Nat) × RegularObservation n m T → (m : Nat) × Spec.Obs n m ℝ → Prop
  | mk {m : Nat} {o : RegularObservation n m T} {p : Spec.Obs n m ℝ} (H : o.H.Near near p.H) (z : o.z.NearV near p.z)
      (R : o.R.Near near p.R) : ObsNear ⟨m, o⟩ ⟨m, p⟩

/-- The numbers the program holds are near those of the textbook filter. Temporaries may hold anything. -/
structure World.Near (w : World n T) (s : Spec.State n ℝ) : Prop where
  x : w.kf.x.NearV near s.x
  A : w.kf.A.Near near s.A
  P : w.kf.P.Near near s.P
  Q : w.kf.Q.Near near s.Q
  ctl : List.Forall₂ (CtlNear near) w.ctl s.ctl
  obs : List.Forall₂ (ObsNear near) w.obs s.obs

/-- The same call with data near those of a call with real numbers. -/
inductive Op.Near : Op T → Op ℝ → Prop
  | predict : Op.Near .predict .predict
  | predictTuned {a x} (h : near a x) : Op.Near (.predictTuned a) (.predictTuned x)
  | control (i) : Op.Near (.control i) (.control i)
  | correct (i) : Op.Near (.correct i) (.correct i)
  | setX {v w} (h : List.Forall₂ near v w) : Op.Near (.setX v) (.setX w)
  | setA {v w} (h : List.Forall₂ near v w) : Op.Near (.setA v) (.setA w)
  | setP {v w} (h : List.Forall₂ near v w) : Op.Near (.setP v) (.setP w)
  | setQ {v w} (h : List.Forall₂ near v w) : Op.Near (.setQ v) (.setQ w)
  | setU (i) {v w} (h : List.Forall₂ near v w) : Op.Near (.setU i v) (.setU i w)
  | setB (i) {v w} (h : List.Forall₂ near v w) : Op.Near (.setB i v) (.setB i w)
  | setQc (i) {v w} (h : List.Forall₂ near v w) : Op.Near (.setQc i v) (.setQc i w)
  | setZ (i) {v w} (h : List.Forall₂ near v w) : Op.Near (.setZ i v) (.setZ i w)
  | setH (i) {v w} (h : List.Forall₂ near v w) : Op.Near (.setH i v) (.setH i w)
  | setR (i) {v w} (h : List.Forall₂ near v w) : Op.Near (.setR i v) (.setR i w)

/-- The buffers have exactly the size of their matrices (as those the builders make). -/
structure World.Exact (w : World n T) : Prop where
  x : w.kf.x.data.length = n
  A : w.kf.A.data.length = n * n
  P : w.kf.P.data.length = n * n
  Q : w.kf.Q.data.length = n * n
  ctl : ∀ c ∈ w.ctl, c.2.B.data.length = n * c.1 ∧ c.2.u.data.length = c.1 ∧ c.2.Q.data.length = c.1 * c.1
  obs : ∀ o ∈ w.obs, o.2.H.data.length = o.1 * n ∧ o.2.z.data.length = o.1 ∧ o.2.R.data.length = o.1 * o.1

end Near

/-- Results smaller than `M` do not overflow, and comparisons with zero are right. -/
structure RoundedInverse.Ranged {T : Type} [Zero T] [One T] [Add T] [Sub T] [Mul T] [Neg T] [MDT T] (ra : RoundedInverse T) (M : ℝ) :
    Prop where
  add : ∀ a b, ra.fin a → ra.fin b → |ra.val a + ra.val b| < M → ra.fin (a + b)
  sub : ∀ a b, ra.fin a → ra.fin b → |ra.val a - ra.val b| < M → ra.fin (a - b)
  mul : ∀ a b, ra.fin a → ra.fin b → |ra.val a * ra.val b| < M → ra.fin (a * b)
  neg : ∀ a, ra.fin a → |ra.val a| < M → ra.fin (-a)
  recip : ∀ a, ra.fin a → ra.val a ≠ 0 → |(ra.val a)⁻¹| < M → ∃ d, MDT.recip a = .ok d ∧ ra.fin d
  sqrt : ∀ a, ra.fin a → 0 < ra.val a → √(ra.val a) < M → ∃ q, MDT.squareRoot a = .ok q ∧ ra.fin q
  pos : ∀ a, ra.fin a → 0 < ra.val a → MDT.le a 0 = false

/-- The format has at least `p` bits of precision, numbers as small as `2^-p` and all numbers of that precision below `2^p`. -/
def Format.AtLeast (p : Nat) (fmt : Format) : Prop := p ≤ fmt.prec ∧ p ≤ fmt.frac ∧ p ≤ fmt.top - fmt.frac

end Minikalman
