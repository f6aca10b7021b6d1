import Verif.Proofs.CheckedSim
import Verif.Proofs.Fixed

/-!
# Affine forms: bounds for all runs of a fixed point program with unknown inputs

A number of the program is known exactly (`const`), or known to differ from an affine function of the unknown inputs `ε₀, ε₁, …` by at
most `r` (`form`; all in units of the last bit). The operators panic if the number of the program might leave the range, or if the
result is not affine. (A proof device, not a model of code.)
-/

namespace Minikalman

/-- What is known about a number of the program. -/
inductive Aff (f : Nat)
  | const (a : FixedPoint f)
  | form (c : ℚ) (cs : List ℚ) (r : ℚ)

namespace Aff

variable {f : Nat}

/-- Sum of two lists of coefficients. -/
def addL : List ℚ → List ℚ → List ℚ
  | [], l => l
  | l, [] => l
  | a :: l, b :: l' => (a + b) :: addL l l'

/-- Sum of the magnitudes of the coefficients. -/
def absL (l : List ℚ) : ℚ := l.foldr (fun a s => |a| + s) 0

/-- The form, if all numbers it describes are in range, for inputs of magnitude at most `B`. -/
def guard (f : Nat) (B c : ℚ) (cs : List ℚ) (r : ℚ) : Res (Aff f) :=
  if 2 * (|c| + absL cs * B + r) < 2 ^ (2 * f) then .ok (.form c cs r) else .error .arithmetic

def center : Aff f → ℚ
  | const a => a.bits.toInt
  | form c _ _ => c

def coefs : Aff f → List ℚ
  | const _ => []
  | form _ cs _ => cs

def radius : Aff f → ℚ
  | const _ => 0
  | form _ _ r => r

/-- Product with a known number, rounded down. -/
def scale (B : ℚ) (k : FixedPoint f) (x : Aff f) : Res (Aff f) :=
  let q : ℚ := k.bits.toInt / 2 ^ f
  guard f B (q * x.center) (x.coefs.map (q * ·)) (|q| * x.radius + 1)

def ops (f : Nat) (B : ℚ) : Ops (Aff f) where
  zero := .const 0
  one := .const 1
  sumStart := .const 0
  add
    | const a, const b => return .const (← (FixedPoint.debugOps f).add a b)
    | x, y => guard f B (x.center + y.center) (addL x.coefs y.coefs) (x.radius + y.radius)
  sub
    | const a, const b => return .const (← (FixedPoint.debugOps f).sub a b)
    | x, y => guard f B (x.center - y.center) (addL x.coefs (y.coefs.map (-·))) (x.radius + y.radius)
  mul
    | const a, const b => return .const (← (FixedPoint.debugOps f).mul a b)
    | const a, y => scale B a y
    | x, const b => scale B b x
    | _, _ => .error .arithmetic
  neg
    | const a => return .const (← (FixedPoint.debugOps f).neg a)
    | _ => .error .arithmetic
  recip
    | const a => return .const (← (FixedPoint.debugOps f).recip a)
    | _ => .error .arithmetic
  squareRoot
    | const a => return .const (← (FixedPoint.debugOps f).squareRoot a)
    | _ => .error .arithmetic
  le
    | const a, const b => (FixedPoint.debugOps f).le a b
    | _, _ => .error .arithmetic

/-- Value of the affine function. -/
def dot : List ℚ → List ℚ → ℚ
  | a :: l, e :: es => a * e + dot l es
  | _, _ => 0

/-- The number `a` is as described, if the inputs are `es`. -/
def Describes (es : List ℚ) (a : FixedPoint f) : Aff f → Prop
  | const b => a = b
  | form c cs r => |(a.bits.toInt : ℚ) - (c + dot cs es)| ≤ r

theorem Describes.near {es : List ℚ} {a : FixedPoint f} {x : Aff f} (h : Describes es a x) :
    |(a.bits.toInt : ℚ) - (x.center + dot x.coefs es)| ≤ x.radius := by
  cases x with
  | const b => cases h; simp [center, coefs, radius, dot]
  | form c cs r => exact h

theorem dot_addL (l l' es : List ℚ) : dot (addL l l') es = dot l es + dot l' es := by
  induction l generalizing l' es with
  | nil => cases es <;> simp [addL, dot]
  | cons a l ih =>
    cases l' with
    | nil => cases es <;> simp [addL, dot]
    | cons b l' =>
      cases es with
      | nil => simp [dot]
      | cons e es => simp only [addL, dot, ih]; ring

theorem dot_map (q : ℚ) (l es : List ℚ) : dot (l.map (q * ·)) es = q * dot l es := by
  induction l generalizing es with
  | nil => simp [dot]
  | cons a l ih =>
    cases es with
    | nil => simp [dot]
    | cons e es => simp only [List.map_cons, dot, ih]; ring

theorem dot_neg (l es : List ℚ) : dot (l.map (-·)) es = -dot l es := by
  have h : l.map (-·) = l.map ((-1 : ℚ) * ·) := List.map_congr_left fun a _ => by ring
  rw [h, dot_map]; ring

theorem dot_le {B : ℚ} (hB : 0 ≤ B) {es : List ℚ} (h : ∀ e ∈ es, |e| ≤ B) (l : List ℚ) : |dot l es| ≤ absL l * B := by
  have h0 : ∀ l : List ℚ, 0 ≤ absL l := by
    intro l
    induction l with
    | nil => exact le_refl _
    | cons a l ih => exact add_nonneg (abs_nonneg a) ih
  induction l generalizing es with
  | nil => simp [dot, absL]
  | cons a l ih =>
    cases es with
    | nil => simpa [dot] using mul_nonneg (h0 (a :: l)) hB
    | cons e es =>
      have h1 := ih fun e he => h e (List.mem_cons_of_mem _ he)
      have h2 := mul_le_mul_of_nonneg_left (h e List.mem_cons_self) (abs_nonneg a)
      calc |a * e + dot l es| ≤ |a * e| + |dot l es| := abs_add_le _ _
        _ ≤ |a| * B + absL l * B := by rw [abs_mul]; exact add_le_add h2 h1
        _ = absL (a :: l) * B := by simp only [absL, List.foldr_cons]; ring

theorem guard_ok {B c r : ℚ} {cs : List ℚ} {t : Aff f} (hB : 0 ≤ B) {es : List ℚ} (h : ∀ e ∈ es, |e| ≤ B) (hg : guard f B c cs r = .ok t) :
    t = .form c cs r ∧ ∀ z : Int, |(z : ℚ) - (c + dot cs es)| ≤ r → InRange f z := by
  unfold guard at hg
  split at hg
  · rename_i hlt
    cases hg
    refine ⟨rfl, fun z hz => ?_⟩
    have h1 := dot_le hB h cs
    have h2 : |(z : ℚ)| ≤ |c| + absL cs * B + r := by
      have := abs_sub_abs_le_abs_sub (z : ℚ) (c + dot cs es)
      have := abs_add_le c (dot cs es)
      linarith
    have h3 : 2 * |(z : ℚ)| < 2 ^ (2 * f) := by linarith
    have h4 : 2 * |z| < 2 ^ (2 * f) := by exact_mod_cast h3
    have h5 := neg_abs_le z
    have h6 := le_abs_self z
    constructor <;> omega
  · cases hg

theorem add_toInt {a b : FixedPoint f} (h : InRange f (a.bits.toInt + b.bits.toInt)) :
    (a + b).bits.toInt = a.bits.toInt + b.bits.toInt := by
  show (a.bits + b.bits).toInt = _
  rw [BitVec.toInt_add, ← BitVec.toInt_ofInt]
  exact toInt_of_inRange h

theorem sub_toInt {a b : FixedPoint f} (h : InRange f (a.bits.toInt - b.bits.toInt)) :
    (a - b).bits.toInt = a.bits.toInt - b.bits.toInt := by
  show (a.bits - b.bits).toInt = _
  rw [BitVec.toInt_sub, ← BitVec.toInt_ofInt]
  exact toInt_of_inRange h

end Aff

namespace Chk

open Mode

/-- If the description of a computation succeeds then so does the computation. -/
def succeeds : Mode Unit where
  holds c P := ∃ s, c () = .ok (s ()) ∧ P s
  fails _ _ := True
  ok h := ⟨_, rfl, h⟩
  bind := by
    rintro α β P Q c f ⟨s, h1, h2⟩ hf
    simp only [h1, res_bind_ok]
    exact hf s h2
  error _ := trivial
  bind_error _ := trivial
  bind_fails _ _ := trivial

theorem succeeds_sim {α β : Type} {c : Res α} {d : Res β} {S : (Unit → α) → β → Prop}
    (h : ∀ t, d = .ok t → ∃ s, c = .ok s ∧ S (fun _ => s) t) : succeeds.Sim (fun _ => c) d S :=
  ⟨fun t ht => by obtain ⟨s, h1, h2⟩ := h t ht; exact ⟨fun _ => s, h1, h2⟩, fun _ _ => trivial⟩

theorem const_sim {f : Nat} {es : List ℚ} {c : Res (FixedPoint f)} :
    ∀ t, (c >>= fun r => pure (Aff.const r)) = .ok t → ∃ s, c = .ok s ∧ Aff.Describes es s t := by
  intro t ht
  cases c with
  | error e => cases ht
  | ok s => cases ht; exact ⟨s, rfl, rfl⟩

theorem scale_sim {f : Nat} {B : ℚ} (hB : 0 ≤ B) {es : List ℚ} (he : ∀ e ∈ es, |e| ≤ B) {k a : FixedPoint f} {x : Aff f}
    (h : Aff.Describes es a x) {t : Aff f} (ht : Aff.scale B k x = .ok t) :
    InRange f (k.bits.toInt * a.bits.toInt / 2 ^ f) ∧
      ∀ r : FixedPoint f, r.bits.toInt = k.bits.toInt * a.bits.toInt / 2 ^ f → Aff.Describes es r t := by
  obtain ⟨rfl, h2⟩ := Aff.guard_ok hB he ht
  have hp : (0 : ℚ) < 2 ^ f := by positivity
  have h3 : |((k.bits.toInt * a.bits.toInt / 2 ^ f : Int) : ℚ) -
      ((k.bits.toInt : ℚ) / 2 ^ f * x.center + Aff.dot (x.coefs.map ((k.bits.toInt : ℚ) / 2 ^ f * ·)) es)| ≤
      |(k.bits.toInt : ℚ) / 2 ^ f| * x.radius + 1 := by
    have h4 := h.near
    obtain ⟨z, hz⟩ : ∃ z : Int, z = k.bits.toInt * a.bits.toInt / 2 ^ f := ⟨_, rfl⟩
    have h5 : z * 2 ^ f ≤ k.bits.toInt * a.bits.toInt := by rw [hz]; exact Int.ediv_mul_le _ (by positivity)
    have h6 : k.bits.toInt * a.bits.toInt < (z + 1) * 2 ^ f := by rw [hz]; exact Int.lt_ediv_add_one_mul_self _ (by positivity)
    have h5' : (z : ℚ) * 2 ^ f ≤ k.bits.toInt * a.bits.toInt := by exact_mod_cast h5
    have h6' : (k.bits.toInt : ℚ) * a.bits.toInt < (z + 1) * 2 ^ f := by exact_mod_cast h6
    have h7 : |(z : ℚ) - (k.bits.toInt : ℚ) / 2 ^ f * a.bits.toInt| ≤ 1 := by
      rw [div_mul_eq_mul_div, abs_le]
      constructor
      · rw [neg_le_sub_iff_le_add, div_le_iff₀ hp]; linarith
      · rw [sub_le_iff_le_add, ← sub_le_iff_le_add', le_div_iff₀ hp]; nlinarith
    have h8 : |(k.bits.toInt : ℚ) / 2 ^ f * a.bits.toInt - (k.bits.toInt : ℚ) / 2 ^ f * (x.center + Aff.dot x.coefs es)| ≤
        |(k.bits.toInt : ℚ) / 2 ^ f| * x.radius := by
      rw [← mul_sub, abs_mul]
      exact mul_le_mul_of_nonneg_left h4 (abs_nonneg _)
    rw [← hz, Aff.dot_map, ← mul_add]
    calc _ ≤ |(z : ℚ) - (k.bits.toInt : ℚ) / 2 ^ f * a.bits.toInt| +
        |(k.bits.toInt : ℚ) / 2 ^ f * a.bits.toInt - (k.bits.toInt : ℚ) / 2 ^ f * (x.center + Aff.dot x.coefs es)| := abs_sub_le _ _ _
      _ ≤ _ := by linarith
  exact ⟨h2 _ h3, fun r hr => by show |((r.bits.toInt : Int) : ℚ) - _| ≤ _; rw [hr]; exact h3⟩

theorem mul_toInt {f : Nat} {a b : FixedPoint f} (h : InRange f (a.bits.toInt * b.bits.toInt / 2 ^ f)) :
    (a * b).bits.toInt = a.bits.toInt * b.bits.toInt / 2 ^ f := toInt_of_inRange h

theorem checked_ok' {f : Nat} {z : Int} {r : FixedPoint f} (h : InRange f z) : FixedPoint.checked z r = .ok r := if_pos h

theorem add_case {f : Nat} {B : ℚ} (hB : 0 ≤ B) {es : List ℚ} (he : ∀ e ∈ es, |e| ≤ B) {a b : FixedPoint f} {x y : Aff f}
    (ha : Aff.Describes es a x) (hb : Aff.Describes es b y) (t : Aff f)
    (ht : Aff.guard f B (x.center + y.center) (Aff.addL x.coefs y.coefs) (x.radius + y.radius) = .ok t) :
    ∃ s, (FixedPoint.debugOps f).add a b = .ok s ∧ Aff.Describes es s t := by
  obtain ⟨rfl, h⟩ := Aff.guard_ok hB he ht
  have h1 := ha.near
  have h2 := hb.near
  have h3 : |((a.bits.toInt + b.bits.toInt : Int) : ℚ) - (x.center + y.center + Aff.dot (Aff.addL x.coefs y.coefs) es)| ≤
      x.radius + y.radius := by
    rw [Aff.dot_addL]
    push_cast
    rw [abs_le] at *
    constructor <;> linarith
  refine ⟨a + b, checked_ok' (h _ h3), ?_⟩
  show |(((a + b).bits.toInt : Int) : ℚ) - _| ≤ _
  rw [Aff.add_toInt (h _ h3)]
  exact h3

theorem sub_case {f : Nat} {B : ℚ} (hB : 0 ≤ B) {es : List ℚ} (he : ∀ e ∈ es, |e| ≤ B) {a b : FixedPoint f} {x y : Aff f}
    (ha : Aff.Describes es a x) (hb : Aff.Describes es b y) (t : Aff f)
    (ht : Aff.guard f B (x.center - y.center) (Aff.addL x.coefs (y.coefs.map (-·))) (x.radius + y.radius) = .ok t) :
    ∃ s, (FixedPoint.debugOps f).sub a b = .ok s ∧ Aff.Describes es s t := by
  obtain ⟨rfl, h⟩ := Aff.guard_ok hB he ht
  have h1 := ha.near
  have h2 := hb.near
  have h3 : |((a.bits.toInt - b.bits.toInt : Int) : ℚ) - (x.center - y.center + Aff.dot (Aff.addL x.coefs (y.coefs.map (-·))) es)| ≤
      x.radius + y.radius := by
    rw [Aff.dot_addL, Aff.dot_neg]
    push_cast
    rw [abs_le] at *
    constructor <;> linarith
  refine ⟨a - b, checked_ok' (h _ h3), ?_⟩
  show |(((a - b).bits.toInt : Int) : ℚ) - _| ≤ _
  rw [Aff.sub_toInt (h _ h3)]
  exact h3

/-- Where the operators on descriptions succeed, the operators with overflow checks succeed on all numbers described, and the result is
as described. -/
theorem aff_sim {f : Nat} {B : ℚ} (hB : 0 ≤ B) {es : List ℚ} (he : ∀ e ∈ es, |e| ≤ B) :
    OpsSim succeeds (fun _ => FixedPoint.debugOps f) (Aff.ops f B) (fun a x => Aff.Describes es (a ()) x) where
  zero := rfl
  one := rfl
  sumStart := rfl
  add {a b x y} ha hb := by
    refine succeeds_sim ?_
    match x, y, ha, hb with
    | .const _, .const _, ha, hb => cases ha; cases hb; exact const_sim
    | .const _, .form .., ha, hb => exact add_case hB he ha hb
    | .form .., .const _, ha, hb => exact add_case hB he ha hb
    | .form .., .form .., ha, hb => exact add_case hB he ha hb
  sub {a b x y} ha hb := by
    refine succeeds_sim ?_
    match x, y, ha, hb with
    | .const _, .const _, ha, hb => cases ha; cases hb; exact const_sim
    | .const _, .form .., ha, hb => exact sub_case hB he ha hb
    | .form .., .const _, ha, hb => exact sub_case hB he ha hb
    | .form .., .form .., ha, hb => exact sub_case hB he ha hb
  mul {a b x y} ha hb := by
    refine succeeds_sim ?_
    match x, y, ha, hb with
    | .const _, .const _, ha, hb => cases ha; cases hb; exact const_sim
    | .const k, .form c cs r, ha, hb =>
      cases ha
      intro t ht
      obtain ⟨h1, h2⟩ := scale_sim hB he hb ht
      exact ⟨_, checked_ok' h1, h2 _ (mul_toInt h1)⟩
    | .form c cs r, .const k, ha, hb =>
      cases hb
      intro t ht
      obtain ⟨h1, h2⟩ := scale_sim hB he ha ht
      rw [Int.mul_comm] at h1 h2
      exact ⟨_, checked_ok' h1, h2 _ (mul_toInt h1)⟩
    | .form .., .form .., ha, hb => intro t ht; cases ht
  neg {a x} ha := by
    refine succeeds_sim ?_
    match x, ha with
    | .const _, ha => cases ha; exact const_sim
    | .form .., ha => intro t ht; cases ht
  recip {a x} ha := by
    refine succeeds_sim ?_
    match x, ha with
    | .const _, ha => cases ha; exact const_sim
    | .form .., ha => intro t ht; cases ht
  squareRoot {a x} ha := by
    refine succeeds_sim ?_
    match x, ha with
    | .const _, ha => cases ha; exact const_sim
    | .form .., ha => intro t ht; cases ht
  le {a b x y} ha hb := by
    refine succeeds_sim ?_
    match x, y, ha, hb with
    | .const _, .const _, ha, hb =>
      cases ha; cases hb
      intro t ht
      exact ⟨t, ht, rfl⟩
    | .const _, .form .., ha, hb => intro t ht; cases ht
    | .form .., .const _, ha, hb => intro t ht; cases ht
    | .form .., .form .., ha, hb => intro t ht; cases ht

end Chk
end Minikalman
