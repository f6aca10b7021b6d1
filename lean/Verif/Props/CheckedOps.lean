import Verif.Proofs.CheckedLimit
import Verif.Proofs.Affine
import Verif.Spec.Checked
import Verif.Spec.Parametric
import Verif.Props.Checked

/-!
# Property C93, continued: which operations panic

The operators of builds with overflow checks in terms of real numbers, and: where a program does not panic no overflow has occurred.
-/

set_option linter.unusedSectionVars false

namespace Minikalman

namespace FixedPoint
variable {f : Nat}

theorem inRange_iff (z : Int) : InRange f z ↔ Fits f ((z : ℝ) / 2 ^ f) := by
  have hp : (0 : ℝ) < 2 ^ f := by positivity
  have e : (2 : ℝ) ^ (2 * f) = 2 ^ f * 2 ^ f := by rw [two_mul, pow_add]
  have k1 : -2 ^ (2 * f) ≤ 2 * z ↔ -(2 : ℝ) ^ (2 * f) ≤ 2 * z := by exact_mod_cast Iff.rfl
  have k2 : 2 * z < 2 ^ (2 * f) ↔ 2 * (z : ℝ) < 2 ^ (2 * f) := by exact_mod_cast Iff.rfl
  unfold InRange Fits lim
  rw [k1, k2, le_div_iff₀ hp, div_lt_iff₀ hp, e]
  constructor
  · rintro ⟨h1, h2⟩; constructor <;> linarith
  · rintro ⟨h1, h2⟩; constructor <;> linarith

theorem inRange_floor (hf : 1 ≤ f) {z : Int} {x : ℝ} (h2 : (z : ℝ) / 2 ^ f ≤ x) (h3 : x < (z : ℝ) / 2 ^ f + 1 / 2 ^ f) :
    InRange f z ↔ Fits f x := by
  have hp : (0 : ℝ) < 2 ^ f := by positivity
  obtain ⟨g, hg⟩ : ∃ g : Int, (2 : Int) ^ (2 * f) = 2 * g := ⟨2 ^ (2 * f - 1), by rw [← pow_succ', show 2 * f - 1 + 1 = 2 * f by omega]⟩
  have hg' : (2 : ℝ) ^ f * 2 ^ f = 2 * g := by rw [← pow_add, ← two_mul]; exact_mod_cast hg
  have k1 : (z : ℝ) ≤ x * 2 ^ f := by rwa [div_le_iff₀ hp] at h2
  have k2 : x * 2 ^ f < z + 1 := by
    rw [← add_div, lt_div_iff₀ hp] at h3
    exact h3
  unfold InRange Fits lim
  rw [hg]
  constructor
  · rintro ⟨h1, h2⟩
    have h1' : (-g : ℝ) ≤ z := by exact_mod_cast (by omega : -g ≤ z)
    have h2' : (z : ℝ) + 1 ≤ g := by exact_mod_cast (by omega : z + 1 ≤ g)
    constructor <;> nlinarith
  · rintro ⟨h1, h2⟩
    have a1 : (-g : ℝ) - 1 < z := by nlinarith
    have a2 : (z : ℝ) < g := by nlinarith
    have b1 : -g - 1 < z := by exact_mod_cast a1
    have b2 : z < g := by exact_mod_cast a2
    omega

theorem checked_error {z : Int} {r : FixedPoint f} (h : ¬ InRange f z) : checked z r = .error .arithmetic := if_neg h

theorem mul_range (hf : 1 ≤ f) (a b : FixedPoint f) : InRange f (a.bits.toInt * b.bits.toInt / 2 ^ f) ↔ Fits f (a.val * b.val) := by
  have hp' : (0 : ℝ) < 2 ^ f := by positivity
  have := floor_bounds (f := f) (a.bits.toInt * b.bits.toInt)
  have e : a.val * b.val = ((a.bits.toInt * b.bits.toInt : Int) : ℝ) / 2 ^ f / 2 ^ f := by
    unfold val; push_cast; field_simp
  refine inRange_floor hf ?_ ?_
  · rw [e]; exact (div_le_div_iff_of_pos_right hp').2 this.1
  · rw [e, ← add_div]; exact (div_lt_div_iff_of_pos_right hp').2 (by linarith [this.2])

theorem tdiv_abs_le (u v : Int) (hv : v ≠ 0) : |((Int.tdiv u v : Int) : ℝ)| ≤ |(u : ℝ) / v| := by
  have h : |Int.tdiv u v| * |v| ≤ |u| := by
    rw [Int.abs_eq_natAbs, Int.abs_eq_natAbs, Int.abs_eq_natAbs, Int.natAbs_tdiv]
    exact_mod_cast Nat.div_mul_le_self _ _
  have h' : |((Int.tdiv u v : Int) : ℝ)| * |(v : ℝ)| ≤ |(u : ℝ)| := by exact_mod_cast h
  rw [abs_div, le_div_iff₀ (abs_pos.2 (by exact_mod_cast hv))]
  exact h'

theorem inv_val (a : FixedPoint f) (h0 : a.bits.toInt ≠ 0) :
    (a.val)⁻¹ = (((2 ^ (2 * f) : Int) : ℝ) / a.bits.toInt) / 2 ^ f := by
  have h0' : (a.bits.toInt : ℝ) ≠ 0 := by exact_mod_cast h0
  unfold val; push_cast; generalize (a.bits.toInt : ℝ) = v at h0' ⊢; rw [two_mul, pow_add]; field_simp

theorem val_eq_zero {a : FixedPoint f} : a.val = 0 ↔ a.bits.toInt = 0 := by
  have hp : (2 : ℝ) ^ f ≠ 0 := by positivity
  unfold val
  rw [div_eq_zero_iff]
  constructor
  · rintro (h | h)
    · exact_mod_cast h
    · exact absurd h hp
  · intro h; left; exact_mod_cast h

theorem recip_eq {a : FixedPoint f} (h : a.bits.toInt ≠ 0) :
    MDT.recip a = .ok ⟨BitVec.ofInt (2 * f) (Int.tdiv (2 ^ (2 * f)) a.bits.toInt)⟩ := by
  simp only [MDT.recip, if_neg h]

theorem recip_abs {a d : FixedPoint f} (h : MDT.recip a = .ok d) (hr : InRange f (Int.tdiv (2 ^ (2 * f)) a.bits.toInt)) :
    |d.val| ≤ |(a.val)⁻¹| := by
  obtain ⟨h0, h1⟩ := recip_ok h
  have hp : (0 : ℝ) < 2 ^ f := by positivity
  have e : d.val = ((Int.tdiv (2 ^ (2 * f)) a.bits.toInt : Int) : ℝ) / 2 ^ f := by
    unfold val; rw [h1, toInt_of_inRange hr]
  rw [e, inv_val a h0, abs_div _ ((2 : ℝ) ^ f), abs_div _ ((2 : ℝ) ^ f), abs_of_pos hp]
  exact (div_le_div_iff_of_pos_right hp).2 (tdiv_abs_le _ _ h0)

theorem tdiv_err_lt (u v : Int) (hv : v ≠ 0) : |((Int.tdiv u v : Int) : ℝ) - (u : ℝ) / v| < 1 := by
  have h := Int.mul_tdiv_add_tmod u v
  have h2 : |((Int.tmod u v : Int) : ℝ)| < |(v : ℝ)| := by
    have : (Int.tmod u v).natAbs < v.natAbs := by
      rw [Int.natAbs_tmod]; exact Nat.mod_lt _ (Int.natAbs_pos.2 hv)
    have : |Int.tmod u v| < |v| := by rw [Int.abs_eq_natAbs, Int.abs_eq_natAbs]; omega
    exact_mod_cast this
  have hv' : (v : ℝ) ≠ 0 := by exact_mod_cast hv
  have e : ((Int.tdiv u v : Int) : ℝ) - (u : ℝ) / v = -((Int.tmod u v : Int) : ℝ) / v := by
    have h' : (v : ℝ) * ((Int.tdiv u v : Int) : ℝ) + ((Int.tmod u v : Int) : ℝ) = u := by exact_mod_cast h
    rw [← h']; field_simp; ring
  rw [e, abs_div, abs_neg]
  exact (div_lt_one (abs_pos.2 hv')).2 h2

theorem recip_far {a : FixedPoint f} (hz : a.bits.toInt ≠ 0) (h1 : lim f + res f ≤ |(a.val)⁻¹|) :
    ¬ InRange f (Int.tdiv (2 ^ (2 * f)) a.bits.toInt) := by
  intro hr
  have hp : (0 : ℝ) < 2 ^ f := by positivity
  obtain ⟨k1, k2⟩ := (inRange_iff _).1 hr
  have he := tdiv_err_lt (2 ^ (2 * f)) a.bits.toInt hz
  have he' : |((Int.tdiv (2 ^ (2 * f)) a.bits.toInt : Int) : ℝ) / 2 ^ f - (a.val)⁻¹| < res f := by
    rw [inv_val a hz, ← sub_div, abs_div _ ((2 : ℝ) ^ f), abs_of_pos hp]
    unfold res
    exact (div_lt_div_iff_of_pos_right hp).2 he
  have k : |((Int.tdiv (2 ^ (2 * f)) a.bits.toInt : Int) : ℝ) / 2 ^ f| ≤ lim f := abs_le.2 ⟨k1, k2.le⟩
  have t := abs_sub_abs_le_abs_sub (a.val)⁻¹ (((Int.tdiv (2 ^ (2 * f)) a.bits.toInt : Int) : ℝ) / 2 ^ f)
  rw [abs_sub_comm] at t
  linarith

end FixedPoint

open FixedPoint in
/-- C93: the operators of builds with overflow checks give the exact result (products are rounded down) if the type can represent it,
and panic otherwise; the reciprocal panics for zero and if it does not fit, the square root for negative numbers. -/
theorem C93_operations {f : Nat} (hf : 2 ≤ f) : CheckedArithmetic f (debugOps f) := by
  have hf1 : 1 ≤ f := by omega
  have hp : (0 : ℝ) < 2 ^ f := by positivity
  have eadd : ∀ a b : FixedPoint f, InRange f (a.bits.toInt + b.bits.toInt) ↔ Fits f (a.val + b.val) := fun a b => by
    rw [inRange_iff]; unfold val; push_cast; rw [add_div]
  have esub : ∀ a b : FixedPoint f, InRange f (a.bits.toInt - b.bits.toInt) ↔ Fits f (a.val - b.val) := fun a b => by
    rw [inRange_iff]; unfold val; push_cast; rw [sub_div]
  have eneg : ∀ a : FixedPoint f, InRange f (-a.bits.toInt) ↔ Fits f (-a.val) := fun a => by
    rw [inRange_iff]; unfold val; push_cast; rw [neg_div]
  refine ⟨val_zero, val_one hf, val_zero, ?_, ?_, ?_, ?_, ?_, ?_, ?_, ?_, ?_, ?_, ?_, ?_, ?_, ?_⟩
  · intro a b h
    have := (eadd a b).2 h
    exact ⟨_, Chk.checked_ok this, val_add this⟩
  · intro a b h
    exact checked_error fun h' => h ((eadd a b).1 h')
  · intro a b h
    have := (esub a b).2 h
    exact ⟨_, Chk.checked_ok this, val_sub this⟩
  · intro a b h
    exact checked_error fun h' => h ((esub a b).1 h')
  · intro a b h
    have := (mul_range hf1 a b).2 h
    obtain ⟨h1, h2⟩ := val_mul this
    exact ⟨_, Chk.checked_ok this, h1, by unfold res; linarith⟩
  · intro a b h
    exact checked_error fun h' => h ((mul_range hf1 a b).1 h')
  · intro a h
    have := (eneg a).2 h
    exact ⟨_, Chk.checked_ok this, val_neg this⟩
  · intro a h
    exact checked_error fun h' => h ((eneg a).1 h')
  · intro a h0 h1
    have hz : a.bits.toInt ≠ 0 := fun h => h0 (val_eq_zero.2 h)
    have hr : InRange f (Int.tdiv (2 ^ (2 * f)) a.bits.toInt) := by
      refine inRange_exact hf1 (lt_of_le_of_lt ?_ h1)
      rw [inv_val a hz, abs_div, abs_div _ ((2 : ℝ) ^ f), abs_of_pos hp]
      exact (div_le_div_iff_of_pos_right hp).2 (tdiv_abs_le _ _ hz)
    refine ⟨_, ?_, recip_abs (recip_eq hz) hr, (recip_err (recip_eq hz) hr).2⟩
    show (MDT.recip a >>= fun r => checked _ r) = _
    rw [recip_eq hz]
    exact Chk.checked_ok hr
  · intro a h0
    have hz := val_eq_zero.1 h0
    show (MDT.recip a >>= fun r => checked _ r) = _
    have : MDT.recip a = .error .arithmetic := by simp only [MDT.recip, if_pos hz]
    rw [this]; rfl
  · intro a h0 h1
    have hz : a.bits.toInt ≠ 0 := fun h => h0 (val_eq_zero.2 h)
    show (MDT.recip a >>= fun r => checked _ r) = _
    rw [recip_eq hz]
    exact checked_error (recip_far hz h1)
  · intro a h
    have hz : ¬ a.bits.toInt < 0 := by
      intro h'
      have : a.val < 0 := div_neg_of_neg_of_pos (by exact_mod_cast h') hp
      linarith
    have e : MDT.squareRoot a = .ok ⟨BitVec.ofNat (2 * f) (Nat.sqrt (a.bits.toInt.toNat * 2 ^ f))⟩ := by
      simp only [MDT.squareRoot, if_neg hz]
    obtain ⟨-, h1, h2⟩ := sqrt_err hf1 e
    refine ⟨_, ?_, h1, h2⟩
    show (MDT.squareRoot a >>= fun r => checked _ r) = _
    rw [e]
    exact Chk.checked_ok (sqrt_inRange hf1)
  · intro a h
    have hz : a.bits.toInt < 0 := by
      by_contra h'
      have : 0 ≤ a.val := div_nonneg (by exact_mod_cast not_lt.1 h') hp.le
      linarith
    have e : MDT.squareRoot a = .error .arithmetic := by simp only [MDT.squareRoot, if_pos hz]
    show (MDT.squareRoot a >>= fun r => checked _ r) = _
    rw [e]; rfl
  · intro a b
    exact ⟨_, rfl, le_iff⟩

/-- The hypothesis holds for `I16F16` and `I32F32`. -/
example : CheckedArithmetic 16 (FixedPoint.debugOps 16) ∧ CheckedArithmetic 32 (FixedPoint.debugOps 32) :=
  ⟨C93_operations (by norm_num), C93_operations (by norm_num)⟩

/-! ## Programs that run have not overflowed -/

namespace Chk
open Limit Mode

variable {f n : Nat}

theorem fresh_checked {z : Int} {r t : FixedPoint f} (h : FixedPoint.checked z r = .ok t) : InRange f z ∧ t = r := by
  unfold FixedPoint.checked at h
  split at h
  · cases h; exact ⟨‹_›, rfl⟩
  · cases h

/-- Where no operation panics the marks stay clean. -/
theorem watched_sim (f : Nat) :
    OpsSim succeeds (fun _ => Ops.total (Watched f) 0) (FixedPoint.debugOps f) (fun a x => a () = Watched.fresh x) where
  zero := rfl
  one := rfl
  sumStart := rfl
  add {a b x y} ha hb := by
    refine succeeds_sim fun t ht => ⟨_, rfl, ?_⟩
    obtain ⟨h, rfl⟩ := fresh_checked ht
    show a () + b () = _
    rw [ha, hb]
    exact congrArg (fun d => Watched.mk _ (true && true && d)) (decide_eq_true h)
  sub {a b x y} ha hb := by
    refine succeeds_sim fun t ht => ⟨_, rfl, ?_⟩
    obtain ⟨h, rfl⟩ := fresh_checked ht
    show a () - b () = _
    rw [ha, hb]
    exact congrArg (fun d => Watched.mk _ (true && true && d)) (decide_eq_true h)
  mul {a b x y} ha hb := by
    refine succeeds_sim fun t ht => ⟨_, rfl, ?_⟩
    obtain ⟨h, rfl⟩ := fresh_checked ht
    show a () * b () = _
    rw [ha, hb]
    exact congrArg (fun d => Watched.mk _ (true && true && d)) (decide_eq_true h)
  neg {a x} ha := by
    refine succeeds_sim fun t ht => ⟨_, rfl, ?_⟩
    obtain ⟨h, rfl⟩ := fresh_checked ht
    show -a () = _
    rw [ha]
    exact congrArg (fun d => Watched.mk _ (true && d)) (decide_eq_true h)
  recip {a x} ha := by
    refine succeeds_sim fun t ht => ?_
    have ht' : (MDT.recip x >>= fun r => FixedPoint.checked (Int.tdiv (2 ^ (2 * f)) x.bits.toInt) r) = .ok t := ht
    obtain ⟨r, h1, h2⟩ := bind_ok ht'
    obtain ⟨h, rfl⟩ := fresh_checked h2
    refine ⟨.fresh t, ?_, rfl⟩
    show MDT.recip (a ()) = _
    rw [ha]
    show (MDT.recip x).map _ = _
    rw [h1]
    exact congrArg (fun d => Except.ok (Watched.mk _ (true && d))) (decide_eq_true h)
  squareRoot {a x} ha := by
    refine succeeds_sim fun t ht => ?_
    have ht' : (MDT.squareRoot x >>= fun r => FixedPoint.checked (Nat.sqrt (x.bits.toInt.toNat * 2 ^ f)) r) = .ok t := ht
    obtain ⟨r, h1, h2⟩ := bind_ok ht'
    obtain ⟨h, rfl⟩ := fresh_checked h2
    refine ⟨.fresh t, ?_, rfl⟩
    show MDT.squareRoot (a ()) = _
    rw [ha]
    show (MDT.squareRoot x).map _ = _
    rw [h1]
    exact congrArg (fun d => Except.ok (Watched.mk _ (true && d))) (decide_eq_true h)
  le {a b x y} ha hb := by
    refine succeeds_sim fun t ht => ⟨t, ?_, rfl⟩
    have ht' : Except.ok (MDT.le x y) = (Except.ok t : Res Bool) := ht
    show Except.ok (MDT.le (a ()).num (b ()).num) = _
    rw [ha, hb]
    exact ht'

variable {T T' : Type}

theorem map_list (g : T → T') (l : List T) : ListTends (ι := Unit) (fun a x => a () = g x) (fun _ => l.map g) l :=
  ⟨fun _ => by simp, fun i x h => ⟨fun _ => g x, fun _ => by rw [List.getElem?_map, h]; rfl, rfl⟩⟩

theorem list_map {α β : Type} {r : (Unit → α) → β → Prop} {g : β → α} (hr : ∀ a b, r a b → a () = g b) {s : Unit → List α} {t : List β}
    (h : ListTends r s t) : s () = t.map g := by
  refine List.ext_getElem? fun i => ?_
  rw [List.getElem?_map]
  cases hi : t[i]? with
  | none => exact none_of_tends h hi ()
  | some y =>
    obtain ⟨f, h1, h2⟩ := h.2 i y hi
    rw [h1, hr _ _ h2]; rfl

variable {g : T → T'}

theorem mat_map {R C : Nat} {a : Unit → Mat R C T'} {b : Mat R C T} (h : MatTends (fun a x => a () = g x) a b) : a () = b.mapCells g := by
  have := list_map (fun _ _ h => h) h
  cases ha : a () with
  | mk d => rw [ha] at this; exact congrArg Mat.mk this

theorem kalman_map {f : Unit → RegularKalman n T'} {k : RegularKalman n T} (h : FullK (fun a x => a () = g x) f k) :
    f () = k.mapCells g := by
  obtain ⟨h1, h2, h3, h4, h5, h6⟩ := h
  have k1 := mat_map h1; have k2 := mat_map h2; have k3 := mat_map h3; have k4 := mat_map h4; have k5 := mat_map h5
  have k6 := mat_map h6
  cases hf : f () with
  | mk => simp only [hf] at k1 k2 k3 k4 k5 k6; subst k1 k2 k3 k4 k5 k6; rfl

theorem obs_map {m : Nat} {f : Unit → RegularObservation n m T'} {k : RegularObservation n m T} (h : FullO (fun a x => a () = g x) f k) :
    f () = k.mapCells g := by
  obtain ⟨h1, h2, h3, h4, h5, h6, h7, h8, h9, h10⟩ := h
  have k1 := mat_map h1; have k2 := mat_map h2; have k3 := mat_map h3; have k4 := mat_map h4; have k5 := mat_map h5
  have k6 := mat_map h6; have k7 := mat_map h7; have k8 := mat_map h8; have k9 := mat_map h9; have k10 := mat_map h10
  cases hf : f () with
  | mk => simp only [hf] at k1 k2 k3 k4 k5 k6 k7 k8 k9 k10; subst k1 k2 k3 k4 k5 k6 k7 k8 k9 k10; rfl

theorem ctl_map {l : Nat} {f : Unit → Control n l T'} {k : Control n l T} (h : FullC (fun a x => a () = g x) f k) :
    f () = k.mapCells g := by
  obtain ⟨h1, h2, h3, h4⟩ := h
  have k1 := mat_map h1; have k2 := mat_map h2; have k3 := mat_map h3; have k4 := mat_map h4
  cases hf : f () with
  | mk => simp only [hf] at k1 k2 k3 k4; subst k1 k2 k3 k4; rfl

theorem world_map {w : Unit → World n T'} {v : World n T} (h : FullW (fun a x => a () = g x) w v) : w () = v.mapCells g := by
  obtain ⟨h1, h2, h3⟩ := h
  have k1 := kalman_map h1
  have k2 := list_map (g := fun c : (Σ l, Control n l T) => ⟨c.1, c.2.mapCells g⟩)
    (fun a b h => by cases h with | mk h => exact congrArg (Sigma.mk _) (ctl_map h)) h2
  have k3 := list_map (g := fun c : (Σ m, RegularObservation n m T) => ⟨c.1, c.2.mapCells g⟩)
    (fun a b h => by cases h with | mk h => exact congrArg (Sigma.mk _) (obs_map h)) h3
  cases hf : w () with
  | mk => simp only [hf] at k1 k2 k3; subst k1 k2 k3; rfl

theorem map_kalman (f : RegularKalman n T) : FullK (ι := Unit) (fun a x => a () = g x) (fun _ => f.mapCells g) f :=
  ⟨map_list _ _, map_list _ _, map_list _ _, map_list _ _, map_list _ _, map_list _ _⟩

theorem map_obs {m : Nat} (f : RegularObservation n m T) : FullO (ι := Unit) (fun a x => a () = g x) (fun _ => f.mapCells g) f :=
  ⟨map_list _ _, map_list _ _, map_list _ _, map_list _ _, map_list _ _, map_list _ _, map_list _ _, map_list _ _, map_list _ _,
    map_list _ _⟩

theorem map_ctl {l : Nat} (f : Control n l T) : FullC (ι := Unit) (fun a x => a () = g x) (fun _ => f.mapCells g) f :=
  ⟨map_list _ _, map_list _ _, map_list _ _, map_list _ _⟩

theorem map_world (w : World n T) : FullW (ι := Unit) (fun a x => a () = g x) (fun _ => w.mapCells g) w := by
  refine ⟨map_kalman _, ⟨fun _ => by simp [World.mapCells], fun i x h => ?_⟩, ⟨fun _ => by simp [World.mapCells], fun i x h => ?_⟩⟩
  · exact ⟨fun _ => ⟨x.1, x.2.mapCells g⟩, fun _ => by simp only [World.mapCells, List.getElem?_map, h, Option.map_some], .mk (map_ctl x.2)⟩
  · exact ⟨fun _ => ⟨x.1, x.2.mapCells g⟩, fun _ => by simp only [World.mapCells, List.getElem?_map, h, Option.map_some], .mk (map_obs x.2)⟩

theorem map_op (op : Op T) : Op.Tends (ι := Unit) (fun a x => a () = g x) (fun _ => op.mapCells g) op := by
  cases op with
  | predict => exact .predict
  | predictTuned a => exact .predictTuned rfl
  | control i => exact .control i
  | correct i => exact .correct i
  | setX v => exact .setX (map_list _ v)
  | setA v => exact .setA (map_list _ v)
  | setP v => exact .setP (map_list _ v)
  | setQ v => exact .setQ (map_list _ v)
  | setU i v => exact .setU i (map_list _ v)
  | setB i v => exact .setB i (map_list _ v)
  | setQc i v => exact .setQc i (map_list _ v)
  | setZ i v => exact .setZ i (map_list _ v)
  | setH i v => exact .setH i (map_list _ v)
  | setR i v => exact .setR i (map_list _ v)

end Chk

variable {f n : Nat}

/-- C93: if a program runs to the end in a build with overflow checks then no operation has left the range of the type: the same
program on numbers that remember overflows (all fresh at the start) ends with the same numbers, all still unaffected by overflows. (So
the error bounds of C59, C60 and C74, which ask for this, apply to all such programs, also in builds without the checks.) -/
theorem C93_no_overflow {bld : Build} {w w' : World n (FixedPoint f)} {ops : List (Op (FixedPoint f))}
    (h : Chk.run (FixedPoint.debugOps f) bld w ops = .ok w') :
    (w.mapCells Watched.fresh).run bld (ops.map (Op.mapCells Watched.fresh)) = .ok (w'.mapCells Watched.fresh) := by
  obtain ⟨s, h1, h2⟩ := (Chk.run_sim (Chk.watched_sim f) bld (Chk.map_world w)
    (ops := fun _ => ops.map (Op.mapCells Watched.fresh)) (ops' := ops)
    ⟨fun _ => by simp, fun i x hx => ⟨fun _ => x.mapCells Watched.fresh, fun _ => by rw [List.getElem?_map, hx]; rfl, Chk.map_op x⟩⟩).1 w' h
  rw [Chk.world_map h2] at h1
  rw [← C93_without_checks (s := 0) (fun _ => rfl)]
  exact h1

open Ex in
/-- A program that meets the hypothesis. -/
example : ∃ w', Chk.run (FixedPoint.debugOps 16) ⟨true, false⟩ (swappedWorld num16) [.correct 0] = .ok w' := by
  obtain ⟨w', h, -⟩ := Watched.map_ok C93_unused_product_panics.2.2.2.2.2
  exact ⟨w', h⟩

end Minikalman
