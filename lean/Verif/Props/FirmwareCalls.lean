import Verif.Props.Firmware
import Verif.Proofs.CertificateFloat
import Verif.Props.Float
import Verif.Props.FixedPoint

/-!
# C102: the two firmware programs

What `predict_gravity` of `kalman_float_example.rs` and `kalman_fixed_example.rs` returns at its first, second, third, … call.
-/

set_option Elab.async false
set_option linter.unusedSectionVars false

namespace Minikalman

open Examples Firmware

namespace Firmware

/-- Memory with the given cells of the covariance below the diagonal, and zeros elsewhere. -/
def leftover {T : Type} [Zero T] (p : T × T × T) : Statics T :=
  ⟨{ staticKalman 0 with P := ⟨[0, 0, 0, p.1, 0, 0, p.2.1, p.2.2, 0]⟩ }, staticObservation 0⟩

/-- Whether a call that finds the cells `p` returns `g` and leaves the cells `p'`. -/
def leads {T : Type} [Zero T] [One T] [Add T] [Sub T] [Mul T] [Neg T] [MDT T] [DecidableEq T] (bld : Build) (half tenth six : T)
    (data : List (T × T)) (p : T × T × T) (g : T) (p' : T × T × T) : Bool :=
  match predictGravity bld half tenth six data (leftover p) with
  | .ok (r, s') => decide (r = g) && decide (s'.filter.Q.data = List.replicate 9 0) &&
      decide ((s'.filter.P.data.getD 3 0, s'.filter.P.data.getD 6 0, s'.filter.P.data.getD 7 0) = p')
  | .error _ => false

section Calls
variable {T : Type} [Zero T] [One T] [Add T] [Sub T] [Mul T] [Neg T] [MDT T] [DecidableEq T] {bld : Build} {half tenth six g : T}
  {data : List (T × T)} {p p' : T × T × T} {s : Statics T}

theorem leftover_sized (p : T × T × T) : (leftover p).Sized :=
  ⟨⟨Nat.le_refl _, Nat.le_refl _, Nat.le_refl _, Nat.le_refl _, Nat.le_refl _, Nat.le_refl _⟩,
    ⟨Nat.le_refl _, Nat.le_refl _, Nat.le_refl _, Nat.le_refl _, Nat.le_refl _, Nat.le_refl _, Nat.le_refl _, Nat.le_refl _,
      Nat.le_refl _, Nat.le_refl _⟩, rfl, rfl, rfl, rfl, rfl, rfl, rfl⟩

theorem leads_call (h : leads bld half tenth six data p g p' = true) (hs : s.Sized) (hl : s.SameLeftovers (leftover p)) :
    ∃ s', predictGravity bld half tenth six data s = .ok (g, s') ∧ s'.Sized ∧ s'.SameLeftovers (leftover p') := by
  unfold leads at h
  rcases C102_depends_only_on_leftovers bld half tenth six data hs (leftover_sized p) hl with ⟨e, _, h2⟩ | ⟨r, s', t', h1, h2, h3⟩
  · rw [h2] at h; cases h
  rw [h2] at h
  simp only [Bool.and_eq_true, decide_eq_true_eq] at h
  obtain ⟨⟨rfl, hQ⟩, hP⟩ := h
  have sized : ∀ {a b : Statics T} {r : T}, a.Sized → predictGravity bld half tenth six data a = .ok (r, b) → b.Sized := by
    intro a b r ha hc
    rcases C102_call_keeps bld half tenth six data ha with ⟨e, k1, _⟩ | ⟨g', t, k1, k2, _⟩
    · rw [hc] at k1; cases k1
    · rw [hc] at k1; cases k1; exact k2
  have ht := sized (leftover_sized p) h2
  refine ⟨s', h1, sized hs h1, ?_⟩
  obtain ⟨⟨x, A, ⟨Pd⟩, ⟨Qd⟩, a, b⟩, o⟩ := t'
  obtain ⟨_, _, _, _, _, _, _, _, _, rfl⟩ := list9 ht.P
  subst hP
  exact ⟨h3.Q.trans (congrArg Mat.mk hQ), h3.P10, h3.P20, h3.P21⟩

/-- The results of a call and of all that follow. -/
theorem leads_calls (h : leads bld half tenth six data p g p' = true) {rest : List (List (T × T))} {gs : List T}
    (hr : ∀ s' : Statics T, s'.Sized → s'.SameLeftovers (leftover p') → calls bld half tenth six rest s' = .ok gs) (hs : s.Sized)
    (hl : s.SameLeftovers (leftover p)) : calls bld half tenth six (data :: rest) s = .ok (g :: gs) := by
  obtain ⟨s', h1, h2, h3⟩ := leads_call h hs hl
  simp only [calls, h1, res_bind_ok, hr s' h2 h3]
  rfl

/-- Calls that leave what they find return the same, however often. -/
theorem leads_forever (h : leads bld half tenth six data p g p = true) (k : Nat) (hs : s.Sized) (hl : s.SameLeftovers (leftover p)) :
    calls bld half tenth six (List.replicate k data) s = .ok (List.replicate k g) := by
  induction k generalizing s with
  | zero => rfl
  | succ k ih => exact leads_calls h (fun s' h2 h3 => ih h2 h3) hs hl

end Calls

/-- The measurements of `kalman_float_example.rs`. -/
def floatData : List (F32 × F32) := (realDistance.map .lit).zip (observationError.map .lit)

/-- The measurements of `kalman_fixed_example.rs`. -/
def fixedData : List (I16F16 × I16F16) := (realDistance.map .fromNum).zip (observationError.map .fromNum)

/-- The first five calls of the floating point program, one at a time. -/
theorem float_call1 : leads ⟨true, false⟩ (.lit 0.5 : F32) (.lit 0.1) (.lit 6) floatData (0, 0, 0) (.lit (10155251 / 1048576))
    (.lit (6849451 / 134217728), .lit (5474129 / 1073741824), .lit (8536111 / 4294967296)) = true := by decide +kernel

/-- Call number 2. -/
theorem float_call2 : leads ⟨true, false⟩ (.lit 0.5 : F32) (.lit 0.1) (.lit 6) floatData (.lit (6849451 / 134217728), .lit (5474129 / 1073741824), .lit (8536111 / 4294967296)) (.lit (10154585 / 1048576))
    (.lit (13666619 / 268435456), .lit (5457365 / 1073741824), .lit (8493855 / 4294967296)) = true := by decide +kernel

/-- Call number 3. -/
theorem float_call3 : leads ⟨true, false⟩ (.lit 0.5 : F32) (.lit 0.1) (.lit 6) floatData (.lit (13666619 / 268435456), .lit (5457365 / 1073741824), .lit (8493855 / 4294967296)) (.lit (10154590 / 1048576))
    (.lit (1708337 / 33554432), .lit (5457405 / 1073741824), .lit (4246977 / 2147483648)) = true := by decide +kernel

/-- Call number 4. -/
theorem float_call4 : leads ⟨true, false⟩ (.lit 0.5 : F32) (.lit 0.1) (.lit 6) floatData (.lit (1708337 / 33554432), .lit (5457405 / 1073741824), .lit (4246977 / 2147483648)) (.lit (10154587 / 1048576))
    (.lit (13666697 / 268435456), .lit (5457405 / 1073741824), .lit (8493953 / 4294967296)) = true := by decide +kernel

/-- Call number 5. -/
theorem float_call5 : leads ⟨true, false⟩ (.lit 0.5 : F32) (.lit 0.1) (.lit 6) floatData (.lit (13666697 / 268435456), .lit (5457405 / 1073741824), .lit (8493953 / 4294967296)) (.lit (10154587 / 1048576))
    (.lit (13666697 / 268435456), .lit (5457405 / 1073741824), .lit (8493953 / 4294967296)) = true := by decide +kernel

/-- The first call of the fixed point program. -/
theorem fixed_call1 : leads ⟨true, false⟩ (.fromNum (1 / 2) : I16F16) (.fromNum (1 / 10)) (.fromNum 6) fixedData (0, 0, 0) ⟨634819⟩ (⟨3377⟩, ⟨343⟩, ⟨138⟩) = true := by
  decide +kernel

/-- The second call. -/
theorem fixed_call2 : leads ⟨true, false⟩ (.fromNum (1 / 2) : I16F16) (.fromNum (1 / 10)) (.fromNum 6) fixedData (⟨3377⟩, ⟨343⟩, ⟨138⟩) ⟨634774⟩ (⟨3370⟩, ⟨343⟩, ⟨139⟩) = true := by
  decide +kernel

/-- The third call. -/
theorem fixed_call3 : leads ⟨true, false⟩ (.fromNum (1 / 2) : I16F16) (.fromNum (1 / 10)) (.fromNum 6) fixedData (⟨3370⟩, ⟨343⟩, ⟨139⟩) ⟨634774⟩ (⟨3370⟩, ⟨343⟩, ⟨139⟩) = true := by
  decide +kernel

theorem four_more {α : Type} (k : Nat) (a : α) : List.replicate (4 + k) a = a :: a :: a :: a :: List.replicate k a := by
  rw [Nat.add_comm]
  rfl

theorem two_more {α : Type} (k : Nat) (a : α) : List.replicate (2 + k) a = a :: a :: List.replicate k a := by
  rw [Nat.add_comm]
  rfl

theorem boot_leftover {T : Type} [Zero T] : (Statics.boot (T := T)).SameLeftovers (leftover (0, 0, 0)) := ⟨rfl, rfl, rfl, rfl⟩

end Firmware

/-- C102: `kalman_float_example.rs` with the constants written in it, in single precision with all roundings: the second call does
not return what the first returned, nor does the third return what the second returned; from the fourth call on every call, for
ever, returns the same number; no call panics. -/
theorem C102_float_calls (bld : Build) (k : Nat) :
    calls bld (.lit 0.5) (.lit 0.1) (.lit 6) (List.replicate (4 + (k + 1)) floatData) Statics.boot =
      .ok ([.lit (10155251 / 1048576), .lit (10154585 / 1048576), .lit (10154590 / 1048576), .lit (10154587 / 1048576)] ++
        List.replicate (k + 1) (.lit (10154587 / 1048576) : F32)) := by
  rw [calls_build bld ⟨true, false⟩]
  rw [four_more]
  exact leads_calls float_call1 (fun _ => leads_calls float_call2 fun _ => leads_calls float_call3 fun _ => leads_calls float_call4 fun _ =>
    leads_forever float_call5 (k + 1)) (C102_first_call ⟨true, false⟩ (0 : F32) 0 0 []).1 boot_leftover

/-- The four numbers of `C102_float_calls` are exactly what they look like: single precision numbers between 9.684 and 9.685, the first three distinct and the
fourth again different from them. -/
theorem C102_float_results :
    [Bin.lit (10155251 / 1048576), .lit (10154585 / 1048576), .lit (10154590 / 1048576), .lit (10154587 / 1048576)].map
        (Bin.rat (fmt := .f32 true)) =
      [some (10155251 / 1048576), some (10154585 / 1048576), some (10154590 / 1048576), some (10154587 / 1048576)] ∧
    ∀ q ∈ [(10155251 / 1048576 : ℚ), 10154585 / 1048576, 10154590 / 1048576, 10154587 / 1048576], 9.684 < q ∧ q < 9.685 := by
  constructor
  · decide +kernel
  · norm_num

/-- C102: `kalman_fixed_example.rs` with the constants written in it, in 16.16 fixed point arithmetic: the first call returns
634819/65536, every further call, for ever, 634774/65536. -/
theorem C102_fixed_calls (bld : Build) (k : Nat) :
    calls bld (.fromNum (1 / 2)) (.fromNum (1 / 10)) (.fromNum 6) (List.replicate (2 + (k + 1)) fixedData) Statics.boot =
      .ok ([⟨634819⟩, ⟨634774⟩] ++ List.replicate (k + 1) (⟨634774⟩ : I16F16)) := by
  rw [calls_build bld ⟨true, false⟩]
  rw [two_more]
  exact leads_calls fixed_call1 (fun _ => leads_calls fixed_call2 fun _ => leads_forever fixed_call3 (k + 1))
    (C102_first_call ⟨true, false⟩ (0 : I16F16) 0 0 []).1 boot_leftover

end Minikalman
