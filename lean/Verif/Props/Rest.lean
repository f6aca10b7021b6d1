import Verif.Model.Simple
import Verif.Model.FixedPoint
import Verif.Proofs.Rest
import Verif.Proofs.LimitExtended
import Verif.Props.ExtendedHistory
import Verif.Props.Float
import Verif.Model.Car
import Verif.Proofs.CertificateFloat

/-!
# Property C96: a filter at rest stays at rest

If state, inputs and measurements are zero then the state stays zero, whatever matrices, covariances, tuning factors and results of
decompositions are: in exact arithmetic, in fixed point arithmetic with all its overflows (exactly), and in floating point arithmetic,
where an entry of the state can become NaN but no other number than zero.
-/

namespace Minikalman

variable {T σ : Type} {n : Nat}

section
variable [Zero T] [One T] [Add T] [Sub T] [Mul T] [Neg T] [MDT T] {Z : T → Prop}

/-- C96 in any arithmetic with absorbing zeros. -/
theorem C96_at_rest (hZ : Absorbing Z) (bld : Build) {w w' : World n T} (hw : w.Valid) (hr : w.AtRest Z) {ops : List (Op T)}
    (hops : ∀ op ∈ ops, op.WellFormed w) (ho : ∀ op ∈ ops, op.KeepsRest Z) (h : w.run bld ops = .ok w') : w'.AtRest Z :=
  run_rest hZ bld hw hr hops ho h

/-- C96 for the extended filter, if zero is a fixed point of the transition functions and is observed as zero. -/
theorem C96_extended_at_rest (hZ : Absorbing Z) (bld : Build) {w w' : XWorld n T σ} (hw : w.Valid) (hr : w.AtRest Z)
    {ops : List (XOp n T σ)} (hops : ∀ op ∈ ops, op.WellFormed w) (hl : ∀ op ∈ ops, op.KeepsLength)
    (ho : ∀ op ∈ ops, op.KeepsRest Z) (h : w.run bld ops = .ok w') : w'.AtRest Z :=
  xrun_rest hZ bld hw hr hops hl ho h

end

/-- Zero in a ring. -/
theorem absorbing_ring [Ring T] : Absorbing (T := T) (fun a => a = 0) where
  zero := rfl
  add ha hb := by rw [ha, hb, add_zero]
  sub ha hb := by rw [ha, hb, sub_zero]
  left b ha := by rw [ha, zero_mul]
  right a _ hb := by rw [hb, mul_zero]

/-- Zero in fixed point arithmetic, with wrapping overflow. -/
theorem absorbing_fixed (f : Nat) : Absorbing (T := FixedPoint f) (fun a => a = 0) where
  zero := rfl
  add ha hb := by rw [ha, hb]; exact congrArg FixedPoint.mk (BitVec.add_zero _)
  sub ha hb := by rw [ha, hb]; exact congrArg FixedPoint.mk (BitVec.sub_zero _)
  left b ha := by
    rw [ha]
    show FixedPoint.mk (BitVec.ofInt _ ((0 : BitVec (2 * f)).toInt * b.bits.toInt / 2 ^ f)) = ⟨0⟩
    rw [show (0 : BitVec (2 * f)).toInt = 0 from BitVec.toInt_zero, Int.zero_mul, Int.zero_ediv]
    rfl
  right a b hb := by
    rw [hb]
    show FixedPoint.mk (BitVec.ofInt _ (a.bits.toInt * (0 : BitVec (2 * f)).toInt / 2 ^ f)) = ⟨0⟩
    rw [show (0 : BitVec (2 * f)).toInt = 0 from BitVec.toInt_zero, Int.mul_zero, Int.zero_ediv]
    rfl

theorem Bin.round_nothing {fmt : Format} (s : Bool) {d : Nat} (hd : 0 < d) : (Bin.round s 0 d : Bin fmt).ZeroOrNan := by
  unfold Bin.round Bin.settle
  have hc : compare (2 * 0) ((2 * (0 / d / 2 ^ fmt.gap (0 / d)) + 1) * 2 ^ fmt.gap (0 / d) * d) = .lt := by
    rw [Nat.compare_eq_lt]
    simp only [Nat.zero_div, Nat.mul_zero]
    positivity
  dsimp only
  rw [hc]
  have hk : 0 / d / 2 ^ fmt.gap (0 / d) * 2 ^ fmt.gap (0 / d) = 0 := by simp
  dsimp only
  split
  · exact Or.inr ⟨s, by rw [← hk]; assumption, by congr 1⟩
  · rename_i h
    rw [hk] at h
    exact absurd fmt.rep_zero h

/-- Zeros in floating point arithmetic. -/
theorem absorbing_float (fmt : Format) : Absorbing (T := Bin fmt) Bin.ZeroOrNan where
  zero := Or.inr ⟨false, _, rfl⟩
  add {a b} ha hb := by
    rcases ha with rfl | ⟨s, h, rfl⟩
    · exact Or.inl rfl
    rcases hb with rfl | ⟨t, h', rfl⟩
    · exact Or.inl rfl
    · refine Or.inr ⟨s && t, fmt.rep_zero, ?_⟩
      show Bin.add _ _ = _
      unfold Bin.add
      cases s <;> cases t <;> rfl
  sub {a b} ha hb := by
    rcases ha with rfl | ⟨s, h, rfl⟩
    · exact Or.inl rfl
    rcases hb with rfl | ⟨t, h', rfl⟩
    · exact Or.inl rfl
    · refine Or.inr ⟨s && !t, fmt.rep_zero, ?_⟩
      show Bin.add _ (.fin (!t) 0 h') = _
      unfold Bin.add
      cases s <;> cases t <;> rfl
  left {a} b ha := by
    rcases ha with rfl | ⟨s, h, rfl⟩
    · exact Or.inl rfl
    cases b with
    | nan => exact Or.inl rfl
    | inf t => exact Or.inl rfl
    | fin t l h' =>
      show (Bin.mul _ _).ZeroOrNan
      unfold Bin.mul
      dsimp only
      rw [Nat.zero_mul]
      exact Bin.round_nothing _ (Nat.two_pow_pos _)
  right a b hb := by
    rcases hb with rfl | ⟨s, h, rfl⟩
    · cases a <;> exact Or.inl rfl
    cases a with
    | nan => exact Or.inl rfl
    | inf t => exact Or.inl rfl
    | fin t l h' =>
      show (Bin.mul _ _).ZeroOrNan
      unfold Bin.mul
      dsimp only
      rw [Nat.mul_zero]
      exact Bin.round_nothing _ (Nat.two_pow_pos _)

/-- C96 in fixed point arithmetic: the state is exactly zero at the end of every program with zero inputs and measurements, whatever
has overflowed on the way. -/
theorem C96_fixed_point {f : Nat} (bld : Build) {w w' : World n (FixedPoint f)} (hw : w.Valid) (hr : w.AtRest fun a => a = 0)
    {ops : List (Op (FixedPoint f))} (hops : ∀ op ∈ ops, op.WellFormed w) (ho : ∀ op ∈ ops, op.KeepsRest fun a => a = 0)
    (h : w.run bld ops = .ok w') : w'.kf.x.RepsV 0 := by
  obtain ⟨v, h1, h2⟩ := (run_rest (absorbing_fixed f) bld hw hr hops ho h).x
  obtain rfl : v = 0 := funext h2
  exact h1

/-- C96 in floating point arithmetic: at the end of every program with zero inputs and measurements an entry of the state is zero, or
it is NaN; it is never an infinity or another number. There is no panic. -/
theorem C96_floating_point {fmt : Format} (bld : Build) {w : World n (Bin fmt)} (hw : w.Valid) (hr : w.AtRest Bin.ZeroOrNan)
    {ops : List (Op (Bin fmt))} (hops : ∀ op ∈ ops, op.WellFormed w) (ho : ∀ op ∈ ops, op.KeepsRest Bin.ZeroOrNan) :
    ∃ w' x, w.run bld ops = .ok w' ∧ w'.kf.x.RepsV x ∧ ∀ i, x i = .nan ∨ (x i).Finite ∧ (x i).val = 0 := by
  obtain ⟨w', h, -⟩ := C40_history_never_panics bld hw hops
  obtain ⟨v, h1, h2⟩ := (run_rest (absorbing_float fmt) bld hw hr hops ho h).x
  refine ⟨w', v, h, h1, fun i => ?_⟩
  rcases h2 i with h | ⟨s, k, h⟩
  · exact Or.inl h
  · rw [h]
    exact Or.inr ⟨trivial, by simp [Bin.val]⟩

/-! ## Examples -/

theorem ok_of_isOk {α : Type} {r : Res α} (h : r.isOk = true) : ∃ a, r = .ok a := by
  cases r with
  | error e => cases h
  | ok a => exact ⟨a, rfl⟩

namespace Ex

/-- A fixed point program at rest whose numbers are so large that covariances and innovation covariances overflow. -/
def restWorld : World 1 (FixedPoint 16) :=
  ⟨⟨⟨[0]⟩, ⟨[⟨0x012c0000#32⟩]⟩, ⟨[⟨0x00030000#32⟩]⟩, ⟨[⟨0x00123456#32⟩]⟩, ⟨[1]⟩, ⟨[1]⟩⟩, [],
    [⟨1, { H := ⟨[⟨0x00010000#32⟩]⟩, z := ⟨[0]⟩, R := ⟨[⟨0x00020000#32⟩]⟩, y := ⟨[1]⟩, S := ⟨[1]⟩, K := ⟨[1]⟩, tempSInv := ⟨[1]⟩,
            tempHP := ⟨[1]⟩, tempPHt := ⟨[1]⟩, tempKHP := ⟨[1]⟩ }⟩]⟩

theorem restWorld_valid : restWorld.Valid := by
  refine ⟨by decide, ⟨by decide, by decide, by decide, by decide, by decide, by decide⟩, fun c hc => (List.not_mem_nil hc).elim,
    fun o ho => ?_⟩
  obtain rfl := List.mem_singleton.1 ho
  exact ⟨by decide, by decide, by decide, by decide, by decide, by decide, by decide, by decide, by decide, by decide, by decide⟩

theorem restWorld_rest : restWorld.AtRest fun a => a = 0 := by
  refine ⟨⟨fun _ => 0, fun i => ?_, fun _ => rfl⟩, fun c hc => (List.not_mem_nil hc).elim, fun o ho a ha => ?_⟩
  · fin_cases i; rfl
  · obtain rfl := List.mem_singleton.1 ho
    exact List.mem_singleton.1 ha

/-- A closure for a nonlinear function that maps zero to zero, in all components. -/
def square {k : Nat} (st : Unit) (x : Mat 1 1 (FixedPoint 16)) (out : Mat k 1 (FixedPoint 16)) :
    Res (Unit × Mat k 1 (FixedPoint 16)) := do
  let a ← x.index 0
  pure (st, ⟨out.data.map fun _ => a * a + a⟩)

theorem square_length {k : Nat} : KeepsLength (square (k := k)) := by
  intro st x out st' out' h
  obtain ⟨a, _, h⟩ := bind_ok h
  cases h
  simp

theorem square_rest {k : Nat} (st : Unit) (x : Mat 1 1 (FixedPoint 16)) (out : Mat k 1 (FixedPoint 16)) (st' : Unit)
    (out' : Mat k 1 (FixedPoint 16)) (hv : out.Valid) (h : square st x out = .ok (st', out')) (hx : x.RestV fun a => a = 0) :
    out'.RestV fun a => a = 0 := by
  obtain ⟨a, h1, h⟩ := bind_ok h
  cases h
  obtain ⟨v, h2, h3⟩ := hx
  have h4 : x.index 0 = .ok (v 0) := rd_eq (h2 0)
  rw [h4] at h1
  cases h1
  refine ⟨fun _ => 0, fun i => ?_, fun _ => rfl⟩
  have hl : (i : Nat) < out.data.length := Nat.lt_of_lt_of_le (by simp) hv
  rw [h3 0]
  show (out.data.map _)[(i : Nat)]? = _
  rw [List.getElem?_map, List.getElem?_eq_getElem hl]
  rfl

/-- A history of an extended filter with that function. -/
def restOps : List (XOp 1 (FixedPoint 16) Unit) :=
  [.predict square, .assign (.P [⟨0x00050000#32⟩]), .correct 0 (fun _ => square), .predictTuned ⟨0x00021234#32⟩ square,
    .predict square]

end Ex

/-- Example of C96 in fixed point arithmetic: the program runs to the end, and its covariance does overflow. -/
example : ∃ w', Ex.restWorld.run ⟨false, true⟩ [.predict, .correct 0, .predictTuned ⟨0x00021234#32⟩, .predict] = .ok w' ∧
    w'.kf.x.RepsV 0 := by
  have ht : ∃ w', Ex.restWorld.run ⟨false, true⟩ [.predict, .correct 0, .predictTuned ⟨0x00021234#32⟩, .predict] = .ok w' :=
    ok_of_isOk (by decide +kernel)
  obtain ⟨w', h⟩ := ht
  refine ⟨w', h, C96_fixed_point _ Ex.restWorld_valid Ex.restWorld_rest ?_ ?_ h⟩
  · simp only [List.mem_cons, List.not_mem_nil, or_false, forall_eq_or_imp, forall_eq]
    exact ⟨trivial, Nat.zero_lt_one, trivial, trivial⟩
  · simp only [List.mem_cons, List.not_mem_nil, or_false, forall_eq_or_imp, forall_eq]
    exact ⟨trivial, trivial, trivial, trivial⟩

/-- Example of C96 for the extended filter. -/
example : ∃ w', (Ex.restWorld.asExtended ()).run ⟨false, true⟩ Ex.restOps = .ok w' ∧ w'.AtRest fun a => a = 0 := by
  have ht : ∃ w', (Ex.restWorld.asExtended ()).run ⟨false, true⟩ Ex.restOps = .ok w' :=
    ok_of_isOk (by decide +kernel)
  obtain ⟨w', h⟩ := ht
  refine ⟨w', h, C96_extended_at_rest (absorbing_fixed 16) _ (Limit.asExtended_valid Ex.restWorld_valid ()) ⟨Ex.restWorld_rest.x, ?_⟩ ?_ ?_ ?_ h⟩
  · exact fun o ho => by
      obtain rfl := List.mem_singleton.1 ho
      exact fun a ha => List.mem_singleton.1 ha
  · simp only [Ex.restOps, List.mem_cons, List.not_mem_nil, or_false, forall_eq_or_imp, forall_eq]
    exact ⟨trivial, rfl, Nat.zero_lt_one, trivial, trivial⟩
  · simp only [Ex.restOps, List.mem_cons, List.not_mem_nil, or_false, forall_eq_or_imp, forall_eq]
    exact ⟨Ex.square_length, trivial, fun _ => Ex.square_length, Ex.square_length, Ex.square_length⟩
  · simp only [Ex.restOps, List.mem_cons, List.not_mem_nil, or_false, forall_eq_or_imp, forall_eq]
    exact ⟨Ex.square_rest, trivial, fun _ => Ex.square_rest, Ex.square_rest, Ex.square_rest⟩

/-! ## The test filter -/

namespace Examples

/-- The filter of the test is set up at rest, in every arithmetic and for every time step. -/
theorem createTestFilter_rest [Zero T] [One T] [Add T] [Sub T] [Mul T] [Neg T] [MDT T] [Inhabited T] {Z : T → Prop}
    (h0 : Z 0) (hd : Z default) (bld : Build) (half tenth third dt : T) :
    ∃ w : World 3 T, createTestFilter bld half tenth third dt = .ok w ∧ w.Valid ∧ w.AtRest Z ∧
      w.ctl.map (·.1) = [1] ∧ w.obs.map (·.1) = [2] := by
  obtain ⟨a, b⟩ := bld
  have : ∃ w : World 3 T, createTestFilter ⟨a, b⟩ half tenth third dt = .ok w ∧
      w = ⟨⟨⟨[0, 0, 0]⟩, ⟨[1, dt, half * dt * dt, 0, 1, dt, 0, 0, 1]⟩, ⟨[tenth, 0, 0, 0, tenth, 0, 0, 0, tenth]⟩,
        ⟨List.replicate 9 default⟩, ⟨List.replicate 3 default⟩, ⟨List.replicate 9 default⟩⟩,
        [⟨1, ⟨⟨[half * dt * dt, dt, 1]⟩, ⟨[0]⟩, ⟨[1]⟩, ⟨List.replicate 3 default⟩⟩⟩],
        [⟨2, { z := ⟨List.replicate 2 default⟩, H := ⟨[1, 0, 0, third, third, third]⟩, R := ⟨[1, 0, 0, 1]⟩,
               y := ⟨List.replicate 2 default⟩, S := ⟨List.replicate 4 default⟩, K := ⟨List.replicate 6 default⟩,
               tempSInv := ⟨List.replicate 4 default⟩, tempHP := ⟨List.replicate 6 default⟩,
               tempPHt := ⟨List.replicate 6 default⟩, tempKHP := ⟨List.replicate 9 default⟩ }⟩]⟩ := by
    cases a <;> cases b <;> exact ⟨_, rfl, rfl⟩
  obtain ⟨w, h1, rfl⟩ := this
  refine ⟨_, h1, ?_, ⟨?_, ?_, ?_⟩, rfl, rfl⟩
  · have hl : ∀ (k : Nat) (a : T), k ≤ (List.replicate k a).length := fun k a => by simp
    refine ⟨by decide, ⟨Nat.le_refl _, Nat.le_refl _, Nat.le_refl _, hl _ _, hl _ _, hl _ _⟩, fun c hc => ?_, fun o ho => ?_⟩
    · obtain rfl := List.mem_singleton.1 hc
      exact ⟨Nat.le_refl _, Nat.le_refl _, Nat.le_refl _, hl _ _⟩
    · obtain rfl := List.mem_singleton.1 ho
      exact ⟨Nat.succ_pos _, Nat.le_refl _, hl _ _, Nat.le_refl _, hl _ _, hl _ _, hl _ _, hl _ _, hl _ _, hl _ _, hl _ _⟩
  · refine ⟨fun _ => 0, fun i => ?_, fun _ => h0⟩
    fin_cases i <;> rfl
  · intro c hc a ha
    obtain rfl := List.mem_singleton.1 hc
    obtain rfl := List.mem_singleton.1 ha
    exact h0
  · intro o ho a ha
    obtain rfl := List.mem_singleton.1 ho
    rw [List.eq_of_mem_replicate ha]
    exact hd

/-- C96 for the filter of `tests/simple.rs`, in single precision, for all time steps and constants: predictions, tuned predictions,
applications of the input and corrections in any order and number never panic and never produce a state with an entry that is neither
zero nor NaN. -/
theorem C96_simple_test (bld : Build) (half tenth third dt : F32) (ops : List (Op F32))
    (ho : ∀ op ∈ ops, op = .predict ∨ (∃ l, op = .predictTuned l) ∨ op = .control 0 ∨ op = .correct 0) :
    ∃ w w' x, createTestFilter bld half tenth third dt = .ok w ∧ w.run bld ops = .ok w' ∧ w'.kf.x.RepsV x ∧
      ∀ i, x i = .nan ∨ (x i).Finite ∧ (x i).val = 0 := by
  obtain ⟨w, h1, h2, h3, h4, h5⟩ := createTestFilter_rest (Z := Bin.ZeroOrNan (fmt := .f32 true)) (absorbing_float _).zero
    (absorbing_float _).zero bld half tenth third dt
  have k1 : ∀ op ∈ ops, op.WellFormed w := by
    intro op hop
    have l1 : 0 < w.ctl.length := by have := congrArg List.length h4; simp at this; omega
    have l2 : 0 < w.obs.length := by have := congrArg List.length h5; simp at this; omega
    rcases ho op hop with rfl | ⟨l, rfl⟩ | rfl | rfl
    all_goals trivial
  have k2 : ∀ op ∈ ops, op.KeepsRest Bin.ZeroOrNan := by
    intro op hop
    rcases ho op hop with rfl | ⟨l, rfl⟩ | rfl | rfl <;> trivial
  obtain ⟨w', x, h⟩ := C96_floating_point bld h2 h3 k1 k2
  exact ⟨w, w', x, h1, h⟩

/-- The assertions of the test about the states, evaluated in single precision: after ten predictions and a correction with zero
measurements all states are zeros (and not NaN); after the input has been applied they are exactly those expected. -/
def simpleStates (ops : List (Op F32)) : Option (List (Option ℚ)) :=
  match createTestFilter ⟨true, false⟩ (.lit 0.5) (.lit 0.1) (.lit (1 / 3)) 1 with
  | .ok w => match w.run ⟨true, false⟩ ops with
    | .ok w' => some (w'.kf.x.data.map Bin.rat)
    | .error _ => none
  | .error _ => none

example : simpleStates (List.replicate 10 .predict) = some [some 0, some 0, some 0] := by decide +kernel

example : simpleStates (List.replicate 10 .predict ++ [.setZ 0 [0, 0], .correct 0]) = some [some 0, some 0, some 0] := by
  decide +kernel

example : simpleStates (List.replicate 10 .predict ++ [.setZ 0 [0, 0], .correct 0, .setU 0 [1], .predict, .control 0]) =
    some [some (1 / 2), some 1, some 1] := by
  decide +kernel

example : simpleStates (List.replicate 10 .predict ++ [.setZ 0 [0, 0], .correct 0, .setU 0 [1], .predict, .control 0, .predict]) =
    some [some 2, some 2, some 1] := by
  decide +kernel

/-- NaN is possible: with an infinite time step the first prediction multiplies zero by infinity. -/
example : (match createTestFilter ⟨true, false⟩ (.lit 0.5) (.lit 0.1) (.lit (1 / 3)) (.inf false : F32) with
    | .ok w => match w.run ⟨true, false⟩ [.predict] with
      | .ok w' => w'.kf.x.data[0]? == some (.nan : F32)
      | .error _ => false
    | .error _ => false) = true := by decide +kernel

end Examples

end Minikalman
