import Verif.Proofs.CheckedOrder
import Verif.Proofs.Extended
import Verif.Spec.Examples
import Verif.Model.Float

/-!
# Property C93: builds with overflow checks

`Chk.run o` runs a program with operators `o` each of which may panic, in the order in which the code performs them.
`Ops.total T s` are the operators of builds without overflow checks, `FixedPoint.debugOps f` those of the fixed point types in
builds with overflow checks.
-/

set_option linter.unusedSectionVars false

namespace Minikalman

variable {T σ : Type} {n : Nat}

/-! ## Without overflow checks the two models are the same -/

section
variable [Zero T] [One T] [Add T] [Sub T] [Mul T] [Neg T] [MDT T]

/-- C93: with operators that do not panic the model with operators that may panic is the model of the other properties. -/
theorem C93_without_checks {s : T} (hs : ∀ l : List T, MDT.isum l = l.foldl (· + ·) s) (bld : Build) (w : World n T)
    (ops : List (Op T)) : Chk.run (.total T s) bld w ops = w.run bld ops := Chk.run_total hs bld w ops

/-- C93: the same for the extended filter. -/
theorem C93_without_checks_extended {s : T} (hs : ∀ l : List T, MDT.isum l = l.foldl (· + ·) s) (bld : Build) (w : XWorld n T σ)
    (ops : List (XOp n T σ)) : Chk.xrun (.total T s) bld w ops = w.run bld ops := Chk.xrun_total hs bld w ops

end

/-- The hypothesis holds for the fixed point types and for floats. -/
example (f : Nat) (fmt : Format) : (∀ l : List (FixedPoint f), MDT.isum l = l.foldl (· + ·) 0) ∧
    ∀ l : List (Bin fmt), MDT.isum l = l.foldl (· + ·) (.fin fmt.sumNeg 0 fmt.rep_zero) := ⟨fun _ => rfl, fun _ => rfl⟩

/-! ## With overflow checks -/

theorem FixedPoint.checked_cases {f : Nat} (z : Int) (r : FixedPoint f) :
    (∃ e, e = Panic.arithmetic ∧ checked z r = .error e) ∨ checked z r = .ok r := by
  unfold checked
  split
  · exact .inr rfl
  · exact .inl ⟨_, rfl, rfl⟩

/-- Each operation of a build with overflow checks panics or does what it does in other builds. -/
theorem FixedPoint.debugOps_sim (f : Nat) :
    OpsSim (Chk.upTo (· = Panic.arithmetic)) (fun _ => FixedPoint.debugOps f) (.total (FixedPoint f) 0) Chk.Same := by
  refine Chk.upTo_ops rfl rfl rfl (fun a b => checked_cases _ _) (fun a b => checked_cases _ _) (fun a b => checked_cases _ _)
    (fun a => checked_cases _ _) (fun a => ?_) (fun a => ?_) fun a b => .inr rfl
  · show (∃ e, e = Panic.arithmetic ∧ (MDT.recip a >>= fun r => checked _ r) = .error e) ∨ (MDT.recip a >>= fun r => checked _ r) = MDT.recip a
    cases h : MDT.recip a with
    | error e => exact .inr rfl
    | ok r => exact checked_cases _ r
  · show (∃ e, e = Panic.arithmetic ∧ (MDT.squareRoot a >>= fun r => checked _ r) = .error e) ∨
      (MDT.squareRoot a >>= fun r => checked _ r) = MDT.squareRoot a
    cases h : MDT.squareRoot a with
    | error e => exact .inr rfl
    | ok r => exact checked_cases _ r

/-- C93: for all fixed point programs, all buffers and all sequences of calls: a build with overflow checks does exactly what a build
without them does, or it panics with an arithmetic overflow. -/
theorem C93_with_checks {f : Nat} (bld : Build) (w : World n (FixedPoint f)) (ops : List (Op (FixedPoint f))) :
    Chk.run (FixedPoint.debugOps f) bld w ops = w.run bld ops ∨ Chk.run (FixedPoint.debugOps f) bld w ops = .error .arithmetic := by
  rcases Chk.run_upTo (FixedPoint.debugOps_sim f) bld w ops with ⟨e, rfl, h⟩ | h
  · exact .inr h
  · exact .inl (h.trans (C93_without_checks (fun _ => rfl) bld w ops))

/-- C93: the same for the extended filter and all closures. (Closures are the user's code: they do in both builds whatever they do.) -/
theorem C93_with_checks_extended {f : Nat} (bld : Build) (w : XWorld n (FixedPoint f) σ) (ops : List (XOp n (FixedPoint f) σ)) :
    Chk.xrun (FixedPoint.debugOps f) bld w ops = w.run bld ops ∨
      Chk.xrun (FixedPoint.debugOps f) bld w ops = .error .arithmetic := by
  rcases Chk.xrun_upTo (FixedPoint.debugOps_sim f) bld w ops with ⟨e, rfl, h⟩ | h
  · exact .inr h
  · exact .inl (h.trans (C93_without_checks_extended (fun _ => rfl) bld w ops))

/-- C93: a program that runs in a build with overflow checks gives the same results in a build without. -/
theorem C93_results_agree {f : Nat} {bld : Build} {w w' : World n (FixedPoint f)} {ops : List (Op (FixedPoint f))}
    (h : Chk.run (FixedPoint.debugOps f) bld w ops = .ok w') : w.run bld ops = .ok w' := by
  rcases C93_with_checks bld w ops with h' | h'
  · rw [← h', h]
  · rw [h] at h'; cases h'

/-- C93: the same for the extended filter. -/
theorem C93_results_agree_extended {f : Nat} {bld : Build} {w w' : XWorld n (FixedPoint f) σ} {ops : List (XOp n (FixedPoint f) σ)}
    (h : Chk.xrun (FixedPoint.debugOps f) bld w ops = .ok w') : w.run bld ops = .ok w' := by
  rcases C93_with_checks_extended bld w ops with h' | h'
  · rw [← h', h]
  · rw [h] at h'; cases h'

theorem FixedPoint.scalarPanic {f : Nat} {e : Panic} (h : ScalarPanic (FixedPoint f) e) : e = .arithmetic := by
  obtain ⟨x, h | h⟩ := h
  · simp only [MDT.recip] at h
    split at h
    · cases h; rfl
    · cases h
  · simp only [MDT.squareRoot] at h
    split at h
    · cases h; rfl
    · cases h

/-- C93: with valid buffers and calls whose data have the right sizes, an arithmetic overflow is the only panic of builds with overflow
checks; after a run without panic the buffers are still valid. -/
theorem C93_only_overflow_panics {f : Nat} (bld : Build) {w : World n (FixedPoint f)} (hw : w.Valid) {ops : List (Op (FixedPoint f))}
    (hops : ∀ op ∈ ops, op.WellFormed w) :
    Chk.run (FixedPoint.debugOps f) bld w ops = .error .arithmetic ∨
      ∃ w', Chk.run (FixedPoint.debugOps f) bld w ops = .ok w' ∧ w'.Valid ∧ w.SameShape w' := by
  rcases C93_with_checks bld w ops with h | h
  · rcases run_safe bld hw hops with ⟨e, h1, h2⟩ | ⟨w', h1, h2⟩
    · rw [h, h1, FixedPoint.scalarPanic h2]; exact .inl rfl
    · exact .inr ⟨w', h.trans h1, h2⟩
  · exact .inl h

/-- C93: a build with overflow checks panics whenever the build without panics. -/
theorem C93_panics_more {f : Nat} {bld : Build} {w : World n (FixedPoint f)} {ops : List (Op (FixedPoint f))} {e : Panic}
    (h : w.run bld ops = .error e) : ∃ e', Chk.run (FixedPoint.debugOps f) bld w ops = .error e' := by
  rcases C93_with_checks bld w ops with h' | h'
  · exact ⟨e, h'.trans h⟩
  · exact ⟨_, h'⟩

/-! ## A panic caused by a product nobody uses -/

namespace Ex

/-- A buffer with the numbers whose bits are given. -/
def bits {T : Type} (mk : Int → T) (R C : Nat) (l : List Int) : Mat R C T := ⟨l.map mk⟩

/-- `z * 2^-16` in `I16F16`. -/
def num16 (z : Int) : I16F16 := ⟨BitVec.ofInt _ z⟩

/-- An observation of two quantities with temporaries that hold zeros. -/
def pair {T : Type} (mk : Int → T) (H z R : List Int) : RegularObservation 2 2 T where
  H := bits mk 2 2 H
  z := bits mk 2 1 z
  R := bits mk 2 2 R
  y := bits mk 2 1 [0, 0]
  S := bits mk 2 2 [0, 0, 0, 0]
  K := bits mk 2 2 [0, 0, 0, 0]
  tempSInv := bits mk 2 2 [0, 0, 0, 0]
  tempHP := bits mk 2 2 [0, 0, 0, 0]
  tempPHt := bits mk 2 2 [0, 0, 0, 0]
  tempKHP := bits mk 2 2 [0, 0, 0, 0]

/-- Two quantities, known with variances `2^-14` and `1`, measured directly with variances `2^-14` and `512`. -/
def unusedWorld {T : Type} (mk : Int → T) : World 2 T where
  kf := { x := bits mk 2 1 [0, 0], A := bits mk 2 2 [65536, 0, 0, 65536], P := bits mk 2 2 [4, 0, 0, 65536],
          Q := bits mk 2 2 [0, 0, 0, 0], predictedX := bits mk 2 1 [0, 0], tempP := bits mk 2 2 [0, 0, 0, 0] }
  ctl := []
  obs := [⟨2, pair mk [65536, 0, 0, 65536] [65536, 131072] [4, 0, 0, 33554432]⟩]

/-- The same with the two measurements in the other order. -/
def swappedWorld {T : Type} (mk : Int → T) : World 2 T where
  kf := (unusedWorld mk).kf
  ctl := []
  obs := [⟨2, pair mk [0, 65536, 65536, 0] [131072, 65536] [33554432, 0, 0, 4]⟩]

theorem unused_valid {T : Type} (mk : Int → T) : (unusedWorld mk).Valid := by
  refine ⟨by decide, ⟨by simp [unusedWorld, bits, Mat.Valid], by simp [unusedWorld, bits, Mat.Valid],
    by simp [unusedWorld, bits, Mat.Valid], by simp [unusedWorld, bits, Mat.Valid], by simp [unusedWorld, bits, Mat.Valid],
    by simp [unusedWorld, bits, Mat.Valid]⟩, by simp [unusedWorld], ?_⟩
  simp only [unusedWorld, List.mem_singleton, forall_eq]
  refine ⟨by decide, ?_⟩
  constructor <;> simp [pair, bits, Mat.Valid]

end Ex

open Ex in
/-- C93, a defect: in `I16F16`, one correction with two measurements of variances `2^-14` and `512` panics in a build with
overflow checks, although no number that is used for the result leaves the range of the type (all marks are clean), the build
without overflow checks computes the right estimate, and so does the build with overflow checks if the same two measurements are
given in the other order. The product that overflows is the one on the diagonal in `cholesky_decompose_lower`
(`matrix/traits.rs:1148`), which is overwritten in line 1156. -/
theorem C93_unused_product_panics :
    (unusedWorld num16).Valid ∧ (∀ op ∈ [Op.correct 0], op.WellFormed (unusedWorld num16)) ∧
    ((unusedWorld num16).run ⟨true, false⟩ [.correct 0]).map (fun w => (w.kf.x.data, w.kf.P.data)) =
      .ok ([num16 32774, num16 254], [num16 2, num16 0, num16 0, num16 65409]) ∧
    ((unusedWorld fun z => Watched.fresh (num16 z)).run ⟨true, false⟩ [.correct 0]).map
      (fun w => (w.kf.x.data ++ w.kf.P.data).all (·.clean)) = .ok true ∧
    Chk.run (FixedPoint.debugOps 16) ⟨true, false⟩ (unusedWorld num16) [.correct 0] = .error .arithmetic ∧
    (Chk.run (FixedPoint.debugOps 16) ⟨true, false⟩ (swappedWorld num16) [.correct 0]).map (fun w => (w.kf.x.data, w.kf.P.data)) =
      .ok ([num16 32774, num16 254], [num16 2, num16 0, num16 0, num16 65409]) := by
  refine ⟨unused_valid _, ?_, by decide +kernel, by decide +kernel, ?_, by decide +kernel⟩
  · simp only [List.mem_singleton, forall_eq]
    show 0 < 1
    decide
  · have h : ∀ r : Res (World 2 I16F16), r.map (fun _ => ()) = .error .arithmetic → r = .error .arithmetic := by
      intro r hr
      cases r with
      | ok _ => cases hr
      | error e => cases hr; rfl
    exact h _ (by decide +kernel)

end Minikalman
