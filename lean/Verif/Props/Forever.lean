import Verif.Proofs.Forever
import Verif.Proofs.Quiet

/-!
# Property C108: a filter with one state in floating point runs forever
-/

namespace Minikalman

open Matrix

variable {fmt : Format}

/-- C108: a filter with one state, `|A| <= 1` and process noise `q >= 0`, in floating point arithmetic, with any number of sensors that measure the state
directly and are not too precise for the format. Let the measurements be at most `Z`, the initial state at most
`X >= 2 Z` and the initial variance between 0 and `B`. After any sequence of predictions (at most `N` without a correction), corrections by any of the
sensors, new measurements, states, variances and `A` within these bounds, however long it is: nothing has panicked, the state is finite and at most `X`,
and the variance finite, not negative and at most `2 (B + N q)`. So rounding errors do not accumulate beyond these bounds, and no infinity or NaN ever arises. -/
theorem C108_runs_forever (bld : Build) {X Z B : ℝ} {N : Nat} {w : World 1 (Bin fmt)} {x A P Q} (hv : w.Valid) (hf : w.kf.Reps x A P Q)
    (hl : Spec.Lasting fmt X (Q 0 0).val B N) (hZ : 2 * Z ≤ X) (hA : (A 0 0).Finite) (hA1 : |(A 0 0).val| ≤ 1) (hQ : (Q 0 0).Finite)
    (hx : (x 0).Finite) (hxX : |(x 0).val| ≤ X) (hP : (P 0 0).Finite) (hP0 : 0 ≤ (P 0 0).val) (hPB : (P 0 0).val ≤ B)
    (hobs : ∀ s ∈ w.obs, ∃ (o : RegularObservation 1 1 (Bin fmt)) (z : _) (R : _), s = ⟨1, o⟩ ∧ o.Reps (Spec.direct 0) z R ∧
      (z 0).Finite ∧ |(z 0).val| ≤ Z ∧ Spec.Balanced fmt N (Q 0 0).val B (R 0 0).val)
    {ops : List (Op (Bin fmt))} (hops : ∀ op ∈ ops, op.WellFormed w) (hpc : Spec.Paced N 0 ops) (ht : ∀ op ∈ ops, Spec.Tame X Z B op) :
    ∃ w' x' P', w.run bld ops = .ok w' ∧ w'.kf.x.RepsV x' ∧ w'.kf.P.Reps P' ∧ (x' 0).Finite ∧ |(x' 0).val| ≤ X ∧
      (P' 0 0).Finite ∧ 0 ≤ (P' 0 0).val ∧ (P' 0 0).val ≤ 2 * (B + N * (Q 0 0).val) := by
  obtain ⟨w', h1, _, _⟩ := C40_history_never_panics bld hv hops
  obtain ⟨c, k1, _, ⟨⟨x', _, P', _, g1, _, _, _, _, g2, g3, g4, g5, g6⟩, _⟩⟩ := forever_run (rest := []) bld hl hZ (Nat.zero_le _) hv
    ⟨⟨x, A, P, Q, hf, hA, hA1, hQ, rfl, hx, hxX, hP, hP0, by simpa using hPB⟩, hobs⟩ hops (by rwa [List.append_nil]) ht h1
  exact ⟨w', x', P', h1, g1.x, g1.P, g2, g3, g4, g5, g6.trans (hl.bound k1)⟩

/-- C108: the variance is at most `B` after every correction, however many predictions and corrections there were before. -/
theorem C108_after_correction (bld : Build) {X Z B : ℝ} {N : Nat} {w : World 1 (Bin fmt)} {x A P Q} (hv : w.Valid) (hf : w.kf.Reps x A P Q)
    (hl : Spec.Lasting fmt X (Q 0 0).val B N) (hZ : 2 * Z ≤ X) (hA : (A 0 0).Finite) (hA1 : |(A 0 0).val| ≤ 1) (hQ : (Q 0 0).Finite)
    (hx : (x 0).Finite) (hxX : |(x 0).val| ≤ X) (hP : (P 0 0).Finite) (hP0 : 0 ≤ (P 0 0).val) (hPB : (P 0 0).val ≤ B)
    (hobs : ∀ s ∈ w.obs, ∃ (o : RegularObservation 1 1 (Bin fmt)) (z : _) (R : _), s = ⟨1, o⟩ ∧ o.Reps (Spec.direct 0) z R ∧
      (z 0).Finite ∧ |(z 0).val| ≤ Z ∧ Spec.Balanced fmt N (Q 0 0).val B (R 0 0).val)
    {ops : List (Op (Bin fmt))} {i : Nat} (hops : ∀ op ∈ ops, op.WellFormed w) (hi : i < w.obs.length)
    (hpc : Spec.Paced N 0 (ops ++ [.correct i])) (ht : ∀ op ∈ ops, Spec.Tame X Z B op) :
    ∃ w' P', w.run bld (ops ++ [.correct i]) = .ok w' ∧ w'.kf.P.Reps P' ∧ (P' 0 0).Finite ∧ 0 ≤ (P' 0 0).val ∧ (P' 0 0).val ≤ B := by
  obtain ⟨w1, h1, hv1, hs1⟩ := C40_history_never_panics bld hv hops
  obtain ⟨c, k1, k2, k3⟩ := forever_run bld hl hZ (Nat.zero_le _) hv
    ⟨⟨x, A, P, Q, hf, hA, hA1, hQ, rfl, hx, hxX, hP, hP0, by simpa using hPB⟩, hobs⟩ hops hpc ht h1
  have hw1 : ∀ op ∈ [Op.correct (T := Bin fmt) i], op.WellFormed w1 := by
    intro op ho
    obtain rfl := List.mem_singleton.1 ho
    exact Op.WellFormed.congr hs1 (show (Op.correct (T := Bin fmt) i).WellFormed w from hi)
  obtain ⟨w', h2, _, _⟩ := C40_history_never_panics bld hv1 hw1
  obtain ⟨w2, h3, h4⟩ := bind_ok (show (w1.step bld (.correct i) >>= fun v => v.run bld []) = .ok w' from h2)
  cases h4
  obtain ⟨c', j1, _, ⟨⟨x', _, P', _, g1, _, _, _, _, g2, g3, g4, g5, g6⟩, _⟩, j2⟩ := forever_step bld hl hZ k1 k3 (hw1 _ (List.mem_singleton.2 rfl)) k2
    trivial h3
  obtain rfl := j2 i rfl
  refine ⟨w', P', ?_, g1.P, g4, g5, by simpa using g6⟩
  rw [run_after bld h1]
  exact h2

theorem quiet_tame {B : ℝ} {op : Op (Bin fmt)} (h : Spec.TameModel B op) : Spec.Tame 0 0 B op.quiet := by
  have hz : (0 : Bin fmt).Finite ∧ |(0 : Bin fmt).val| ≤ 0 := ⟨trivial, by rw [Bin.zero_val, abs_zero]⟩
  cases op with
  | setX v =>
    intro a ha
    obtain ⟨_, _, rfl⟩ := List.mem_map.1 ha
    exact hz
  | setZ i v =>
    intro a ha
    obtain ⟨_, _, rfl⟩ := List.mem_map.1 ha
    exact hz
  | predict => trivial
  | correct i => trivial
  | setA v => exact h
  | setP v => exact h
  | _ => exact h.elim

/-- C108: the bounds on the variance do not need any bounds on states and measurements. These may be any numbers, infinities and NaN included. -/
theorem C108_any_data (bld : Build) {B : ℝ} {N : Nat} {w : World 1 (Bin fmt)} {x A P Q} (hv : w.Valid) (hf : w.kf.Reps x A P Q)
    (hl : Spec.Lasting fmt 0 (Q 0 0).val B N) (hA : (A 0 0).Finite) (hA1 : |(A 0 0).val| ≤ 1) (hQ : (Q 0 0).Finite)
    (hP : (P 0 0).Finite) (hP0 : 0 ≤ (P 0 0).val) (hPB : (P 0 0).val ≤ B)
    (hobs : ∀ s ∈ w.obs, ∃ (o : RegularObservation 1 1 (Bin fmt)) (z : _) (R : _), s = ⟨1, o⟩ ∧ o.Reps (Spec.direct 0) z R ∧
      Spec.Balanced fmt N (Q 0 0).val B (R 0 0).val)
    {ops : List (Op (Bin fmt))} (hops : ∀ op ∈ ops, op.WellFormed w) (hpc : Spec.Paced N 0 ops) (ht : ∀ op ∈ ops, Spec.TameModel B op) :
    ∃ w' P', w.run bld ops = .ok w' ∧ w'.kf.P.Reps P' ∧
      (P' 0 0).Finite ∧ 0 ≤ (P' 0 0).val ∧ (P' 0 0).val ≤ 2 * (B + N * (Q 0 0).val) := by
  have hops' : ∀ op ∈ ops.map Op.quiet, op.WellFormed w.quiet := by
    intro op ho
    obtain ⟨op, hm, rfl⟩ := List.mem_map.1 ho
    exact quiet_wellFormed (hops op hm)
  have hz : (0 : Bin fmt).Finite ∧ |(0 : Bin fmt).val| ≤ 0 := ⟨trivial, by rw [Bin.zero_val, abs_zero]⟩
  obtain ⟨v, _, P', k1, _, k3, _, _, k6, k7, k8⟩ := C108_runs_forever bld (X := 0) (Z := 0) (w := w.quiet) (x := fun _ => 0) (ops := ops.map Op.quiet)
    (quiet_valid hv) ⟨quiet_repsV hv.kf.x, hf.A, hf.P, hf.Q, hf.predictedX, hf.tempP⟩ hl (by norm_num) hA hA1 hQ hz.1 hz.2 hP hP0 hPB
    (by
      intro s hs
      obtain ⟨s, hm, rfl⟩ := List.mem_map.1 hs
      obtain ⟨o, z, R, rfl, ho, hR⟩ := hobs s hm
      exact ⟨_, fun _ => 0, R, rfl, ⟨ho.H, quiet_repsV ho.z.valid, ho.R, ho.y, ho.S, ho.K, ho.tempSInv, ho.tempHP, ho.tempPHt, ho.tempKHP⟩,
        hz.1, hz.2, hR⟩)
    hops' (quiet_paced hpc)
    (by
      intro op ho
      obtain ⟨op, hm, rfl⟩ := List.mem_map.1 ho
      exact quiet_tame (ht op hm))
  rcases run_cov bld hv (quiet_valid hv) (quiet_covEq w) (quiet_same ops) hops hops' with ⟨e, _, g⟩ | ⟨w', v', g1, g2, g3⟩
  · rw [k1] at g; cases g
  · rw [k1] at g2
    cases g2
    exact ⟨w', P', g1, g3.P.symm.reps k3, k6, k7, k8⟩

/-- C108: the conditions on the format hold for `f32` and `f64`. -/
theorem C108_formats (b : Bool) : (10 ≤ (Format.f32 b).prec ∧ 2 * (Format.f32 b).prec ≤ (Format.f32 b).frac ∧
      2 * (Format.f32 b).frac ≤ (Format.f32 b).top + (Format.f32 b).prec) ∧
    (10 ≤ (Format.f64 b).prec ∧ 2 * (Format.f64 b).prec ≤ (Format.f64 b).frac ∧
      2 * (Format.f64 b).frac ≤ (Format.f64 b).top + (Format.f64 b).prec) := by
  refine ⟨⟨?_, ?_, ?_⟩, ?_, ?_, ?_⟩ <;> simp [Format.f32, Format.f64]

namespace Ex

/-- A random walk with a variance of 7 that grows by `1/8` with each step, sensors with noise variance 1 and `1/8`. -/
def walker : World 1 F32 := ⟨⟨⟨[f32 1 10]⟩, ⟨[1]⟩, ⟨[f32 7 1]⟩, ⟨[f32 1 8]⟩, ⟨[0]⟩, ⟨[0]⟩⟩, [], [⟨1, oneSensor 1 0⟩, ⟨1, oneSensor (f32 1 8) 0⟩]⟩
def walkX : Fin 1 → F32 := fun _ => f32 1 10

/-- One round of the loop. -/
def walkLoop : List (Op F32) := [.predict, .setZ 0 [f32 3 1], .correct 0, .predict, .predict, .setZ 1 [f32 (-7) 3], .correct 1, .correct 0]

/-- Any number of rounds. -/
def walkOps (k : Nat) : List (Op F32) := (List.replicate k walkLoop).flatten

theorem walk_paced (k : Nat) : Spec.Paced 1000 0 (walkOps k) := by
  induction k with
  | zero => exact trivial
  | succ k ih => exact ⟨by norm_num, by norm_num, by norm_num, ih⟩

theorem walk_mem {k : Nat} {op : Op F32} (h : op ∈ walkOps k) : op ∈ walkLoop := by
  obtain ⟨l, h1, h2⟩ := List.mem_flatten.1 h
  rwa [List.eq_of_mem_replicate h1] at h2

theorem walkX_val : |(walkX 0).val| ≤ 100 :=
  (Bin.rat_at_most (a := walkX 0) (q := 13421773 / 134217728) (by decide +kernel) (by norm_num [abs_le])).2

theorem f32_3_val : (f32 3 1).Finite ∧ |(f32 3 1).val| ≤ 50 :=
  Bin.rat_at_most (a := f32 3 1) (q := 3) (by decide +kernel) (by norm_num [abs_le])

theorem f32_7_3_val : (f32 (-7) 3).Finite ∧ |(f32 (-7) 3).val| ≤ 50 :=
  Bin.rat_at_most (a := f32 (-7) 3) (q := -9786709 / 4194304) (by decide +kernel) (by rw [abs_le]; constructor <;> norm_num)

end Ex

open Ex in
/-- The conditions hold, for any number of rounds. -/
example (k : Nat) : ∃ w' x' P', walker.run ⟨false, true⟩ (walkOps k) = .ok w' ∧ w'.kf.x.RepsV x' ∧ w'.kf.P.Reps P' ∧ (x' 0).Finite ∧
    |(x' 0).val| ≤ 100 ∧ (P' 0 0).Finite ∧ 0 ≤ (P' 0 0).val ∧ (P' 0 0).val ≤ 2 * (7 + 1000 * (1 / 8)) := by
  have hlim : (1024 : ℝ) < (Format.f32 true).limit := by
    have := Bin.abs_lt_limit (a := f32 1024 1) (by decide +kernel)
    have h16 := (Bin.rat_val (a := f32 1024 1) (q := 1024) (by decide +kernel)).2
    rw [h16] at this
    norm_num at this
    exact this
  have e1 : (Format.f32 true).prec = 24 := rfl
  have e2 : (Format.f32 true).frac = 149 := rfl
  have hf := (C108_formats true).1
  have hQ : (avgR 0 0).val = 1 / 8 := avgR_val
  have hl : Spec.Lasting (Format.f32 true) 100 (avgR 0 0).val 7 1000 := by
    refine ⟨hf.1, hf.2.1, hf.2.2, ?_, by norm_num, by rw [e1]; norm_num, by linarith, ?_⟩
    · rw [hQ]; norm_num
    · rw [hQ]; norm_num; linarith
  have hz : (0 : F32).Finite ∧ |(0 : F32).val| ≤ 50 := ⟨trivial, by rw [Bin.zero_val]; norm_num⟩
  have h := C108_runs_forever ⟨false, true⟩ (w := walker) (x := walkX) (P := avgP) (A := Matrix.of fun _ _ => 1) (Q := avgR)
    (ops := walkOps k) (X := 100) (Z := 50) (B := 7) (N := 1000)
    ⟨by decide, ⟨by decide +kernel, by decide +kernel, by decide +kernel, by decide +kernel, by decide +kernel, by decide +kernel⟩,
      fun _ h => absurd h List.not_mem_nil, by
      intro o ho
      rcases List.mem_cons.1 ho with rfl | ho
      · exact ⟨by decide, by decide +kernel, by decide +kernel, by decide +kernel, by decide +kernel, by decide +kernel, by decide +kernel,
          by decide +kernel, by decide +kernel, by decide +kernel, by decide +kernel⟩
      · obtain rfl := List.mem_singleton.1 ho
        exact ⟨by decide, by decide +kernel, by decide +kernel, by decide +kernel, by decide +kernel, by decide +kernel, by decide +kernel,
          by decide +kernel, by decide +kernel, by decide +kernel, by decide +kernel⟩⟩
    ⟨by decide +kernel, by decide +kernel, by decide +kernel, by decide +kernel, by decide +kernel, by decide +kernel⟩
    hl (by norm_num) trivial (le_of_eq (by show |(1 : F32).val| = 1; rw [Bin.one_val, abs_one])) (by decide +kernel) (by decide +kernel) (by rw [abs_le]; exact abs_le.1 walkX_val)
    (by decide +kernel) (by rw [avgP_val]; norm_num) (le_of_eq avgP_val) ?_ ?_ (walk_paced k) ?_
  · obtain ⟨w', x', P', k1, k2, k3, k4, k5, k6, k7, k8⟩ := h
    rw [hQ] at k8
    exact ⟨w', x', P', k1, k2, k3, k4, k5, k6, k7, by norm_num at k8 ⊢; exact k8⟩
  · intro s hs
    rw [hQ]
    rcases List.mem_cons.1 hs with rfl | hs
    · refine ⟨_, ![0], Matrix.of fun _ _ => 1, rfl, ⟨by decide +kernel, by decide +kernel, by decide +kernel, by decide +kernel, by decide +kernel,
        by decide +kernel, by decide +kernel, by decide +kernel, by decide +kernel, by decide +kernel⟩, hz.1, hz.2, ?_⟩
      rw [Matrix.of_apply, Bin.one_val]
      refine ⟨by norm_num, by norm_num, by rw [e1]; norm_num, by rw [e1, e2]; norm_num, by linarith, by rw [e2]; norm_num⟩
    · obtain rfl := List.mem_singleton.1 hs
      refine ⟨_, ![0], avgR, rfl, ⟨by decide +kernel, by decide +kernel, by decide +kernel, by decide +kernel, by decide +kernel,
        by decide +kernel, by decide +kernel, by decide +kernel, by decide +kernel, by decide +kernel⟩, hz.1, hz.2, ?_⟩
      rw [avgR_val]
      refine ⟨by norm_num, by norm_num, by rw [e1]; norm_num, by rw [e1, e2]; norm_num, by linarith, by rw [e2]; norm_num⟩
  · intro op ho
    have k0 : ∀ a : F32, (Op.setZ 0 [a]).WellFormed walker := fun _ => rfl
    have k1 : ∀ a : F32, (Op.setZ 1 [a]).WellFormed walker := fun _ => rfl
    have k3 : (Op.correct (T := F32) 0).WellFormed walker := by show 0 < 2; decide
    have k4 : (Op.correct (T := F32) 1).WellFormed walker := by show 1 < 2; decide
    have ho := walk_mem ho
    simp only [walkLoop, List.mem_cons, List.not_mem_nil, or_false] at ho
    rcases ho with rfl | rfl | rfl | rfl | rfl | rfl | rfl | rfl
    exacts [trivial, k0 _, k3, trivial, trivial, k1 _, k4, k3]
  · intro op ho
    have hs : ∀ (a : F32) i, a.Finite ∧ |a.val| ≤ 50 → Spec.Tame 100 50 7 (Op.setZ i [a]) := by
      intro a i h b hb
      obtain rfl := List.mem_singleton.1 hb
      exact h
    have ho := walk_mem ho
    simp only [walkLoop, List.mem_cons, List.not_mem_nil, or_false] at ho
    rcases ho with rfl | rfl | rfl | rfl | rfl | rfl | rfl | rfl
    exacts [trivial, hs _ _ f32_3_val, trivial, trivial, trivial, hs _ _ f32_7_3_val, trivial, trivial]

end Minikalman
