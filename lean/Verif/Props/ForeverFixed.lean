import Verif.Proofs.ForeverDebug
import Verif.Proofs.Quiet
import Verif.Props.Fixed
import Verif.Props.CorrectFixed
import Verif.Props.Checked
import Verif.Props.Variance

/-!
# Property C109: a filter with one state on fixed point numbers runs forever
-/

namespace Minikalman

open Matrix FixedPoint

variable {f : Nat}

/-! ## Watching the numbers of a program -/

theorem fresh_reps {T T' : Type} {R C : Nat} (g : T → T') {m : Mat R C T} {A : Matrix (Fin R) (Fin C) T} (h : m.Reps A) :
    (m.mapCells g).Reps (A.map g) := by
  intro i j
  show (m.data.map g)[_]? = _
  rw [List.getElem?_map, h i j]
  rfl

theorem fresh_repsV {T T' : Type} {n : Nat} (g : T → T') {m : Mat n 1 T} {v : Fin n → T} (h : m.RepsV v) :
    (m.mapCells g).RepsV (fun i => g (v i)) := by
  intro i
  show (m.data.map g)[_]? = _
  rw [List.getElem?_map, h i]
  rfl

theorem fresh_valid {T T' : Type} {R C : Nat} (g : T → T') {m : Mat R C T} (h : m.Valid) : (m.mapCells g).Valid := by
  show _ ≤ (m.data.map g).length
  rw [List.length_map]
  exact h

theorem fresh_world_valid {T T' : Type} {n : Nat} (g : T → T') {w : World n T} (h : w.Valid) : (w.mapCells g).Valid := by
  refine ⟨h.states, ⟨fresh_valid g h.kf.x, fresh_valid g h.kf.A, fresh_valid g h.kf.P, fresh_valid g h.kf.Q, fresh_valid g h.kf.predictedX,
    fresh_valid g h.kf.tempP⟩, ?_, ?_⟩
  · intro c hc
    obtain ⟨c, hm, rfl⟩ := List.mem_map.1 hc
    have := h.ctl c hm
    exact ⟨fresh_valid g this.B, fresh_valid g this.u, fresh_valid g this.Q, fresh_valid g this.tempBQ⟩
  · intro o ho
    obtain ⟨o, hm, rfl⟩ := List.mem_map.1 ho
    obtain ⟨h0, this⟩ := h.obs o hm
    exact ⟨h0, fresh_valid g this.H, fresh_valid g this.z, fresh_valid g this.R, fresh_valid g this.y, fresh_valid g this.S, fresh_valid g this.K,
      fresh_valid g this.tempSInv, fresh_valid g this.tempHP, fresh_valid g this.tempPHt, fresh_valid g this.tempKHP⟩

theorem fresh_wellFormed {T T' : Type} {n : Nat} (g : T → T') {w : World n T} {op : Op T} (h : op.WellFormed w) :
    (op.mapCells g).WellFormed (w.mapCells g) := by
  cases op <;> first | trivial | skip
  all_goals
    simpa [Op.mapCells, Op.WellFormed, World.mapCells, RegularKalman.mapCells, Control.mapCells, RegularObservation.mapCells, Mat.mapCells,
      Function.comp_def] using h

theorem fresh_paced {T T' : Type} (g : T → T') {N c : Nat} {ops : List (Op T)} (h : Spec.Paced N c ops) :
    Spec.Paced N c (ops.map (Op.mapCells g)) := by
  induction ops generalizing c with
  | nil => exact trivial
  | cons op ops ih =>
    cases op with
    | predict => exact ⟨h.1, ih h.2⟩
    | _ => exact ih h

theorem fresh_tame {X Z B : ℝ} {op : Op (FixedPoint f)} (h : Spec.TameFixed X Z B op) : TameWatched X Z B (op.mapCells Watched.fresh) := by
  cases op with
  | predict => trivial
  | correct => trivial
  | setZ i v =>
    intro a ha
    obtain ⟨b, hb, rfl⟩ := List.mem_map.1 ha
    exact ⟨rfl, h b hb⟩
  | setX v =>
    intro a ha
    obtain ⟨b, hb, rfl⟩ := List.mem_map.1 ha
    exact ⟨rfl, h b hb⟩
  | setA v =>
    intro a ha
    obtain ⟨b, hb, rfl⟩ := List.mem_map.1 ha
    exact ⟨rfl, h b hb⟩
  | setP v =>
    intro a ha
    obtain ⟨b, hb, rfl⟩ := List.mem_map.1 ha
    exact ⟨rfl, h b hb⟩
  | _ => exact h.elim

theorem fresh_direct : (Spec.direct (T := FixedPoint f) (0 : Fin 1)).map Watched.fresh = Spec.direct 0 := by
  ext i j
  have : j = 0 := Subsingleton.elim _ _
  subst this
  rfl

theorem fresh_runs {X Z B : ℝ} {N : Nat} {w : World 1 (FixedPoint f)} {x A P Q} (hf : w.kf.Reps x A P Q)
    (hA1 : |(A 0 0).val| ≤ 1) (hxX : |(x 0).val| ≤ X) (hP0 : 0 ≤ (P 0 0).val) (hPB : (P 0 0).val ≤ B)
    (hobs : ∀ s ∈ w.obs, ∃ (o : RegularObservation 1 1 (FixedPoint f)) (z : _) (R : _), s = ⟨1, o⟩ ∧ o.Reps (Spec.direct 0) z R ∧
      |(z 0).val| ≤ Z ∧ Spec.BalancedFixed f N (Q 0 0).val B (R 0 0).val) :
    (w.mapCells Watched.fresh).RunsFixed X Z (Q 0 0).val B N 0 := by
  refine ⟨⟨_, _, _, _, ⟨fresh_repsV _ hf.x, fresh_reps _ hf.A, fresh_reps _ hf.P, fresh_reps _ hf.Q, fresh_valid _ hf.predictedX,
    fresh_valid _ hf.tempP⟩, rfl, hA1, rfl, rfl, rfl, hxX, rfl, hP0, by simpa [Watched.fresh] using hPB⟩, ?_⟩
  intro s hs
  obtain ⟨s, hm, rfl⟩ := List.mem_map.1 hs
  obtain ⟨o, z, R, rfl, ho, hz, hR⟩ := hobs s hm
  exact ⟨_, _, _, rfl, ⟨fresh_direct (f := f) ▸ fresh_reps Watched.fresh ho.H, fresh_repsV _ ho.z, fresh_reps _ ho.R, fresh_valid _ ho.y,
    fresh_valid _ ho.S, fresh_valid _ ho.K, fresh_valid _ ho.tempSInv, fresh_valid _ ho.tempHP, fresh_valid _ ho.tempPHt,
    fresh_valid _ ho.tempKHP⟩, rfl, hz, rfl, hR⟩

theorem unwatch (bld : Build) {n : Nat} {w : World n (FixedPoint f)} {ops : List (Op (FixedPoint f))} {w' : World n (Watched f)}
    (h : (w.mapCells Watched.fresh).run bld (ops.map (Op.mapCells Watched.fresh)) = .ok w') :
    w.run bld ops = .ok (w'.mapCells Watched.num) := by
  rw [← C87_watching_changes_nothing, h]
  rfl

/-! ## The theorems -/

/-- C109: a filter with one state, `|A| <= 1` and process noise `q >= 0`, on a fixed point type with as many integer as fractional bits, with any number of
sensors that measure the state directly and are not too precise for the type (`Spec.BalancedFixed`). Let measurements be at most `Z`, the initial
state at most `X >= Z` and the initial variance between 0 and `B`. After any sequence of predictions (at most `N` without a correction), corrections by any of the
sensors, new measurements, states, variances and `A` within these bounds, however long it is: nothing has panicked, the state is at most `X`
and the variance is not negative and at most `B + N q`. -/
theorem C109_runs_forever (bld : Build) {X Z B : ℝ} {N : Nat} {w : World 1 (FixedPoint f)} {x A P Q} (hv : w.Valid) (hf : w.kf.Reps x A P Q)
    (hl : Spec.LastingFixed f X (Q 0 0).val B N) (hZ : Z ≤ X) (hA1 : |(A 0 0).val| ≤ 1) (hxX : |(x 0).val| ≤ X) (hP0 : 0 ≤ (P 0 0).val)
    (hPB : (P 0 0).val ≤ B)
    (hobs : ∀ s ∈ w.obs, ∃ (o : RegularObservation 1 1 (FixedPoint f)) (z : _) (R : _), s = ⟨1, o⟩ ∧ o.Reps (Spec.direct 0) z R ∧
      |(z 0).val| ≤ Z ∧ Spec.BalancedFixed f N (Q 0 0).val B (R 0 0).val)
    {ops : List (Op (FixedPoint f))} (hops : ∀ op ∈ ops, op.WellFormed w) (hpc : Spec.Paced N 0 ops) (ht : ∀ op ∈ ops, Spec.TameFixed X Z B op) :
    ∃ w' x' P', w.run bld ops = .ok w' ∧ w'.kf.x.RepsV x' ∧ w'.kf.P.Reps P' ∧ |(x' 0).val| ≤ X ∧
      0 ≤ (P' 0 0).val ∧ (P' 0 0).val ≤ B + N * (Q 0 0).val := by
  obtain ⟨w', c, h1, _, _, h4, _, ⟨x', _, P', _, g1, _, _, _, _, _, g3, _, g5, g6⟩, _⟩ := forever_run_fixed (rest := []) bld hl hZ (Nat.zero_le _)
    (fresh_world_valid Watched.fresh hv) (fresh_runs hf hA1 hxX hP0 hPB hobs) (ops := ops.map (Op.mapCells Watched.fresh))
    (by
      intro op ho
      obtain ⟨op, hm, rfl⟩ := List.mem_map.1 ho
      exact fresh_wellFormed _ (hops op hm))
    (by rw [List.append_nil]; exact fresh_paced _ hpc)
    (by
      intro op ho
      obtain ⟨op, hm, rfl⟩ := List.mem_map.1 ho
      exact fresh_tame (ht op hm))
  exact ⟨_, _, _, unwatch bld h1, fresh_repsV Watched.num g1.x, fresh_reps Watched.num g1.P, g3, g5, g6.trans (hl.bound h4)⟩

/-- C109: and no number that went into the state or the variance ever left the range of the type: the same calls on numbers that remember whether they ever
overflowed give the same state and variance, and these have not. -/
theorem C109_no_overflow (bld : Build) {X Z B : ℝ} {N : Nat} {w : World 1 (FixedPoint f)} {x A P Q} (hv : w.Valid) (hf : w.kf.Reps x A P Q)
    (hl : Spec.LastingFixed f X (Q 0 0).val B N) (hZ : Z ≤ X) (hA1 : |(A 0 0).val| ≤ 1) (hxX : |(x 0).val| ≤ X) (hP0 : 0 ≤ (P 0 0).val)
    (hPB : (P 0 0).val ≤ B)
    (hobs : ∀ s ∈ w.obs, ∃ (o : RegularObservation 1 1 (FixedPoint f)) (z : _) (R : _), s = ⟨1, o⟩ ∧ o.Reps (Spec.direct 0) z R ∧
      |(z 0).val| ≤ Z ∧ Spec.BalancedFixed f N (Q 0 0).val B (R 0 0).val)
    {ops : List (Op (FixedPoint f))} (hops : ∀ op ∈ ops, op.WellFormed w) (hpc : Spec.Paced N 0 ops) (ht : ∀ op ∈ ops, Spec.TameFixed X Z B op) :
    ∃ (w' : World 1 (Watched f)) (x' : _) (P' : _), (w.mapCells Watched.fresh).run bld (ops.map (Op.mapCells Watched.fresh)) = .ok w' ∧
      w.run bld ops = .ok (w'.mapCells Watched.num) ∧ w'.kf.x.RepsV x' ∧ w'.kf.P.Reps P' ∧ (x' 0).clean = true ∧ (P' 0 0).clean = true := by
  obtain ⟨w', c, h1, _, _, h4, _, ⟨x', _, P', _, g1, _, _, _, _, g2, _, g4, _, _⟩, _⟩ := forever_run_fixed (rest := []) bld hl hZ (Nat.zero_le _)
    (fresh_world_valid Watched.fresh hv) (fresh_runs hf hA1 hxX hP0 hPB hobs) (ops := ops.map (Op.mapCells Watched.fresh))
    (by
      intro op ho
      obtain ⟨op, hm, rfl⟩ := List.mem_map.1 ho
      exact fresh_wellFormed _ (hops op hm))
    (by rw [List.append_nil]; exact fresh_paced _ hpc)
    (by
      intro op ho
      obtain ⟨op, hm, rfl⟩ := List.mem_map.1 ho
      exact fresh_tame (ht op hm))
  exact ⟨w', x', P', h1, unwatch bld h1, g1.x, g1.P, g2, g4⟩

/-- C109: the variance is at most `B` after every correction, however many predictions and corrections there were before. -/
theorem C109_after_correction (bld : Build) {X Z B : ℝ} {N : Nat} {w : World 1 (FixedPoint f)} {x A P Q} (hv : w.Valid) (hf : w.kf.Reps x A P Q)
    (hl : Spec.LastingFixed f X (Q 0 0).val B N) (hZ : Z ≤ X) (hA1 : |(A 0 0).val| ≤ 1) (hxX : |(x 0).val| ≤ X) (hP0 : 0 ≤ (P 0 0).val)
    (hPB : (P 0 0).val ≤ B)
    (hobs : ∀ s ∈ w.obs, ∃ (o : RegularObservation 1 1 (FixedPoint f)) (z : _) (R : _), s = ⟨1, o⟩ ∧ o.Reps (Spec.direct 0) z R ∧
      |(z 0).val| ≤ Z ∧ Spec.BalancedFixed f N (Q 0 0).val B (R 0 0).val)
    {ops : List (Op (FixedPoint f))} {i : Nat} (hops : ∀ op ∈ ops, op.WellFormed w) (hi : i < w.obs.length)
    (hpc : Spec.Paced N 0 (ops ++ [.correct i])) (ht : ∀ op ∈ ops, Spec.TameFixed X Z B op) :
    ∃ w' P', w.run bld (ops ++ [.correct i]) = .ok w' ∧ w'.kf.P.Reps P' ∧ 0 ≤ (P' 0 0).val ∧ (P' 0 0).val ≤ B := by
  have hpc' := fresh_paced Watched.fresh hpc
  rw [List.map_append] at hpc'
  obtain ⟨w1, c, h1, h2, h3, h4, h5, h6⟩ := forever_run_fixed bld hl hZ (Nat.zero_le _)
    (fresh_world_valid Watched.fresh hv) (fresh_runs hf hA1 hxX hP0 hPB hobs) (ops := ops.map (Op.mapCells Watched.fresh))
    (by
      intro op ho
      obtain ⟨op, hm, rfl⟩ := List.mem_map.1 ho
      exact fresh_wellFormed _ (hops op hm))
    hpc'
    (by
      intro op ho
      obtain ⟨op, hm, rfl⟩ := List.mem_map.1 ho
      exact fresh_tame (ht op hm))
  obtain ⟨w2, c', k1, _, _, ⟨⟨x', _, P', _, g1, _, _, _, _, _, _, _, g5, g6⟩, _⟩, k5⟩ := forever_step_fixed bld hl hZ h4 h6
    (op := .correct i) (ops := []) (Op.WellFormed.congr h3 (fresh_wellFormed Watched.fresh (op := .correct i) hi)) h5 trivial
  obtain rfl := k5 i rfl
  refine ⟨w2.mapCells Watched.num, _, unwatch bld ?_, fresh_reps Watched.num g1.P, g5, by simpa using g6⟩
  rw [List.map_append, run_after bld h1]
  show (w1.step bld (.correct i) >>= fun v => v.run bld []) = _
  rw [k1]
  rfl

theorem quiet_tame_fixed {B : ℝ} {op : Op (FixedPoint f)} (h : Spec.TameModelFixed B op) : Spec.TameFixed 0 0 B op.quiet := by
  have hz : |(0 : FixedPoint f).val| ≤ 0 := by rw [val_zero, abs_zero]
  cases op with
  | setX v =>
    intro a ha
    obtain ⟨_, _, rfl⟩ := List.mem_map.1 ha
    exact hz
  | setZ i v =>
    intro a ha
    obtain ⟨_, _, rfl⟩ := List.mem_map.1 ha
    exact hz
  | predict => trivial
  | correct i => trivial
  | setA v => exact h
  | setP v => exact h
  | _ => exact h.elim

/-- C109: the bounds on the variance do not need any bounds on states and measurements. If these are too large the state wraps around, but nothing
panics (in a build without overflow checks) and the variance is as before. -/
theorem C109_any_data (bld : Build) {B : ℝ} {N : Nat} {w : World 1 (FixedPoint f)} {x A P Q} (hv : w.Valid) (hf : w.kf.Reps x A P Q)
    (hl : Spec.LastingFixed f 0 (Q 0 0).val B N) (hA1 : |(A 0 0).val| ≤ 1) (hP0 : 0 ≤ (P 0 0).val) (hPB : (P 0 0).val ≤ B)
    (hobs : ∀ s ∈ w.obs, ∃ (o : RegularObservation 1 1 (FixedPoint f)) (z : _) (R : _), s = ⟨1, o⟩ ∧ o.Reps (Spec.direct 0) z R ∧
      Spec.BalancedFixed f N (Q 0 0).val B (R 0 0).val)
    {ops : List (Op (FixedPoint f))} (hops : ∀ op ∈ ops, op.WellFormed w) (hpc : Spec.Paced N 0 ops) (ht : ∀ op ∈ ops, Spec.TameModelFixed B op) :
    ∃ w' P', w.run bld ops = .ok w' ∧ w'.kf.P.Reps P' ∧ 0 ≤ (P' 0 0).val ∧ (P' 0 0).val ≤ B + N * (Q 0 0).val := by
  have hops' : ∀ op ∈ ops.map Op.quiet, op.WellFormed w.quiet := by
    intro op ho
    obtain ⟨op, hm, rfl⟩ := List.mem_map.1 ho
    exact quiet_wellFormed (hops op hm)
  have hz : |(0 : FixedPoint f).val| ≤ 0 := by rw [val_zero, abs_zero]
  obtain ⟨v, _, P', k1, _, k3, _, k7, k8⟩ := C109_runs_forever bld (X := 0) (Z := 0) (w := w.quiet) (x := fun _ => 0) (ops := ops.map Op.quiet)
    (quiet_valid hv) ⟨quiet_repsV hv.kf.x, hf.A, hf.P, hf.Q, hf.predictedX, hf.tempP⟩ hl le_rfl hA1 hz hP0 hPB
    (by
      intro s hs
      obtain ⟨s, hm, rfl⟩ := List.mem_map.1 hs
      obtain ⟨o, z, R, rfl, ho, hR⟩ := hobs s hm
      exact ⟨_, fun _ => 0, R, rfl, ⟨ho.H, quiet_repsV ho.z.valid, ho.R, ho.y, ho.S, ho.K, ho.tempSInv, ho.tempHP, ho.tempPHt, ho.tempKHP⟩,
        hz, hR⟩)
    hops' (quiet_paced hpc)
    (by
      intro op ho
      obtain ⟨op, hm, rfl⟩ := List.mem_map.1 ho
      exact quiet_tame_fixed (ht op hm))
  rcases run_cov bld hv (quiet_valid hv) (quiet_covEq w) (quiet_same ops) hops hops' with ⟨e, _, g⟩ | ⟨w', v', g1, g2, g3⟩
  · rw [k1] at g; cases g
  · rw [k1] at g2
    cases g2
    exact ⟨w', P', g1, g3.P.symm.reps k3, k7, k8⟩

/-- C109: in a build with overflow checks, where every operation that leaves the range of the type panics, no operation of any of these calls
ever panics, not even one whose result is discarded, and state and variance stay within the same bounds. -/
theorem C109_with_overflow_checks (bld : Build) {X Z B : ℝ} {N : Nat} {w : World 1 (FixedPoint f)} {x A P Q} (hv : w.Valid) (hf : w.kf.Reps x A P Q)
    (hl : Spec.LastingFixed f X (Q 0 0).val B N) (hZ : Z ≤ X) (hA1 : |(A 0 0).val| ≤ 1) (hxX : |(x 0).val| ≤ X) (hP0 : 0 ≤ (P 0 0).val)
    (hPB : (P 0 0).val ≤ B)
    (hobs : ∀ s ∈ w.obs, ∃ (o : RegularObservation 1 1 (FixedPoint f)) (z : _) (R : _), s = ⟨1, o⟩ ∧ o.Reps (Spec.direct 0) z R ∧
      |(z 0).val| ≤ Z ∧ Spec.BalancedFixed f N (Q 0 0).val B (R 0 0).val)
    {ops : List (Op (FixedPoint f))} (hops : ∀ op ∈ ops, op.WellFormed w) (hpc : Spec.Paced N 0 ops) (ht : ∀ op ∈ ops, Spec.TameFixed X Z B op) :
    ∃ w' x' P', Chk.run (FixedPoint.debugOps f) bld w ops = .ok w' ∧ w'.kf.x.RepsV x' ∧ w'.kf.P.Reps P' ∧ |(x' 0).val| ≤ X ∧
      0 ≤ (P' 0 0).val ∧ (P' 0 0).val ≤ B + N * (Q 0 0).val := by
  obtain ⟨w', x', P', h1, h2⟩ := C109_runs_forever bld hv hf hl hZ hA1 hxX hP0 hPB hobs hops hpc ht
  obtain ⟨r, hr⟩ := forever_run_debug bld hl hZ (Nat.zero_le _)
    (fresh_world_valid Watched.fresh hv) (fresh_runs hf hA1 hxX hP0 hPB hobs) (ops := ops.map (Op.mapCells Watched.fresh))
    (by
      intro op ho
      obtain ⟨op, hm, rfl⟩ := List.mem_map.1 ho
      exact fresh_wellFormed _ (hops op hm))
    (fresh_paced _ hpc)
    (by
      intro op ho
      obtain ⟨op, hm, rfl⟩ := List.mem_map.1 ho
      exact fresh_tame (ht op hm))
  have e1 : (Watched.num ∘ Watched.fresh : FixedPoint f → FixedPoint f) = id := rfl
  have e2 : (Op.mapCells Watched.num ∘ Op.mapCells Watched.fresh : Op (FixedPoint f) → Op (FixedPoint f)) = id := by
    funext op
    simp only [Function.comp_apply, Param.op_map_map, e1, Param.op_map_id, id]
  rw [Param.world_map_map, List.map_map, e1, e2, Param.world_map_id, List.map_id] at hr
  have := C93_results_agree hr
  rw [h1] at this
  cases this
  exact ⟨w', x', P', hr, h2⟩

/-- C109: for `I16F16`, sensors with a noise variance between 1 and 20 do, if the process noise between two corrections adds up to at most 29: the variance
is then at most 21 after a correction, and states and measurements may be as large as 16383. -/
theorem C109_i16f16 {q r : ℝ} {N : Nat} (hq : 0 ≤ q) (hN : N * q ≤ 29) (hr : 1 ≤ r) (hr2 : r ≤ 20) :
    Spec.LastingFixed 16 16383 q 21 N ∧ Spec.BalancedFixed 16 N q 21 r := by
  have hNq : 0 ≤ N * q := mul_nonneg (Nat.cast_nonneg _) hq
  have hs : 1 ≤ √r := Real.one_le_sqrt.2 hr
  have hs5 : √r ≤ 5 := Real.sqrt_le_iff.2 ⟨by norm_num, by linarith⟩
  have e1 : res 16 = 1 / 65536 := by unfold res; norm_num
  have e2 : lim 16 = 32768 := by unfold lim; norm_num
  have hroot : rootErr 16 r ≤ 3 / 65536 := by
    unfold rootErr
    rw [e1]
    have h1 : (1 / 2 : ℝ) ≤ (√r - 1 / 65536) * √r := by nlinarith
    have h2 : (1 / 65536 : ℝ) / ((√r - 1 / 65536) * √r) ≤ 2 / 65536 := by
      rw [div_le_iff₀ (by linarith)]
      linarith
    linarith
  have hroot0 : 0 ≤ rootErr 16 r := by
    unfold rootErr
    rw [e1]
    have h1 : (0 : ℝ) ≤ (√r - 1 / 65536) * √r := mul_nonneg (by linarith) (by linarith)
    positivity
  have hinv1 : 1 / √r ≤ 1 := by
    rw [div_le_one (by linarith)]
    exact hs
  have hinv0 : 0 ≤ 1 / √r := by positivity
  have he : inverseErr 16 r 0 ≤ 8 / 65536 := by
    unfold inverseErr
    have h1 : 2 / √r + rootErr 16 r ≤ 7 / 3 := by
      have : 2 / √r = 2 * (1 / √r) := by ring
      rw [this]
      linarith
    have h2 : rootErr 16 r * (2 / √r + rootErr 16 r) ≤ 3 / 65536 * (7 / 3) :=
      mul_le_mul hroot h1 (by positivity) (by norm_num)
    rw [zero_div, e1]
    linarith
  have he0 : 0 ≤ inverseErr 16 r 0 := by
    unfold inverseErr
    rw [zero_div, e1]
    positivity
  refine ⟨⟨by norm_num, hq, by norm_num, by rw [e2]; norm_num, by rw [e2]; linarith⟩, ⟨by rw [e1]; linarith, ?_, ?_, ?_, ?_, by rw [e2]; linarith⟩⟩
  · rw [e1, e2]; linarith
  · rw [e2]; nlinarith
  · have h1 : (21 + N * q) * inverseErr 16 r 0 ≤ 50 * (8 / 65536) := mul_le_mul (by linarith) he he0 (by norm_num)
    have h2 : (21 + N * q) * inverseErr 16 r 0 * (21 + N * q + r) ≤ 50 * (8 / 65536) * 70 :=
      mul_le_mul h1 (by linarith) (by linarith) (by norm_num)
    linarith
  · have h1 : (21 + N * q) ^ 2 ≤ 2500 := by nlinarith
    have h2 : (21 + N * q) ^ 2 * inverseErr 16 r 0 ≤ 2500 * (8 / 65536) := mul_le_mul h1 he he0 (by norm_num)
    rw [e1]
    linarith

/-! ## Non-vacuity -/

namespace Ex

/-- A whole number. -/
def whole16 (z : Int) : I16F16 := ⟨BitVec.ofInt 32 (z * 65536)⟩

/-- A random walk with a variance of 7 that grows by `1/8` with each step, two sensors with noise variance 1 and 2. -/
def fixedWalker : World 1 I16F16 := ⟨⟨⟨[whole16 10]⟩, ⟨[1]⟩, ⟨[whole16 7]⟩, ⟨[⟨8192⟩]⟩, ⟨[0]⟩, ⟨[0]⟩⟩, [],
  [⟨1, oneSensorFixed 1 0⟩, ⟨1, oneSensorFixed (whole16 2) 0⟩]⟩

/-- One round of the loop. -/
def fixedLoop : List (Op I16F16) :=
  [.predict, .setZ 0 [whole16 3], .correct 0, .predict, .predict, .setZ 1 [whole16 (-12000)], .correct 1, .correct 0]

/-- Any number of rounds. -/
def fixedWalk (k : Nat) : List (Op I16F16) := (List.replicate k fixedLoop).flatten

theorem fixedWalk_paced (k : Nat) : Spec.Paced 200 0 (fixedWalk k) := by
  induction k with
  | zero => exact trivial
  | succ k ih => exact ⟨by norm_num, by norm_num, by norm_num, ih⟩

theorem fixedWalk_mem {k : Nat} {op : Op I16F16} (h : op ∈ fixedWalk k) : op ∈ fixedLoop := by
  obtain ⟨l, h1, h2⟩ := List.mem_flatten.1 h
  rwa [List.eq_of_mem_replicate h1] at h2

theorem i16_val {a : I16F16} {z : Int} (h : a.bits.toInt = z) : a.val = z / 65536 := by
  unfold FixedPoint.val
  rw [h]
  norm_num

end Ex

open Ex in
/-- The conditions hold, for any number of rounds. -/
example (k : Nat) : ∃ w' x' P', fixedWalker.run ⟨false, true⟩ (fixedWalk k) = .ok w' ∧ w'.kf.x.RepsV x' ∧ w'.kf.P.Reps P' ∧
    |(x' 0).val| ≤ 16383 ∧ 0 ≤ (P' 0 0).val ∧ (P' 0 0).val ≤ 21 + 200 * (1 / 8) := by
  have v0 : (0 : I16F16).val = 0 := by rw [i16_val (z := 0) (by decide)]; norm_num
  have v1 : (1 : I16F16).val = 1 := by rw [i16_val (z := 65536) (by decide)]; norm_num
  have v2 : (whole16 2).val = 2 := by rw [i16_val (z := 131072) (by decide)]; norm_num
  have v3 : (whole16 3).val = 3 := by rw [i16_val (z := 196608) (by decide)]; norm_num
  have v4 : (whole16 (-12000)).val = -12000 := by rw [i16_val (z := -786432000) (by decide)]; norm_num
  have v7 : (whole16 7).val = 7 := by rw [i16_val (z := 458752) (by decide)]; norm_num
  have v10 : (whole16 10).val = 10 := by rw [i16_val (z := 655360) (by decide)]; norm_num
  have vq : (⟨8192⟩ : I16F16).val = 1 / 8 := by rw [i16_val (z := 8192) (by decide)]; norm_num
  have hb : ∀ r : ℝ, 1 ≤ r → r ≤ 20 → Spec.LastingFixed 16 16383 (1 / 8) 21 200 ∧ Spec.BalancedFixed 16 200 (1 / 8) 21 r :=
    fun r h1 h2 => C109_i16f16 (by norm_num) (by norm_num) h1 h2
  have h := C109_runs_forever ⟨false, true⟩ (w := fixedWalker) (x := fun _ => whole16 10) (P := Matrix.of fun _ _ => whole16 7)
    (A := Matrix.of fun _ _ => 1) (Q := Matrix.of fun _ _ => ⟨8192⟩) (ops := fixedWalk k) (X := 16383) (Z := 16383) (B := 21) (N := 200)
    ⟨by decide, ⟨by decide, by decide, by decide, by decide, by decide, by decide⟩,
      fun _ h => absurd h List.not_mem_nil, by
      intro o ho
      rcases List.mem_cons.1 ho with rfl | ho
      · exact ⟨by decide, by decide, by decide, by decide, by decide, by decide, by decide, by decide, by decide, by decide, by decide⟩
      · obtain rfl := List.mem_singleton.1 ho
        exact ⟨by decide, by decide, by decide, by decide, by decide, by decide, by decide, by decide, by decide, by decide, by decide⟩⟩
    ⟨by decide, by decide, by decide, by decide, by decide, by decide⟩
    (by simp only [Matrix.of_apply, vq]; exact (hb 1 le_rfl (by norm_num)).1) le_rfl (by simp only [Matrix.of_apply, v1]; norm_num)
    (by simp only [v10]; norm_num [abs_le]) (by simp only [Matrix.of_apply, v7]; norm_num) (by simp only [Matrix.of_apply, v7]; norm_num)
    ?_ ?_ (fixedWalk_paced k) ?_
  · simp only [Matrix.of_apply, vq] at h
    exact_mod_cast h
  · intro s hs
    simp only [Matrix.of_apply, vq]
    rcases List.mem_cons.1 hs with rfl | hs
    · refine ⟨_, ![0], Matrix.of fun _ _ => 1, rfl, ⟨by decide, by decide, by decide, by decide, by decide,
        by decide, by decide, by decide, by decide, by decide⟩, ?_, ?_⟩
      · show |(0 : I16F16).val| ≤ 16383
        rw [v0]; norm_num
      · simp only [Matrix.of_apply, v1]
        exact (hb 1 le_rfl (by norm_num)).2
    · obtain rfl := List.mem_singleton.1 hs
      refine ⟨_, ![0], Matrix.of fun _ _ => whole16 2, rfl, ⟨by decide, by decide, by decide, by decide, by decide,
        by decide, by decide, by decide, by decide, by decide⟩, ?_, ?_⟩
      · show |(0 : I16F16).val| ≤ 16383
        rw [v0]; norm_num
      · simp only [Matrix.of_apply, v2]
        exact (hb 2 (by norm_num) (by norm_num)).2
  · intro op ho
    have ho := fixedWalk_mem ho
    simp only [fixedLoop, List.mem_cons, List.not_mem_nil, or_false] at ho
    have k3 : (Op.correct (T := I16F16) 0).WellFormed fixedWalker := by show 0 < 2; decide
    have k4 : (Op.correct (T := I16F16) 1).WellFormed fixedWalker := by show 1 < 2; decide
    rcases ho with rfl | rfl | rfl | rfl | rfl | rfl | rfl | rfl
    exacts [trivial, rfl, k3, trivial, trivial, rfl, k4, k3]
  · intro op ho
    have hs : ∀ (a : I16F16) i, |a.val| ≤ 16383 → Spec.TameFixed 16383 16383 21 (Op.setZ i [a]) := by
      intro a i h b hb
      obtain rfl := List.mem_singleton.1 hb
      exact h
    have ho := fixedWalk_mem ho
    simp only [fixedLoop, List.mem_cons, List.not_mem_nil, or_false] at ho
    rcases ho with rfl | rfl | rfl | rfl | rfl | rfl | rfl | rfl
    exacts [trivial, hs _ _ (by rw [v3]; norm_num [abs_le]), trivial, trivial, trivial, hs _ _ (by rw [v4]; norm_num [abs_le]), trivial, trivial]

open Ex in
/-- Without the conditions the claim is false: a sensor too precise for the type makes the variance negative, and the next correction panics. -/
example : (({ fixedWalker with kf := oneStateFixed ⟨65537#32⟩, obs := [⟨1, oneSensorFixed ⟨1#32⟩ 1⟩] } : World 1 I16F16).run ⟨false, true⟩
    [.correct 0, .correct 0]).map (fun w => w.kf.P.data) = .error .arithmetic := by decide +kernel

end Minikalman
