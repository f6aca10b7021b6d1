import Verif.Proofs.Range
import Verif.Proofs.RangeFixed
import Verif.Proofs.RangeExact
import Verif.Props.Forever
import Verif.Props.ForeverFixed
import Verif.Props.Steady

/-!
# Property C111: the estimate of a single state stays within the range of the measurements
-/

namespace Minikalman

open Matrix

section Float
variable {fmt : Format}

/-- C111: a filter with one state in floating point arithmetic, as in C108, whose system matrix does not drive the state out of the range (`Spec.Steady`), with
any number of sensors that measure the state directly. Let the initial state and the measurements be between `L` and `H`, which are at most `M` in magnitude.
After any sequence of predictions (at most `N` without a correction), corrections by any of the sensors, new measurements, states, variances and system
matrices within these bounds, however long it is, the state is between `L` and `H`, with no allowance for rounding errors. -/
theorem C111_stays_in_range (bld : Build) {M B L H : ℝ} {N : Nat} {w : World 1 (Bin fmt)} {x A P Q} (hv : w.Valid) (hf : w.kf.Reps x A P Q)
    (hl : Spec.Lasting fmt (2 * M) (Q 0 0).val B N) (hlM : |L| ≤ M) (hhM : |H| ≤ M)
    (hA : (A 0 0).Finite) (hst : Spec.Steady L H (A 0 0).val) (hQ : (Q 0 0).Finite)
    (hx : (x 0).Finite) (hlx : L ≤ (x 0).val) (hxh : (x 0).val ≤ H) (hP : (P 0 0).Finite) (hP0 : 0 ≤ (P 0 0).val) (hPB : (P 0 0).val ≤ B)
    (hobs : ∀ s ∈ w.obs, ∃ (o : RegularObservation 1 1 (Bin fmt)) (z : _) (R : _), s = ⟨1, o⟩ ∧ o.Reps (Spec.direct 0) z R ∧
      (z 0).Finite ∧ L ≤ (z 0).val ∧ (z 0).val ≤ H ∧ Spec.Balanced fmt N (Q 0 0).val B (R 0 0).val)
    {ops : List (Op (Bin fmt))} (hops : ∀ op ∈ ops, op.WellFormed w) (hpc : Spec.Paced N 0 ops) (ht : ∀ op ∈ ops, Spec.Ranged L H B op) :
    ∃ w' x', w.run bld ops = .ok w' ∧ w'.kf.x.RepsV x' ∧ (x' 0).Finite ∧ L ≤ (x' 0).val ∧ (x' 0).val ≤ H := by
  obtain ⟨w', h1, _, _⟩ := C40_history_never_panics bld hv hops
  have m1 := abs_le.1 hlM
  have m2 := abs_le.1 hhM
  have hA1 : |(A 0 0).val| ≤ 1 := by
    rcases hst with g | ⟨g1, g2, _⟩
    · rw [g, abs_one]
    · rw [abs_of_nonneg g1]; exact g2
  obtain ⟨c, _, _, ⟨⟨x', _, _, _, g1, _, _, _, _, g2, _⟩, _⟩, ⟨⟨x1, _, g3, _, g4, g5, _⟩, _⟩⟩ := range_run (rest := []) bld hl (Nat.zero_le _) hlM hhM hv
    ⟨⟨x, A, P, Q, hf, hA, hA1, hQ, rfl, hx, abs_le.2 ⟨by linarith, by linarith⟩, hP, hP0, by simpa using hPB⟩, fun s hs => by
      obtain ⟨o, z, R, e, ho, hz, hz1, hz2, hR⟩ := hobs s hs
      exact ⟨o, z, R, e, ho, hz, abs_le.2 ⟨by linarith, by linarith⟩, hR⟩⟩
    ⟨⟨x, A, hf.x, hf.A, hlx, hxh, hst⟩, fun s hs => by
      obtain ⟨o, z, R, e, ho, hz, hz1, hz2, hR⟩ := hobs s hs
      exact ⟨o, z, e, ho.z, hz1, hz2⟩⟩ hops (by rwa [List.append_nil]) ht h1
  obtain rfl := Mat.RepsV.unique g3 g1.x
  exact ⟨w', _, h1, g1.x, g2, g4, g5⟩

/-- C111: if `A` is between 0 and 1 and neither the initial state nor any measurement is negative, then the estimate never becomes negative. -/
theorem C111_never_negative (bld : Build) {B H : ℝ} {N : Nat} {w : World 1 (Bin fmt)} {x A P Q} (hv : w.Valid) (hf : w.kf.Reps x A P Q)
    (hl : Spec.Lasting fmt (2 * H) (Q 0 0).val B N)
    (hA : (A 0 0).Finite) (hA0 : 0 ≤ (A 0 0).val) (hA1 : (A 0 0).val ≤ 1) (hQ : (Q 0 0).Finite)
    (hx : (x 0).Finite) (hlx : 0 ≤ (x 0).val) (hxh : (x 0).val ≤ H) (hP : (P 0 0).Finite) (hP0 : 0 ≤ (P 0 0).val) (hPB : (P 0 0).val ≤ B)
    (hobs : ∀ s ∈ w.obs, ∃ (o : RegularObservation 1 1 (Bin fmt)) (z : _) (R : _), s = ⟨1, o⟩ ∧ o.Reps (Spec.direct 0) z R ∧
      (z 0).Finite ∧ 0 ≤ (z 0).val ∧ (z 0).val ≤ H ∧ Spec.Balanced fmt N (Q 0 0).val B (R 0 0).val)
    {ops : List (Op (Bin fmt))} (hops : ∀ op ∈ ops, op.WellFormed w) (hpc : Spec.Paced N 0 ops) (ht : ∀ op ∈ ops, Spec.Ranged 0 H B op) :
    ∃ w' x', w.run bld ops = .ok w' ∧ w'.kf.x.RepsV x' ∧ (x' 0).Finite ∧ 0 ≤ (x' 0).val := by
  have hH : 0 ≤ H := by linarith
  obtain ⟨w', x', h1, h2, h3, h4, _⟩ := C111_stays_in_range bld hv hf hl (by rw [abs_zero]; exact hH) (by rw [abs_of_nonneg hH]) hA
    (.inr ⟨hA0, hA1, le_rfl, hH⟩) hQ hx hlx hxh hP hP0 hPB hobs hops hpc ht
  exact ⟨w', x', h1, h2, h3, h4⟩

/-- C111: every correction of a filter as in C108, after any history, leads to a state between the state before it and the measurement (or equal to one of
them). -/
theorem C111_between (bld : Build) {X Z B : ℝ} {N : Nat} {w : World 1 (Bin fmt)} {x A P Q} (hv : w.Valid) (hf : w.kf.Reps x A P Q)
    (hl : Spec.Lasting fmt X (Q 0 0).val B N) (hZ : 2 * Z ≤ X) (hA : (A 0 0).Finite) (hA1 : |(A 0 0).val| ≤ 1) (hQ : (Q 0 0).Finite)
    (hx : (x 0).Finite) (hxX : |(x 0).val| ≤ X) (hP : (P 0 0).Finite) (hP0 : 0 ≤ (P 0 0).val) (hPB : (P 0 0).val ≤ B)
    (hobs : ∀ s ∈ w.obs, ∃ (o : RegularObservation 1 1 (Bin fmt)) (z : _) (R : _), s = ⟨1, o⟩ ∧ o.Reps (Spec.direct 0) z R ∧
      (z 0).Finite ∧ |(z 0).val| ≤ Z ∧ Spec.Balanced fmt N (Q 0 0).val B (R 0 0).val)
    {ops : List (Op (Bin fmt))} {i : Nat} (hops : ∀ op ∈ ops, op.WellFormed w) (hi : i < w.obs.length)
    (hpc : Spec.Paced N 0 (ops ++ [.correct i])) (ht : ∀ op ∈ ops, Spec.Tame X Z B op) :
    ∃ (w1 w' : World 1 (Bin fmt)) (o : RegularObservation 1 1 (Bin fmt)) (x1 x' z : Fin 1 → Bin fmt),
      w.run bld ops = .ok w1 ∧ w1.kf.x.RepsV x1 ∧ w1.obs[i]? = some ⟨1, o⟩ ∧ o.z.RepsV z ∧
      w.run bld (ops ++ [.correct i]) = .ok w' ∧ w'.kf.x.RepsV x' ∧ (x' 0).Finite ∧
      min (x1 0).val (z 0).val ≤ (x' 0).val ∧ (x' 0).val ≤ max (x1 0).val (z 0).val := by
  obtain ⟨w1, h1, hv1, hs1⟩ := C40_history_never_panics bld hv hops
  obtain ⟨c, k1, k2, k3⟩ := forever_run bld hl hZ (Nat.zero_le _) hv
    ⟨⟨x, A, P, Q, hf, hA, hA1, hQ, rfl, hx, hxX, hP, hP0, by simpa using hPB⟩, hobs⟩ hops hpc ht h1
  have hw1 : ∀ op ∈ [Op.correct (T := Bin fmt) i], op.WellFormed w1 := by
    intro op ho
    obtain rfl := List.mem_singleton.1 ho
    exact Op.WellFormed.congr hs1 (show (Op.correct (T := Bin fmt) i).WellFormed w from hi)
  have hi1 : i < w1.obs.length := hw1 _ (List.mem_singleton.2 rfl)
  obtain ⟨w', h2, _, _⟩ := C40_history_never_panics bld hv1 hw1
  obtain ⟨w2, h3, h4⟩ := bind_ok (show (w1.step bld (.correct i) >>= fun v => v.run bld []) = .ok w' from h2)
  cases h4
  obtain ⟨c', j1, _, ⟨⟨x', _, P', _, g1, _, _, _, _, g2, _⟩, _⟩, j2⟩ := forever_step bld hl hZ k1 k3 (hw1 _ (List.mem_singleton.2 rfl)) k2
    trivial h3
  obtain ⟨⟨x1, A1, P1, Q1, f1, _, _, _, _, f2, _, f3, f4, f5⟩, f6⟩ := k3
  obtain ⟨o, z, R, e, ho, hz, _, hR⟩ := f6 _ (List.getElem_mem hi1)
  have hg : w1.obs[i]? = some ⟨1, o⟩ := by rw [List.getElem?_eq_getElem hi1, e]
  unfold World.step at h3
  simp only [hg] at h3
  obtain ⟨⟨f', o'⟩, h6, h5⟩ := bind_ok h3
  cases h5
  obtain ⟨x2, l1, l2⟩ := range_correct bld hl k1 f1 ho f2 hz f3 f4 f5 hR h6
  obtain rfl := Mat.RepsV.unique l1 g1.x
  obtain ⟨l3, l4⟩ := l2 g2
  exact ⟨w1, _, o, x1, x2, z, h1, f1.x, hg, ho.z, by rw [run_after bld h1]; exact h2, l1, g2, l3, l4⟩

end Float

section Fixed
variable {f : Nat}
open FixedPoint

theorem fresh_ranged {L H B : ℝ} {op : Op (FixedPoint f)} (h : Spec.RangedFixed L H B op) : RangedWatched L H B (op.mapCells Watched.fresh) := by
  cases op with
  | predict => trivial
  | correct => trivial
  | setZ i v =>
    intro a ha
    obtain ⟨b, hb, rfl⟩ := List.mem_map.1 ha
    exact ⟨rfl, h b hb⟩
  | setX v =>
    intro a ha
    obtain ⟨b, hb, rfl⟩ := List.mem_map.1 ha
    exact ⟨rfl, h b hb⟩
  | setA v =>
    intro a ha
    obtain ⟨b, hb, rfl⟩ := List.mem_map.1 ha
    exact ⟨rfl, h b hb⟩
  | setP v =>
    intro a ha
    obtain ⟨b, hb, rfl⟩ := List.mem_map.1 ha
    exact ⟨rfl, h b hb⟩
  | _ => exact h.elim

/-- C111: on fixed point numbers, for a filter as in C109 whose system matrix does not drive the state out of the range: if the initial state and all
measurements are between `L` and `H`, then so is every estimate. -/
theorem C111_fixed_stays_in_range (bld : Build) {M L H B : ℝ} {N : Nat} {w : World 1 (FixedPoint f)} {x A P Q} (hv : w.Valid) (hf : w.kf.Reps x A P Q)
    (hl : Spec.LastingFixed f M (Q 0 0).val B N) (hlM : |L| ≤ M) (hhM : |H| ≤ M) (hst : Spec.Steady L H (A 0 0).val)
    (hlx : L ≤ (x 0).val) (hxh : (x 0).val ≤ H) (hP0 : 0 ≤ (P 0 0).val) (hPB : (P 0 0).val ≤ B)
    (hobs : ∀ s ∈ w.obs, ∃ (o : RegularObservation 1 1 (FixedPoint f)) (z : _) (R : _), s = ⟨1, o⟩ ∧ o.Reps (Spec.direct 0) z R ∧
      L ≤ (z 0).val ∧ (z 0).val ≤ H ∧ Spec.BalancedFixed f N (Q 0 0).val B (R 0 0).val)
    {ops : List (Op (FixedPoint f))} (hops : ∀ op ∈ ops, op.WellFormed w) (hpc : Spec.Paced N 0 ops) (ht : ∀ op ∈ ops, Spec.RangedFixed L H B op) :
    ∃ w' x', w.run bld ops = .ok w' ∧ w'.kf.x.RepsV x' ∧ L ≤ (x' 0).val ∧ (x' 0).val ≤ H := by
  have m1 := abs_le.1 hlM
  have m2 := abs_le.1 hhM
  have hA1 : |(A 0 0).val| ≤ 1 := by
    rcases hst with g | ⟨g1, g2, _⟩
    · rw [g, abs_one]
    · rw [abs_of_nonneg g1]; exact g2
  obtain ⟨w', c, h1, _, _, _, ⟨⟨x1, _, g3, _, g4, g5, _⟩, _⟩⟩ := range_run_fixed (rest := []) bld hl (Nat.zero_le _) hlM hhM
    (fresh_world_valid Watched.fresh hv) (fresh_runs (Z := M) (X := M) hf hA1 (abs_le.2 ⟨by linarith, by linarith⟩) hP0 hPB (fun s hs => by
      obtain ⟨o, z, R, e, ho, hz1, hz2, hR⟩ := hobs s hs
      exact ⟨o, z, R, e, ho, abs_le.2 ⟨by linarith, by linarith⟩, hR⟩))
    (L := L) (H := H) (ops := ops.map (Op.mapCells Watched.fresh))
    ⟨⟨_, _, fresh_repsV Watched.fresh hf.x, fresh_reps Watched.fresh hf.A, hlx, hxh, hst⟩, fun s hs => by
      obtain ⟨s, hm, rfl⟩ := List.mem_map.1 hs
      obtain ⟨o, z, R, rfl, ho, hz1, hz2, hR⟩ := hobs s hm
      exact ⟨_, _, rfl, fresh_repsV Watched.fresh ho.z, hz1, hz2⟩⟩
    (by
      intro op ho
      obtain ⟨op, hm, rfl⟩ := List.mem_map.1 ho
      exact fresh_wellFormed _ (hops op hm))
    (by rw [List.append_nil]; exact fresh_paced _ hpc)
    (by
      intro op ho
      obtain ⟨op, hm, rfl⟩ := List.mem_map.1 ho
      exact fresh_ranged (ht op hm))
  exact ⟨_, _, unwatch bld h1, fresh_repsV Watched.num g3, g4, g5⟩

/-- C111: the same in a build with overflow checks, where no operation of these calls panics. -/
theorem C111_with_overflow_checks (bld : Build) {M L H B : ℝ} {N : Nat} {w : World 1 (FixedPoint f)} {x A P Q} (hv : w.Valid) (hf : w.kf.Reps x A P Q)
    (hl : Spec.LastingFixed f M (Q 0 0).val B N) (hlM : |L| ≤ M) (hhM : |H| ≤ M) (hst : Spec.Steady L H (A 0 0).val)
    (hlx : L ≤ (x 0).val) (hxh : (x 0).val ≤ H) (hP0 : 0 ≤ (P 0 0).val) (hPB : (P 0 0).val ≤ B)
    (hobs : ∀ s ∈ w.obs, ∃ (o : RegularObservation 1 1 (FixedPoint f)) (z : _) (R : _), s = ⟨1, o⟩ ∧ o.Reps (Spec.direct 0) z R ∧
      L ≤ (z 0).val ∧ (z 0).val ≤ H ∧ Spec.BalancedFixed f N (Q 0 0).val B (R 0 0).val)
    {ops : List (Op (FixedPoint f))} (hops : ∀ op ∈ ops, op.WellFormed w) (hpc : Spec.Paced N 0 ops) (ht : ∀ op ∈ ops, Spec.RangedFixed L H B op) :
    ∃ w' x', Chk.run (FixedPoint.debugOps f) bld w ops = .ok w' ∧ w'.kf.x.RepsV x' ∧ L ≤ (x' 0).val ∧ (x' 0).val ≤ H := by
  have m1 := abs_le.1 hlM
  have m2 := abs_le.1 hhM
  have hA1 : |(A 0 0).val| ≤ 1 := by
    rcases hst with g | ⟨g1, g2, _⟩
    · rw [g, abs_one]
    · rw [abs_of_nonneg g1]; exact g2
  have hto : ∀ op : Op (FixedPoint f), Spec.RangedFixed L H B op → Spec.TameFixed M M B op := by
    intro op h
    cases op with
    | predict => trivial
    | correct => trivial
    | setZ i v => exact fun a ha => abs_le.2 ⟨by linarith [h a ha], by linarith [h a ha]⟩
    | setX v => exact fun a ha => abs_le.2 ⟨by linarith [h a ha], by linarith [h a ha]⟩
    | setA v =>
      intro a ha
      rcases h a ha with g | ⟨g1, g2, _⟩
      · rw [g, abs_one]
      · rw [abs_of_nonneg g1]; exact g2
    | setP v => exact h
    | _ => exact h.elim
  obtain ⟨w', _, _, h1, _⟩ := C109_with_overflow_checks bld hv hf hl le_rfl hA1 (abs_le.2 ⟨by linarith, by linarith⟩) hP0 hPB
    (fun s hs => by
      obtain ⟨o, z, R, e, ho, hz1, hz2, hR⟩ := hobs s hs
      exact ⟨o, z, R, e, ho, abs_le.2 ⟨by linarith, by linarith⟩, hR⟩) hops hpc (fun op h => hto op (ht op h))
  obtain ⟨w2, x2, h2, h3⟩ := C111_fixed_stays_in_range bld hv hf hl hlM hhM hst hlx hxh hP0 hPB hobs hops hpc ht
  have := C93_results_agree h1
  rw [h2] at this
  cases this
  exact ⟨_, x2, h1, h3⟩

/-- C111: on fixed point numbers, too, every correction leads to a state between the state before it and the measurement. -/
theorem C111_fixed_between (bld : Build) {X Z B : ℝ} {N : Nat} {w : World 1 (FixedPoint f)} {x A P Q} (hv : w.Valid) (hf : w.kf.Reps x A P Q)
    (hl : Spec.LastingFixed f X (Q 0 0).val B N) (hZ : Z ≤ X) (hA1 : |(A 0 0).val| ≤ 1) (hxX : |(x 0).val| ≤ X) (hP0 : 0 ≤ (P 0 0).val)
    (hPB : (P 0 0).val ≤ B)
    (hobs : ∀ s ∈ w.obs, ∃ (o : RegularObservation 1 1 (FixedPoint f)) (z : _) (R : _), s = ⟨1, o⟩ ∧ o.Reps (Spec.direct 0) z R ∧
      |(z 0).val| ≤ Z ∧ Spec.BalancedFixed f N (Q 0 0).val B (R 0 0).val)
    {ops : List (Op (FixedPoint f))} {i : Nat} (hops : ∀ op ∈ ops, op.WellFormed w) (hi : i < w.obs.length)
    (hpc : Spec.Paced N 0 (ops ++ [.correct i])) (ht : ∀ op ∈ ops, Spec.TameFixed X Z B op) :
    ∃ (w1 w' : World 1 (FixedPoint f)) (o : RegularObservation 1 1 (FixedPoint f)) (x1 x' z : Fin 1 → FixedPoint f),
      w.run bld ops = .ok w1 ∧ w1.kf.x.RepsV x1 ∧ w1.obs[i]? = some ⟨1, o⟩ ∧ o.z.RepsV z ∧
      w.run bld (ops ++ [.correct i]) = .ok w' ∧ w'.kf.x.RepsV x' ∧
      min (x1 0).val (z 0).val ≤ (x' 0).val ∧ (x' 0).val ≤ max (x1 0).val (z 0).val := by
  have hpc' := fresh_paced Watched.fresh hpc
  rw [List.map_append] at hpc'
  obtain ⟨w1, c, h1, h2, h3, h4, h5, h6⟩ := forever_run_fixed bld hl hZ (Nat.zero_le _)
    (fresh_world_valid Watched.fresh hv) (fresh_runs hf hA1 hxX hP0 hPB hobs) (ops := ops.map (Op.mapCells Watched.fresh))
    (by
      intro op ho
      obtain ⟨op, hm, rfl⟩ := List.mem_map.1 ho
      exact fresh_wellFormed _ (hops op hm))
    hpc'
    (by
      intro op ho
      obtain ⟨op, hm, rfl⟩ := List.mem_map.1 ho
      exact fresh_tame (ht op hm))
  have hwf : (Op.correct (T := Watched f) i).WellFormed w1 := Op.WellFormed.congr h3 (fresh_wellFormed Watched.fresh (op := .correct i) hi)
  have hi1 : i < w1.obs.length := hwf
  obtain ⟨w2, c', k1, _, _, ⟨⟨x', _, _, _, g1, _, _, _, _, gx, _⟩, _⟩, _⟩ := forever_step_fixed bld hl hZ h4 h6
    (op := .correct i) (ops := []) hwf h5 trivial
  have hrun : w.run bld (ops ++ [.correct i]) = .ok (w2.mapCells Watched.num) := by
    refine unwatch bld ?_
    rw [List.map_append, run_after bld h1]
    show (w1.step bld (.correct i) >>= fun v => v.run bld []) = _
    rw [k1]
    rfl
  obtain ⟨⟨x1, A1, P1, Q1, f1, _, _, _, _, f2, _, f3, f4, f5⟩, f6⟩ := h6
  obtain ⟨o, z, R, e, ho, _, _, hRc, hR⟩ := f6 _ (List.getElem_mem hi1)
  have hg : w1.obs[i]? = some ⟨1, o⟩ := by rw [List.getElem?_eq_getElem hi1, e]
  unfold World.step at k1
  simp only [hg] at k1
  obtain ⟨⟨f', o'⟩, k6, k2⟩ := bind_ok k1
  cases k2
  obtain ⟨K, l1, l2, l3⟩ := range_correct_fixed bld hl h4 f1 ho f2 f3 f4 f5 hRc hR k6
  obtain rfl := Mat.RepsV.unique l3 g1.x
  obtain ⟨l4, l5⟩ := correct_range l1 l2 (min_le_left _ _) (le_max_left _ _) (min_le_right _ _) (le_max_right _ _) gx
  refine ⟨w1.mapCells Watched.num, _, o.mapCells Watched.num, _, _, _, unwatch bld h1, fresh_repsV Watched.num f1.x, ?_, fresh_repsV Watched.num ho.z, hrun,
    fresh_repsV Watched.num l3, l4, l5⟩
  show (w1.obs.map _)[i]? = _
  rw [List.getElem?_map, hg]
  rfl

end Fixed

/-- C111: in exact arithmetic, with any number of sensors that measure the single state directly, any positive noise variances and any process noise, and any
number of predictions between two corrections: the estimate stays between `L` and `H` if the initial state and all measurements are. -/
theorem C111_exact [MDT ℝ] [ExactReal] (bld : Build) {w : World 1 ℝ} {s : Spec.State 1 ℝ} (h : w.Reps s) (hs : s.Psd) {L H : ℝ}
    (hx : L ≤ s.x 0 ∧ s.x 0 ≤ H) (hA : Spec.Steady L H (s.A 0 0))
    (hobs : ∀ o ∈ s.obs, ∃ p : Spec.Obs 1 1 ℝ, o = ⟨1, p⟩ ∧ p.H = Spec.direct 0 ∧ L ≤ p.z 0 ∧ p.z 0 ≤ H)
    {ops : List (Op ℝ)} (hops : ∀ op ∈ ops, op.WellFormed w) (hl : ∀ op ∈ ops, op.NonzeroLambda) (hd : ∀ op ∈ ops, s.PsdData op)
    (ht : ∀ op ∈ ops, Spec.RangedExact L H op) :
    ∃ w' x', w.run bld ops = .ok w' ∧ w'.kf.x.RepsV x' ∧ L ≤ x' 0 ∧ x' 0 ≤ H := by
  obtain ⟨w1, s1, h1, h2, h3, _⟩ := run_refines bld h hops (psd_regularRun hs hl hd)
  have := run_inRange hs ⟨hx, hA, hobs⟩ (fun op ho => firstRanged h.valid (hops op ho) (ht op ho)) hl hd h2
  exact ⟨w1, s1.x, h1, h3.kf.x, this.x⟩

/-! ## Non-vacuity -/

namespace Ex

theorem walkX_range : -(7 / 3) ≤ (walkX 0).val ∧ (walkX 0).val ≤ 3 := by
  rw [(Bin.rat_val (a := walkX 0) (q := 13421773 / 134217728) (by decide +kernel)).2]
  constructor <;> norm_num

theorem range_of {fmt : Format} {a : Bin fmt} {q : ℚ} {L H : ℝ} (h : a.rat = some q) (h1 : L ≤ q) (h2 : q ≤ H) : a.Finite ∧ L ≤ a.val ∧ a.val ≤ H := by
  obtain ⟨h3, h4⟩ := Bin.rat_val h
  rw [h4]
  exact ⟨h3, h1, h2⟩

theorem f32_3_range : (f32 3 1).Finite ∧ -(7 / 3) ≤ (f32 3 1).val ∧ (f32 3 1).val ≤ 3 :=
  range_of (a := f32 3 1) (q := 3) (by decide +kernel) (by norm_num) (by norm_num)

/-- The number nearest to `-7/3` is larger than that. -/
theorem f32_7_3_range : (f32 (-7) 3).Finite ∧ -(7 / 3) ≤ (f32 (-7) 3).val ∧ (f32 (-7) 3).val ≤ 3 :=
  range_of (a := f32 (-7) 3) (q := -9786709 / 4194304) (by decide +kernel) (by norm_num) (by norm_num)

end Ex

open Ex in
/-- The conditions hold, for any number of rounds: with measurements of `-7/3` and 3 no estimate exceeds 3, in single precision. -/
example (k : Nat) : ∃ w' x', walker.run ⟨false, true⟩ (walkOps k) = .ok w' ∧ w'.kf.x.RepsV x' ∧ (x' 0).Finite ∧
    -(7 / 3) ≤ (x' 0).val ∧ (x' 0).val ≤ 3 := by
  have hlim : (1024 : ℝ) < (Format.f32 true).limit := by
    have := Bin.abs_lt_limit (a := f32 1024 1) (by decide +kernel)
    have h16 := (Bin.rat_val (a := f32 1024 1) (q := 1024) (by decide +kernel)).2
    rw [h16] at this
    norm_num at this
    exact this
  have e1 : (Format.f32 true).prec = 24 := rfl
  have e2 : (Format.f32 true).frac = 149 := rfl
  have hf := (C108_formats true).1
  have hQ : (avgR 0 0).val = 1 / 8 := avgR_val
  have hl : Spec.Lasting (Format.f32 true) (2 * 3) (avgR 0 0).val 7 1000 := by
    refine ⟨hf.1, hf.2.1, hf.2.2, ?_, by norm_num, by rw [e1]; norm_num, by linarith, ?_⟩
    · rw [hQ]; norm_num
    · rw [hQ]; norm_num; linarith
  have hz : (0 : F32).Finite ∧ -(7 / 3) ≤ (0 : F32).val ∧ (0 : F32).val ≤ 3 := ⟨trivial, by rw [Bin.zero_val]; norm_num, by rw [Bin.zero_val]; norm_num⟩
  refine C111_stays_in_range ⟨false, true⟩ (w := walker) (x := walkX) (P := avgP) (A := Matrix.of fun _ _ => 1) (Q := avgR)
    (ops := walkOps k) (M := 3) (B := 7) (N := 1000)
    ⟨by decide, ⟨by decide +kernel, by decide +kernel, by decide +kernel, by decide +kernel, by decide +kernel, by decide +kernel⟩,
      fun _ h => absurd h List.not_mem_nil, by
      intro o ho
      rcases List.mem_cons.1 ho with rfl | ho
      · exact ⟨by decide, by decide +kernel, by decide +kernel, by decide +kernel, by decide +kernel, by decide +kernel, by decide +kernel,
          by decide +kernel, by decide +kernel, by decide +kernel, by decide +kernel⟩
      · obtain rfl := List.mem_singleton.1 ho
        exact ⟨by decide, by decide +kernel, by decide +kernel, by decide +kernel, by decide +kernel, by decide +kernel, by decide +kernel,
          by decide +kernel, by decide +kernel, by decide +kernel, by decide +kernel⟩⟩
    ⟨by decide +kernel, by decide +kernel, by decide +kernel, by decide +kernel, by decide +kernel, by decide +kernel⟩
    hl (by norm_num [abs_le]) (by norm_num [abs_le]) trivial (.inl Bin.one_val) (by decide +kernel) (by decide +kernel) walkX_range.1 walkX_range.2
    (by decide +kernel) (by rw [avgP_val]; norm_num) (le_of_eq avgP_val) ?_ ?_ (walk_paced k) ?_
  · intro s hs
    rw [hQ]
    rcases List.mem_cons.1 hs with rfl | hs
    · refine ⟨_, ![0], Matrix.of fun _ _ => 1, rfl, ⟨by decide +kernel, by decide +kernel, by decide +kernel, by decide +kernel, by decide +kernel,
        by decide +kernel, by decide +kernel, by decide +kernel, by decide +kernel, by decide +kernel⟩, hz.1, hz.2.1, hz.2.2, ?_⟩
      rw [Matrix.of_apply, Bin.one_val]
      refine ⟨by norm_num, by norm_num, by rw [e1]; norm_num, by rw [e1, e2]; norm_num, by linarith, by rw [e2]; norm_num⟩
    · obtain rfl := List.mem_singleton.1 hs
      refine ⟨_, ![0], avgR, rfl, ⟨by decide +kernel, by decide +kernel, by decide +kernel, by decide +kernel, by decide +kernel,
        by decide +kernel, by decide +kernel, by decide +kernel, by decide +kernel, by decide +kernel⟩, hz.1, hz.2.1, hz.2.2, ?_⟩
      rw [avgR_val]
      refine ⟨by norm_num, by norm_num, by rw [e1]; norm_num, by rw [e1, e2]; norm_num, by linarith, by rw [e2]; norm_num⟩
  · intro op ho
    have k0 : ∀ a : F32, (Op.setZ 0 [a]).WellFormed walker := fun _ => rfl
    have k1 : ∀ a : F32, (Op.setZ 1 [a]).WellFormed walker := fun _ => rfl
    have k3 : (Op.correct (T := F32) 0).WellFormed walker := by show 0 < 2; decide
    have k4 : (Op.correct (T := F32) 1).WellFormed walker := by show 1 < 2; decide
    have ho := walk_mem ho
    simp only [walkLoop, List.mem_cons, List.not_mem_nil, or_false] at ho
    rcases ho with rfl | rfl | rfl | rfl | rfl | rfl | rfl | rfl
    exacts [trivial, k0 _, k3, trivial, trivial, k1 _, k4, k3]
  · intro op ho
    have hs : ∀ (a : F32) i, a.Finite ∧ -(7 / 3) ≤ a.val ∧ a.val ≤ 3 → Spec.Ranged (-(7 / 3)) 3 7 (Op.setZ i [a]) := by
      intro a i h b hb
      obtain rfl := List.mem_singleton.1 hb
      exact h
    have ho := walk_mem ho
    simp only [walkLoop, List.mem_cons, List.not_mem_nil, or_false] at ho
    rcases ho with rfl | rfl | rfl | rfl | rfl | rfl | rfl | rfl
    exacts [trivial, hs _ _ f32_3_range, trivial, trivial, trivial, hs _ _ f32_7_3_range, trivial, trivial]

open Ex in
/-- The conditions hold, for any number of rounds, on fixed point numbers: the estimate never exceeds 10, the initial one. -/
example (k : Nat) : ∃ w' x', Chk.run (FixedPoint.debugOps 16) ⟨false, true⟩ fixedWalker (fixedWalk k) = .ok w' ∧ w'.kf.x.RepsV x' ∧
    -12000 ≤ (x' 0).val ∧ (x' 0).val ≤ 10 := by
  have v0 : (0 : I16F16).val = 0 := by rw [i16_val (z := 0) (by decide)]; norm_num
  have v1 : (1 : I16F16).val = 1 := by rw [i16_val (z := 65536) (by decide)]; norm_num
  have v2 : (whole16 2).val = 2 := by rw [i16_val (z := 131072) (by decide)]; norm_num
  have v3 : (whole16 3).val = 3 := by rw [i16_val (z := 196608) (by decide)]; norm_num
  have v4 : (whole16 (-12000)).val = -12000 := by rw [i16_val (z := -786432000) (by decide)]; norm_num
  have v7 : (whole16 7).val = 7 := by rw [i16_val (z := 458752) (by decide)]; norm_num
  have v10 : (whole16 10).val = 10 := by rw [i16_val (z := 655360) (by decide)]; norm_num
  have vq : (⟨8192⟩ : I16F16).val = 1 / 8 := by rw [i16_val (z := 8192) (by decide)]; norm_num
  have hb : ∀ r : ℝ, 1 ≤ r → r ≤ 20 → Spec.LastingFixed 16 16383 (1 / 8) 21 200 ∧ Spec.BalancedFixed 16 200 (1 / 8) 21 r :=
    fun r h1 h2 => C109_i16f16 (by norm_num) (by norm_num) h1 h2
  refine C111_with_overflow_checks ⟨false, true⟩ (w := fixedWalker) (x := fun _ => whole16 10) (P := Matrix.of fun _ _ => whole16 7)
    (A := Matrix.of fun _ _ => 1) (Q := Matrix.of fun _ _ => ⟨8192⟩) (ops := fixedWalk k) (M := 16383) (B := 21) (N := 200)
    ⟨by decide, ⟨by decide, by decide, by decide, by decide, by decide, by decide⟩,
      fun _ h => absurd h List.not_mem_nil, by
      intro o ho
      rcases List.mem_cons.1 ho with rfl | ho
      · exact ⟨by decide, by decide, by decide, by decide, by decide, by decide, by decide, by decide, by decide, by decide, by decide⟩
      · obtain rfl := List.mem_singleton.1 ho
        exact ⟨by decide, by decide, by decide, by decide, by decide, by decide, by decide, by decide, by decide, by decide, by decide⟩⟩
    ⟨by decide, by decide, by decide, by decide, by decide, by decide⟩
    (by simp only [Matrix.of_apply, vq]; exact (hb 1 le_rfl (by norm_num)).1) (by norm_num [abs_le]) (by norm_num [abs_le])
    (.inl (by simp only [Matrix.of_apply, v1])) (by simp only [v10]; norm_num) (by simp only [v10]; norm_num)
    (by simp only [Matrix.of_apply, v7]; norm_num) (by simp only [Matrix.of_apply, v7]; norm_num)
    ?_ ?_ (fixedWalk_paced k) ?_
  · intro s hs
    simp only [Matrix.of_apply, vq]
    rcases List.mem_cons.1 hs with rfl | hs
    · refine ⟨_, ![0], Matrix.of fun _ _ => 1, rfl, ⟨by decide, by decide, by decide, by decide, by decide,
        by decide, by decide, by decide, by decide, by decide⟩, ?_, ?_, ?_⟩
      · show -12000 ≤ (0 : I16F16).val
        rw [v0]; norm_num
      · show (0 : I16F16).val ≤ 10
        rw [v0]; norm_num
      · simp only [Matrix.of_apply, v1]
        exact (hb 1 le_rfl (by norm_num)).2
    · obtain rfl := List.mem_singleton.1 hs
      refine ⟨_, ![0], Matrix.of fun _ _ => whole16 2, rfl, ⟨by decide, by decide, by decide, by decide, by decide,
        by decide, by decide, by decide, by decide, by decide⟩, ?_, ?_, ?_⟩
      · show -12000 ≤ (0 : I16F16).val
        rw [v0]; norm_num
      · show (0 : I16F16).val ≤ 10
        rw [v0]; norm_num
      · simp only [Matrix.of_apply, v2]
        exact (hb 2 (by norm_num) (by norm_num)).2
  · intro op ho
    have ho := fixedWalk_mem ho
    simp only [fixedLoop, List.mem_cons, List.not_mem_nil, or_false] at ho
    have k3 : (Op.correct (T := I16F16) 0).WellFormed fixedWalker := by show 0 < 2; decide
    have k4 : (Op.correct (T := I16F16) 1).WellFormed fixedWalker := by show 1 < 2; decide
    rcases ho with rfl | rfl | rfl | rfl | rfl | rfl | rfl | rfl
    exacts [trivial, rfl, k3, trivial, trivial, rfl, k4, k3]
  · intro op ho
    have hs : ∀ (a : I16F16) i, -12000 ≤ a.val → a.val ≤ 10 → Spec.RangedFixed (-12000) 10 21 (Op.setZ i [a]) := by
      intro a i h1 h2 b hb
      obtain rfl := List.mem_singleton.1 hb
      exact ⟨h1, h2⟩
    have ho := fixedWalk_mem ho
    simp only [fixedLoop, List.mem_cons, List.not_mem_nil, or_false] at ho
    rcases ho with rfl | rfl | rfl | rfl | rfl | rfl | rfl | rfl
    exacts [trivial, hs _ _ (by rw [v3]; norm_num) (by rw [v3]; norm_num), trivial, trivial, trivial, hs _ _ (by rw [v4]) (by rw [v4]; norm_num),
      trivial, trivial]

open Ex in
/-- Without the condition on the sensors the claim is false: a sensor with the noise variance `2^-30` makes the gain 1, and the estimate moves from 1 past the
measurement (about `-1.5 * 2^-24`) to `-2^-23`, which is less. -/
example : (({ walker with kf := ⟨⟨[1]⟩, ⟨[1]⟩, ⟨[1]⟩, ⟨[0]⟩, ⟨[0]⟩, ⟨[0]⟩⟩, obs := [⟨1, oneSensor (f32 1 1073741824) (f32 (-3) 33554432)⟩] } : World 1 F32).run
    ⟨false, true⟩ [.correct 0]).map (fun w => w.kf.x.data.map Bin.rat) = .ok [some (-1 / 8388608)] ∧
    (-1 / 8388608 : ℚ) < -3 / 33554432 ∧ (f32 (-3) 33554432).rat = some (-3 / 33554432) := by
  refine ⟨by decide +kernel, by norm_num, by decide +kernel⟩

open Ex in
/-- The conditions of `C111_exact` hold for a random walk with a small variance and a sensor with a large one. -/
example [MDT ℝ] [ExactReal] : ∃ w' x', (walkWorld 2 3).run ⟨false, true⟩ (walkCycle 2) = .ok w' ∧ w'.kf.x.RepsV x' ∧ 2 ≤ x' 0 ∧ x' 0 ≤ 5 := by
  refine C111_exact ⟨false, true⟩ (walk_reps 2 3) (walk_psd 2 (by norm_num)) (L := 2) (H := 5)
    ⟨le_rfl, show (2 : ℝ) ≤ 5 by norm_num⟩ (.inl (by simp [walkState, one1]))
    ?_ (walk_ok 2 3 2) ?_ ?_ ?_
  · intro o ho
    simp only [walkState, List.mem_singleton] at ho
    subst ho
    refine ⟨_, rfl, ?_, by norm_num, le_rfl⟩
    ext i j
    fin_cases i; fin_cases j
    simp [one1, Spec.direct]
  · simp only [walkCycle, List.mem_cons, List.not_mem_nil, or_false, forall_eq_or_imp, forall_eq]
    exact ⟨trivial, trivial, trivial⟩
  · simp only [walkCycle, List.mem_cons, List.not_mem_nil, or_false, forall_eq_or_imp, forall_eq]
    exact ⟨trivial, trivial, trivial⟩
  · simp only [walkCycle, List.mem_cons, List.not_mem_nil, or_false, forall_eq_or_imp, forall_eq]
    refine ⟨fun a ha => ?_, trivial, trivial⟩
    obtain rfl := List.mem_singleton.1 ha
    norm_num

end Minikalman
