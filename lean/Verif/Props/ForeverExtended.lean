import Verif.Proofs.ForeverExtendedDebug
import Verif.Proofs.CertificateRun
import Verif.Props.Forever
import Verif.Props.ForeverFixed

/-!
# Property C110: an extended filter with one state runs forever
-/

namespace Minikalman

open Matrix FixedPoint

variable {fmt : Format} {f : Nat} {σ : Type}

theorem xrun_after {T : Type} {n : Nat} [Zero T] [One T] [Add T] [Sub T] [Mul T] [Neg T] [MDT T] (bld : Build) {v v1 : XWorld n T σ}
    {a b : List (XOp n T σ)} (h : v.run bld a = .ok v1) : v.run bld (a ++ b) = v1.run bld b := by
  induction a generalizing v with
  | nil => cases h; rfl
  | cons op a ih =>
    simp only [XWorld.run] at h
    obtain ⟨v2, h1, h2⟩ := bind_ok h
    simp only [List.cons_append, XWorld.run, h1, res_bind_ok]
    exact ih h2

theorem xplain_wellFormed {T : Type} {n : Nat} {w : XWorld n T σ} {op : XOp n T σ} (h : op.WellFormed w) : op.plain.WellFormed w.asRegular := by
  cases op with
  | predict => trivial
  | predictTuned => trivial
  | correct i g =>
    show i < (w.obs.map _).length
    rw [List.length_map]
    exact h
  | assign a => exact h

/-! ## Floating point -/

/-- C110: an extended filter with one state, process noise `q >= 0` and Jacobians `|A| <= 1` and `H = 1`, in floating point arithmetic, with any number of
sensors that are not too precise for the format. The state function may be any function that maps states of at most `X` to such states, and the
measurement functions any functions that differ from the state by at most `D`. Let the measurements be at most `Z`, the initial state at most
`X >= 2 (Z + D)` and the initial variance between 0 and `B`. After any sequence of predictions (at most `N` without a correction), corrections by any
of the sensors, new measurements, states, variances and Jacobians `A` within these bounds, however long it is: nothing has panicked, the state is finite and
at most `X`, and the variance finite, not negative and at most `2 (B + N q)`. -/
theorem C110_runs_forever (bld : Build) {X Z D B : ℝ} {N : Nat} {w : XWorld 1 (Bin fmt) σ} {x A P Q} (hv : w.Valid)
    (hf : w.kf.asRegular.Reps x A P Q)
    (hl : Spec.Lasting fmt X (Q 0 0).val B N) (hD : 0 ≤ D) (hZ : 2 * (Z + D) ≤ X) (hA : (A 0 0).Finite) (hA1 : |(A 0 0).val| ≤ 1) (hQ : (Q 0 0).Finite)
    (hx : (x 0).Finite) (hxX : |(x 0).val| ≤ X) (hP : (P 0 0).Finite) (hP0 : 0 ≤ (P 0 0).val) (hPB : (P 0 0).val ≤ B)
    (hobs : ∀ s ∈ w.obs, ∃ (o : ExtendedObservation 1 1 (Bin fmt)) (z : _) (R : _), s = ⟨1, o⟩ ∧ o.asRegular.Reps (Spec.direct 0) z R ∧
      (z 0).Finite ∧ |(z 0).val| ≤ Z ∧ Spec.Balanced fmt N (Q 0 0).val B (R 0 0).val)
    {ops : List (XOp 1 (Bin fmt) σ)} (hops : ∀ op ∈ ops, op.WellFormed w) (hpc : Spec.Paced N 0 (ops.map XOp.plain))
    (ht : ∀ op ∈ ops, Spec.XTame X Z D B op) :
    ∃ w' x' P', w.run bld ops = .ok w' ∧ w'.kf.x.RepsV x' ∧ w'.kf.P.Reps P' ∧ (x' 0).Finite ∧ |(x' 0).val| ≤ X ∧
      (P' 0 0).Finite ∧ 0 ≤ (P' 0 0).val ∧ (P' 0 0).val ≤ 2 * (B + N * (Q 0 0).val) := by
  have hw : w.asRegular.Runs X Z (Q 0 0).val B N 0 := by
    refine ⟨⟨x, A, P, Q, hf, hA, hA1, hQ, rfl, hx, hxX, hP, hP0, by simpa using hPB⟩, ?_⟩
    intro s hs
    obtain ⟨s, hm, rfl⟩ := List.mem_map.1 hs
    obtain ⟨o, z, R, rfl, h⟩ := hobs s hm
    exact ⟨_, z, R, rfl, h⟩
  obtain ⟨w', c, h1, _, _, k1, _, ⟨x', _, P', _, g1, _, _, _, _, g2, g3, g4, g5, g6⟩, _⟩ := xforever_run (rest := []) bld hl hD hZ (Nat.zero_le _) hv
    hw hops (by rwa [List.append_nil]) ht
  exact ⟨w', x', P', h1, g1.x, g1.P, g2, g3, g4, g5, g6.trans (hl.bound k1)⟩

/-- C110: the variance is at most `B` after every correction. -/
theorem C110_after_correction (bld : Build) {X Z D B : ℝ} {N : Nat} {w : XWorld 1 (Bin fmt) σ} {x A P Q} (hv : w.Valid)
    (hf : w.kf.asRegular.Reps x A P Q)
    (hl : Spec.Lasting fmt X (Q 0 0).val B N) (hD : 0 ≤ D) (hZ : 2 * (Z + D) ≤ X) (hA : (A 0 0).Finite) (hA1 : |(A 0 0).val| ≤ 1) (hQ : (Q 0 0).Finite)
    (hx : (x 0).Finite) (hxX : |(x 0).val| ≤ X) (hP : (P 0 0).Finite) (hP0 : 0 ≤ (P 0 0).val) (hPB : (P 0 0).val ≤ B)
    (hobs : ∀ s ∈ w.obs, ∃ (o : ExtendedObservation 1 1 (Bin fmt)) (z : _) (R : _), s = ⟨1, o⟩ ∧ o.asRegular.Reps (Spec.direct 0) z R ∧
      (z 0).Finite ∧ |(z 0).val| ≤ Z ∧ Spec.Balanced fmt N (Q 0 0).val B (R 0 0).val)
    {ops : List (XOp 1 (Bin fmt) σ)} {i : Nat} {h : (m : Nat) → σ → Mat 1 1 (Bin fmt) → Mat m 1 (Bin fmt) → Res (σ × Mat m 1 (Bin fmt))}
    (hops : ∀ op ∈ ops ++ [XOp.correct i h], op.WellFormed w) (hpc : Spec.Paced N 0 ((ops ++ [XOp.correct i h]).map XOp.plain))
    (ht : ∀ op ∈ ops ++ [XOp.correct i h], Spec.XTame X Z D B op) :
    ∃ w' P', w.run bld (ops ++ [XOp.correct i h]) = .ok w' ∧ w'.kf.P.Reps P' ∧ (P' 0 0).Finite ∧ 0 ≤ (P' 0 0).val ∧ (P' 0 0).val ≤ B := by
  have hw : w.asRegular.Runs X Z (Q 0 0).val B N 0 := by
    refine ⟨⟨x, A, P, Q, hf, hA, hA1, hQ, rfl, hx, hxX, hP, hP0, by simpa using hPB⟩, ?_⟩
    intro s hs
    obtain ⟨s, hm, rfl⟩ := List.mem_map.1 hs
    obtain ⟨o, z, R, rfl, h⟩ := hobs s hm
    exact ⟨_, z, R, rfl, h⟩
  obtain ⟨w1, c, h1, h2, h3, k1, k2, k3⟩ := xforever_run bld hl hD hZ (Nat.zero_le _) hv hw
    (fun op ho => hops op (List.mem_append_left _ ho)) hpc (fun op ho => ht op (List.mem_append_left _ ho))
  obtain ⟨w2, c', j1, _, _, _, _, ⟨⟨_, _, P', _, g1, _, _, _, _, _, _, g4, g5, g6⟩, _⟩, j2⟩ := xforever_step (op := .correct i h) (ops := []) bld hl hD hZ k1 h2 k3
    ((hops _ (List.mem_append_right _ (List.mem_singleton.2 rfl))).congr h3) k2 (ht _ (List.mem_append_right _ (List.mem_singleton.2 rfl)))
  obtain rfl := j2 i h rfl
  refine ⟨w2, P', ?_, g1.P, g4, g5, by simpa using g6⟩
  rw [xrun_after bld h1]
  show (w1.step bld (.correct i h) >>= fun v => v.run bld []) = _
  rw [j1]
  rfl

/-- C110: the bounds on the variance hold for any functions that do not panic and keep the length of the buffers, and any states and measurements,
infinities and NaN included. -/
theorem C110_any_functions (bld : Build) {B : ℝ} {N : Nat} {w : XWorld 1 (Bin fmt) σ} {x A P Q} (hv : w.Valid) (hf : w.kf.asRegular.Reps x A P Q)
    (hl : Spec.Lasting fmt 0 (Q 0 0).val B N) (hA : (A 0 0).Finite) (hA1 : |(A 0 0).val| ≤ 1) (hQ : (Q 0 0).Finite)
    (hP : (P 0 0).Finite) (hP0 : 0 ≤ (P 0 0).val) (hPB : (P 0 0).val ≤ B)
    (hobs : ∀ s ∈ w.obs, ∃ (o : ExtendedObservation 1 1 (Bin fmt)) (z : _) (R : _), s = ⟨1, o⟩ ∧ o.asRegular.Reps (Spec.direct 0) z R ∧
      Spec.Balanced fmt N (Q 0 0).val B (R 0 0).val)
    {ops : List (XOp 1 (Bin fmt) σ)} (hops : ∀ op ∈ ops, op.WellFormed w) (hpc : Spec.Paced N 0 (ops.map XOp.plain))
    (hk : ∀ op ∈ ops, op.KeepsLength ∧ op.Total) (ht : ∀ op ∈ ops, Spec.TameModel B op.plain) :
    ∃ w' P', w.run bld ops = .ok w' ∧ w'.kf.P.Reps P' ∧
      (P' 0 0).Finite ∧ 0 ≤ (P' 0 0).val ∧ (P' 0 0).val ≤ 2 * (B + N * (Q 0 0).val) := by
  have hops' : ∀ op ∈ ops, op.plain.WellFormed w.asRegular := fun op ho => xplain_wellFormed (hops op ho)
  obtain ⟨v, P', k1, k2, k3⟩ := C108_any_data bld (w := w.asRegular) (ops := ops.map XOp.plain) hv hf hl hA hA1 hQ hP hP0 hPB
    (by
      intro s hs
      obtain ⟨s, hm, rfl⟩ := List.mem_map.1 hs
      obtain ⟨o, z, R, rfl, h⟩ := hobs s hm
      exact ⟨_, z, R, rfl, h⟩)
    (by
      intro op ho
      obtain ⟨op, hm, rfl⟩ := List.mem_map.1 ho
      exact hops' op hm)
    hpc
    (by
      intro op ho
      obtain ⟨op, hm, rfl⟩ := List.mem_map.1 ho
      exact ht op hm)
  rcases C106_bitwise bld hv hv (World.CovEq.refl w.asRegular) hops hops' hk with ⟨e, _, g⟩ | ⟨w', v', g1, g2, _, g4⟩
  · rw [k1] at g; cases g
  · rw [k1] at g2
    cases g2
    exact ⟨w', P', g1, g4.symm.reps k2, k3⟩

/-! ## Fixed point -/

/-- A closure on numbers that watch for overflows. -/
def watchClosure {m : Nat} (g : σ → Mat 1 1 (FixedPoint f) → Mat m 1 (FixedPoint f) → Res (σ × Mat m 1 (FixedPoint f))) :
    σ → Mat 1 1 (Watched f) → Mat m 1 (Watched f) → Res (σ × Mat m 1 (Watched f)) :=
  fun st x out => (g st (x.mapCells Watched.num) (out.mapCells Watched.num)).map fun r => (r.1, r.2.mapCells Watched.fresh)

/-- A call with watched numbers. -/
def XOp.watch : XOp 1 (FixedPoint f) σ → XOp 1 (Watched f) σ
  | .predict g => .predict (watchClosure g)
  | .predictTuned l g => .predictTuned (.fresh l) (watchClosure g)
  | .correct i h => .correct i fun m => watchClosure (h m)
  | .assign (.x v) => .assign (.x (v.map .fresh))
  | .assign (.A v) => .assign (.A (v.map .fresh))
  | .assign (.P v) => .assign (.P (v.map .fresh))
  | .assign (.Q v) => .assign (.Q (v.map .fresh))
  | .assign (.z i v) => .assign (.z i (v.map .fresh))
  | .assign (.H i v) => .assign (.H i (v.map .fresh))
  | .assign (.R i v) => .assign (.R i (v.map .fresh))

/-- A program with watched numbers. -/
def XWorld.watch (w : XWorld 1 (FixedPoint f) σ) : XWorld 1 (Watched f) σ :=
  ⟨(w.kf.asRegular.mapCells .fresh).asExtended, w.obs.map fun o => ⟨o.1, (o.2.asRegular.mapCells .fresh).asExtended⟩, w.env⟩

theorem watch_asRegular (w : XWorld 1 (FixedPoint f) σ) : w.watch.asRegular = w.asRegular.mapCells Watched.fresh := by
  simp [XWorld.watch, XWorld.asRegular, World.mapCells, Function.comp_def]

theorem mat_watch {R C : Nat} (m : Mat R C (FixedPoint f)) : (m.mapCells Watched.fresh).Related (fun a b => a.num = b) m :=
  Param.mat_fun.2 (by rw [Param.mat_map_map]; exact Param.mat_map_id _)

theorem list_watch (v : List (FixedPoint f)) : List.Forall₂ (fun (a : Watched f) b => a.num = b) (v.map Watched.fresh) v := by
  induction v with
  | nil => exact .nil
  | cons a v ih => exact .cons rfl ih

theorem closure_watch {m : Nat} (g : σ → Mat 1 1 (FixedPoint f) → Mat m 1 (FixedPoint f) → Res (σ × Mat m 1 (FixedPoint f))) :
    ClosureRelated Eq (fun (a : Watched f) b => a.num = b) (watchClosure g) g := by
  rintro st _ x x' y y' rfl hx hy
  obtain rfl := Param.mat_fun.1 hx
  obtain rfl := Param.mat_fun.1 hy
  unfold watchClosure
  cases g st (x.mapCells Watched.num) (y.mapCells Watched.num) with
  | error e => rfl
  | ok r => exact ⟨rfl, mat_watch _⟩

theorem watch_related (w : XWorld 1 (FixedPoint f) σ) : w.watch.Related Eq (fun a b => a.num = b) w := by
  refine ⟨⟨mat_watch _, mat_watch _, mat_watch _, mat_watch _, mat_watch _, mat_watch _⟩, ?_, rfl⟩
  unfold XWorld.watch
  dsimp only
  induction w.obs with
  | nil => exact .nil
  | cons o os ih =>
    refine .cons ?_ ih
    obtain ⟨m, o⟩ := o
    exact .mk ⟨mat_watch _, mat_watch _, mat_watch _, mat_watch _, mat_watch _, mat_watch _, mat_watch _, mat_watch _, mat_watch _, mat_watch _⟩

theorem xop_watch_related (op : XOp 1 (FixedPoint f) σ) : op.watch.Related Eq (fun a b => a.num = b) op := by
  cases op with
  | predict g => exact .predict (closure_watch g)
  | predictTuned l g => exact .predictTuned rfl (closure_watch g)
  | correct i h => exact .correct i fun m => closure_watch (h m)
  | assign a =>
    cases a with
    | x v => exact .assign (.x (list_watch v))
    | A v => exact .assign (.A (list_watch v))
    | P v => exact .assign (.P (list_watch v))
    | Q v => exact .assign (.Q (list_watch v))
    | z i v => exact .assign (.z i (list_watch v))
    | H i v => exact .assign (.H i (list_watch v))
    | R i v => exact .assign (.R i (list_watch v))

theorem xop_watch_plain (op : XOp 1 (FixedPoint f) σ) : op.watch.plain = op.plain.mapCells Watched.fresh := by
  cases op with
  | assign a => cases a <;> rfl
  | _ => rfl

theorem xunwatch (bld : Build) {w : XWorld 1 (FixedPoint f) σ} {ops : List (XOp 1 (FixedPoint f) σ)} {w' : XWorld 1 (Watched f) σ}
    (h : w.watch.run bld (ops.map XOp.watch) = .ok w') :
    ∃ w1, w.run bld ops = .ok w1 ∧ w1.kf.x = w'.kf.x.mapCells Watched.num ∧ w1.kf.P = w'.kf.P.mapCells Watched.num := by
  have h1 := C86_related_extended_runs Watched.scalarRel bld (watch_related w) (ops := ops.map XOp.watch) (ops' := ops) (by
    clear h
    induction ops with
    | nil => exact .nil
    | cons op ops ih => exact .cons (xop_watch_related op) ih)
  rw [h] at h1
  cases e : w.run bld ops with
  | error p => rw [e] at h1; exact h1.elim
  | ok w1 =>
    rw [e] at h1
    have h1 : w'.Related Eq (fun a b => a.num = b) w1 := h1
    exact ⟨w1, rfl, (Param.mat_fun.1 h1.kf.x).symm, (Param.mat_fun.1 h1.kf.P).symm⟩

theorem watch_tame {X Z D B : ℝ} {op : XOp 1 (FixedPoint f) σ} (h : Spec.XTameFixed X Z D B op) : XTameWatched X Z D B op.watch := by
  cases op with
  | predictTuned l g => exact h.elim
  | predict g =>
    rintro st x out a hl ⟨ha, _, haX⟩
    obtain ⟨st', out', b, k1, k2, k3, k4⟩ := h st (x.mapCells Watched.num) (out.mapCells Watched.num) a.num (by simpa [Mat.mapCells] using hl)
      ⟨by simp [Mat.mapCells, ha], haX⟩
    refine ⟨st', out'.mapCells Watched.fresh, .fresh b, ?_, ?_, ?_, rfl, k4⟩
    · unfold watchClosure
      rw [k1]
      rfl
    · simpa [Mat.mapCells] using k2
    · simp [Mat.mapCells, k3]
  | correct i g =>
    rintro st x out a hl ⟨ha, _, haX⟩
    obtain ⟨st', out', b, k1, k2, k3, k4⟩ := h st (x.mapCells Watched.num) (out.mapCells Watched.num) a.num (by simpa [Mat.mapCells] using hl)
      ⟨by simp [Mat.mapCells, ha], haX⟩
    refine ⟨st', out'.mapCells Watched.fresh, .fresh b, ?_, ?_, ?_, rfl, k4⟩
    · show watchClosure (g 1) st x out = _
      unfold watchClosure
      rw [k1]
      rfl
    · simpa [Mat.mapCells] using k2
    · simp [Mat.mapCells, k3]
  | assign a =>
    have h : Spec.TameFixed X Z B a.toOp := h
    cases a <;> exact fresh_tame h

theorem watch_wellFormed {w : XWorld 1 (FixedPoint f) σ} {op : XOp 1 (FixedPoint f) σ} (h : op.WellFormed w) : op.watch.WellFormed w.watch := by
  cases op with
  | predict => trivial
  | predictTuned => trivial
  | correct i g =>
    show i < (w.obs.map _).length
    rw [List.length_map]
    exact h
  | assign a =>
    have h : a.toOp.WellFormed w.asRegular := h
    have h1 := fresh_wellFormed Watched.fresh h
    rw [← watch_asRegular] at h1
    cases a <;> exact h1

/-- C110: the same on a fixed point type with as many integer as fractional bits (in a build without overflow checks): the state stays at most `X`, where
`X >= Z + D`, and the variance between 0 and `B + N q`. -/
theorem C110_fixed_runs_forever (bld : Build) {X Z D B : ℝ} {N : Nat} {w : XWorld 1 (FixedPoint f) σ} {x A P Q} (hv : w.Valid)
    (hf : w.kf.asRegular.Reps x A P Q)
    (hl : Spec.LastingFixed f X (Q 0 0).val B N) (hD : 0 ≤ D) (hZ : Z + D ≤ X) (hA1 : |(A 0 0).val| ≤ 1) (hxX : |(x 0).val| ≤ X) (hP0 : 0 ≤ (P 0 0).val)
    (hPB : (P 0 0).val ≤ B)
    (hobs : ∀ s ∈ w.obs, ∃ (o : ExtendedObservation 1 1 (FixedPoint f)) (z : _) (R : _), s = ⟨1, o⟩ ∧ o.asRegular.Reps (Spec.direct 0) z R ∧
      |(z 0).val| ≤ Z ∧ Spec.BalancedFixed f N (Q 0 0).val B (R 0 0).val)
    {ops : List (XOp 1 (FixedPoint f) σ)} (hops : ∀ op ∈ ops, op.WellFormed w) (hpc : Spec.Paced N 0 (ops.map XOp.plain))
    (ht : ∀ op ∈ ops, Spec.XTameFixed X Z D B op) :
    ∃ w' x' P', w.run bld ops = .ok w' ∧ w'.kf.x.RepsV x' ∧ w'.kf.P.Reps P' ∧ |(x' 0).val| ≤ X ∧
      0 ≤ (P' 0 0).val ∧ (P' 0 0).val ≤ B + N * (Q 0 0).val := by
  have hw : w.watch.asRegular.RunsFixed X Z (Q 0 0).val B N 0 := by
    rw [watch_asRegular]
    refine fresh_runs hf hA1 hxX hP0 hPB ?_
    intro s hs
    obtain ⟨s, hm, rfl⟩ := List.mem_map.1 hs
    obtain ⟨o, z, R, rfl, h⟩ := hobs s hm
    exact ⟨_, z, R, rfl, h⟩
  have hwv : w.watch.Valid := by
    show w.watch.asRegular.Valid
    rw [watch_asRegular]
    exact fresh_world_valid _ hv
  have hpc' := fresh_paced Watched.fresh hpc
  obtain ⟨w', c, h1, _, _, k1, _, ⟨x', _, P', _, g1, _, _, _, _, _, g3, _, g5, g6⟩, _⟩ := xforever_run_fixed (rest := []) bld hl hD hZ (Nat.zero_le _) hwv
    hw (ops := ops.map XOp.watch)
    (by
      intro op ho
      obtain ⟨op, hm, rfl⟩ := List.mem_map.1 ho
      exact watch_wellFormed (hops op hm))
    (by
      rw [List.append_nil, List.map_map, show XOp.plain ∘ XOp.watch = Op.mapCells Watched.fresh ∘ XOp.plain (n := 1) (T := FixedPoint f) (σ := σ) from
        funext xop_watch_plain, ← List.map_map]
      exact hpc')
    (by
      intro op ho
      obtain ⟨op, hm, rfl⟩ := List.mem_map.1 ho
      exact watch_tame (ht op hm))
  obtain ⟨w1, j1, j2, j3⟩ := xunwatch bld h1
  have e1 : w1.kf.x.RepsV fun i => (x' i).num := by
    rw [j2]
    exact fresh_repsV Watched.num g1.x
  have e2 : w1.kf.P.Reps (P'.map Watched.num) := by
    rw [j3]
    exact fresh_reps Watched.num g1.P
  have hc : (c : ℝ) ≤ N := by exact_mod_cast k1
  have hq := mul_le_mul_of_nonneg_right hc hl.noise
  exact ⟨w1, _, _, j1, e1, e2, g3, g5, g6.trans (by linarith)⟩

/-- C110: on fixed point numbers the variance is at most `B` after every correction, too. -/
theorem C110_fixed_after_correction (bld : Build) {X Z D B : ℝ} {N : Nat} {w : XWorld 1 (FixedPoint f) σ} {x A P Q} (hv : w.Valid)
    (hf : w.kf.asRegular.Reps x A P Q)
    (hl : Spec.LastingFixed f X (Q 0 0).val B N) (hD : 0 ≤ D) (hZ : Z + D ≤ X) (hA1 : |(A 0 0).val| ≤ 1) (hxX : |(x 0).val| ≤ X) (hP0 : 0 ≤ (P 0 0).val)
    (hPB : (P 0 0).val ≤ B)
    (hobs : ∀ s ∈ w.obs, ∃ (o : ExtendedObservation 1 1 (FixedPoint f)) (z : _) (R : _), s = ⟨1, o⟩ ∧ o.asRegular.Reps (Spec.direct 0) z R ∧
      |(z 0).val| ≤ Z ∧ Spec.BalancedFixed f N (Q 0 0).val B (R 0 0).val)
    {ops : List (XOp 1 (FixedPoint f) σ)} {i : Nat}
    {h : (m : Nat) → σ → Mat 1 1 (FixedPoint f) → Mat m 1 (FixedPoint f) → Res (σ × Mat m 1 (FixedPoint f))}
    (hops : ∀ op ∈ ops ++ [XOp.correct i h], op.WellFormed w) (hpc : Spec.Paced N 0 ((ops ++ [XOp.correct i h]).map XOp.plain))
    (ht : ∀ op ∈ ops ++ [XOp.correct i h], Spec.XTameFixed X Z D B op) :
    ∃ w' P', w.run bld (ops ++ [XOp.correct i h]) = .ok w' ∧ w'.kf.P.Reps P' ∧ 0 ≤ (P' 0 0).val ∧ (P' 0 0).val ≤ B := by
  have hw : w.watch.asRegular.RunsFixed X Z (Q 0 0).val B N 0 := by
    rw [watch_asRegular]
    refine fresh_runs hf hA1 hxX hP0 hPB ?_
    intro s hs
    obtain ⟨s, hm, rfl⟩ := List.mem_map.1 hs
    obtain ⟨o, z, R, rfl, h⟩ := hobs s hm
    exact ⟨_, z, R, rfl, h⟩
  have hwv : w.watch.Valid := by
    show w.watch.asRegular.Valid
    rw [watch_asRegular]
    exact fresh_world_valid _ hv
  have hpc' := fresh_paced Watched.fresh hpc
  have e0 : XOp.plain ∘ XOp.watch = Op.mapCells Watched.fresh ∘ XOp.plain (n := 1) (T := FixedPoint f) (σ := σ) := funext xop_watch_plain
  have hpc' : Spec.Paced N 0 ((ops.map XOp.watch ++ [(XOp.correct i h).watch]).map XOp.plain) := by
    rw [← List.map_singleton, ← List.map_append, List.map_map, e0, ← List.map_map]
    exact hpc'
  obtain ⟨w1, c, h1, h2, h3, k1, k2, k3⟩ := xforever_run_fixed bld hl hD hZ (Nat.zero_le _) hwv hw (ops := ops.map XOp.watch)
    (by
      intro op ho
      obtain ⟨op, hm, rfl⟩ := List.mem_map.1 ho
      exact watch_wellFormed (hops op (List.mem_append_left _ hm)))
    hpc'
    (by
      intro op ho
      obtain ⟨op, hm, rfl⟩ := List.mem_map.1 ho
      exact watch_tame (ht op (List.mem_append_left _ hm)))
  have hlast : XOp.correct i h ∈ ops ++ [XOp.correct i h] := List.mem_append_right _ (List.mem_singleton.2 rfl)
  obtain ⟨w2, c', j1, _, _, _, _, ⟨⟨_, _, P', _, g1, _, _, _, _, _, _, _, g5, g6⟩, _⟩, j2⟩ := xforever_step_fixed (op := (XOp.correct i h).watch) (ops := [])
    bld hl hD hZ k1 h2 k3 ((watch_wellFormed (hops _ hlast)).congr h3) k2 (watch_tame (ht _ hlast))
  obtain rfl := j2 i _ rfl
  obtain ⟨w', q1, _, q3⟩ := xunwatch (ops := ops ++ [XOp.correct i h]) (w' := w2) bld (by
    rw [List.map_append, xrun_after bld h1]
    show (w1.step bld (XOp.correct i h).watch >>= fun v => v.run bld []) = _
    rw [j1]
    rfl)
  have e2 : w'.kf.P.Reps (P'.map Watched.num) := by
    rw [q3]
    exact fresh_reps Watched.num g1.P
  exact ⟨w', _, q1, e2, g5, by simpa using g6⟩

/-- C110: on fixed point numbers too, the bounds on the variance hold for any functions that do not panic and keep the length of the buffers. -/
theorem C110_fixed_any_functions (bld : Build) {B : ℝ} {N : Nat} {w : XWorld 1 (FixedPoint f) σ} {x A P Q} (hv : w.Valid)
    (hf : w.kf.asRegular.Reps x A P Q)
    (hl : Spec.LastingFixed f 0 (Q 0 0).val B N) (hA1 : |(A 0 0).val| ≤ 1) (hP0 : 0 ≤ (P 0 0).val) (hPB : (P 0 0).val ≤ B)
    (hobs : ∀ s ∈ w.obs, ∃ (o : ExtendedObservation 1 1 (FixedPoint f)) (z : _) (R : _), s = ⟨1, o⟩ ∧ o.asRegular.Reps (Spec.direct 0) z R ∧
      Spec.BalancedFixed f N (Q 0 0).val B (R 0 0).val)
    {ops : List (XOp 1 (FixedPoint f) σ)} (hops : ∀ op ∈ ops, op.WellFormed w) (hpc : Spec.Paced N 0 (ops.map XOp.plain))
    (hk : ∀ op ∈ ops, op.KeepsLength ∧ op.Total) (ht : ∀ op ∈ ops, Spec.TameModelFixed B op.plain) :
    ∃ w' P', w.run bld ops = .ok w' ∧ w'.kf.P.Reps P' ∧ 0 ≤ (P' 0 0).val ∧ (P' 0 0).val ≤ B + N * (Q 0 0).val := by
  have hops' : ∀ op ∈ ops, op.plain.WellFormed w.asRegular := fun op ho => xplain_wellFormed (hops op ho)
  obtain ⟨v, P', k1, k2, k3⟩ := C109_any_data bld (w := w.asRegular) (ops := ops.map XOp.plain) hv hf hl hA1 hP0 hPB
    (by
      intro s hs
      obtain ⟨s, hm, rfl⟩ := List.mem_map.1 hs
      obtain ⟨o, z, R, rfl, h⟩ := hobs s hm
      exact ⟨_, z, R, rfl, h⟩)
    (by
      intro op ho
      obtain ⟨op, hm, rfl⟩ := List.mem_map.1 ho
      exact hops' op hm)
    hpc
    (by
      intro op ho
      obtain ⟨op, hm, rfl⟩ := List.mem_map.1 ho
      exact ht op hm)
  rcases C106_bitwise bld hv hv (World.CovEq.refl w.asRegular) hops hops' hk with ⟨e, _, g⟩ | ⟨w', v', g1, g2, _, g4⟩
  · rw [k1] at g; cases g
  · rw [k1] at g2
    cases g2
    exact ⟨w', P', g1, g4.symm.reps k2, k3⟩

theorem xstep_related (bld : Build) {w w1 : XWorld 1 (Watched f) σ} {u : XWorld 1 (FixedPoint f) σ} (h : w.Related Eq (fun a b => a.num = b) u)
    {op : XOp 1 (FixedPoint f) σ} (h1 : w.step bld op.watch = .ok w1) :
    ∃ u1, u.step bld op = .ok u1 ∧ w1.Related Eq (fun a b => a.num = b) u1 := by
  have hr := C86_related_extended_runs Watched.scalarRel bld h (ops := [op.watch]) (ops' := [op]) (.cons (xop_watch_related op) .nil)
  have e1 : w.run bld [op.watch] = .ok w1 := by
    simp only [XWorld.run, h1, res_bind_ok]
  rw [e1] at hr
  cases e : u.step bld op with
  | error p =>
    have e2 : u.run bld [op] = .error p := by
      simp only [XWorld.run, e, res_bind_error]
    rw [e2] at hr
    exact hr.elim
  | ok u1 =>
    have e2 : u.run bld [op] = .ok u1 := by
      simp only [XWorld.run, e, res_bind_ok]
    rw [e2] at hr
    exact ⟨u1, rfl, hr⟩

theorem xforever_step_debug (bld : Build) {X Z D q B : ℝ} {N c : Nat} (hl : Spec.LastingFixed f X q B N) (hD : 0 ≤ D) (hZ : Z + D ≤ X) (hcN : c ≤ N)
    {w : XWorld 1 (Watched f) σ} {u : XWorld 1 (FixedPoint f) σ} (hv : w.Valid) (hr : w.Related Eq (fun a b => a.num = b) u)
    (hw : w.asRegular.RunsFixed X Z q B N c) {op : XOp 1 (FixedPoint f) σ} {ops : List (XOp 1 (Watched f) σ)}
    (hop : op.watch.WellFormed w) (hpc : Spec.Paced N c ((op.watch :: ops).map XOp.plain)) (ht : Spec.XTameFixed X Z D B op) :
    ∃ r, Chk.xstep (FixedPoint.debugOps f) bld u op = .ok r := by
  have hw0 := hw
  obtain ⟨⟨x, A, P, Q, hk, ha, ha1, hq, hqv, hx, hxX, hp, hp0, hp1⟩, hobs⟩ := hw
  have hx0 : w.kf.x.data[0]? = some (x 0) := Mat.repsV_iff.1 hk.x 0 0
  have hux := related_head hr.kf.x hx0
  cases op with
  | predict g =>
    obtain ⟨hc, _⟩ : c < N ∧ Spec.Paced N (c + 1) (ops.map XOp.plain) := hpc
    have hb := hl.bound (c := c + 1) hc
    push_cast at hb
    have hlim : (P 0 0).num.val + (Q 0 0).num.val < lim f := by
      have := hl.variance
      rw [hqv]
      linarith
    obtain ⟨v1, _, _⟩ := predict_grows hl.bits ha ha1 hq (hqv ▸ hl.noise) hp hp0 hlim
    have hpx : 0 < u.kf.predictedX.data.length := by
      rw [related_length hr.kf.predictedX]
      exact hv.kf.predictedX
    obtain ⟨st', out', b, hg, _, hb0, _⟩ := ht u.env u.kf.x u.kf.predictedX _ hpx ⟨hux, hxX⟩
    obtain ⟨r, hr'⟩ := debug_xpredict (a := A 0 0) (p := P 0 0) (q := Q 0 0) (k := u.kf) (related_head hr.kf.A (hk.A 0 0)) (related_head hr.kf.P (hk.P 0 0))
      (related_head hr.kf.Q (hk.Q 0 0))
      ⟨related_mat_valid hr.kf.x hv.kf.x, related_mat_valid hr.kf.A hv.kf.A, related_mat_valid hr.kf.P hv.kf.P, related_mat_valid hr.kf.Q hv.kf.Q,
        related_mat_valid hr.kf.predictedX hv.kf.predictedX, related_mat_valid hr.kf.tempP hv.kf.tempP⟩ hg hb0 v1
    exact ⟨_, by simp only [Chk.xstep, hr', res_bind_ok]; rfl⟩
  | correct i h =>
    have hi : w.obs[i]? = some w.obs[i] := List.getElem?_eq_getElem hop
    revert hi
    generalize w.obs[i] = oo
    intro hi
    obtain ⟨t, hti, hrel⟩ := related_get hr hi
    cases hrel with
    | @mk m o p hop' =>
    have hmem : (⟨m, o.asRegular⟩ : (m : Nat) × RegularObservation 1 m (Watched f)) ∈ w.asRegular.obs :=
      List.mem_map.2 ⟨_, List.mem_of_getElem? hi, rfl⟩
    obtain ⟨o', z, R, e, ho, hzf, hzX, hRc, hR⟩ := hobs _ hmem
    obtain rfl : m = 1 := congrArg Sigma.fst e
    obtain rfl : o.asRegular = o' := eq_of_heq (Sigma.mk.inj e).2
    have hpy : 0 < p.y.data.length := by
      rw [related_length hop'.y]
      exact ho.y
    obtain ⟨st', out', b, hg, hlen, hb0, hbX⟩ := ht u.env u.kf.x p.y _ hpy ⟨hux, hxX⟩
    have hlen' : (out'.mapCells Watched.fresh).data.length = o.asRegular.y.data.length := by
      show (out'.data.map _).length = _
      rw [List.length_map, hlen]
      exact related_length hop'.y
    have hb1 : (out'.mapCells Watched.fresh).data[0]? = some (.fresh b) := by
      show (out'.data.map _)[0]? = _
      rw [List.getElem?_map, hb0]
      rfl
    generalize hB : Watched.fresh b = b' at *
    have hbc : b'.clean = true := hB ▸ rfl
    have hbn : b'.num = b := hB ▸ rfl
    rw [← hbn] at hb0 hbX
    obtain ⟨y', h1, h2, h3, h4⟩ := y_after ho.valid hlen' ho.z (repsV_one hb1)
    have hzb : |(z 0).num.val - (b'.num.val - (x 0).num.val)| ≤ X := by
      have h5 := abs_sub (z 0).num.val (b'.num.val - (x 0).num.val)
      linarith
    obtain ⟨r, x', P', u1, _, g2, g3, g4, _, g6, _⟩ := forever_update_fixed bld hl hcN (o := ({ o with y := y' } : ExtendedObservation 1 1 (Watched f)).asRegular)
      (z := z 0) (hx := b') h4 ho.H ho.R hk.P hk.x h2 rfl hx hxX hp hp0 hp1 hzf hbc hzb hRc hR
    have hb2 := hl.bits
    have hpB := hp1.trans (hl.bound hcN)
    have d0 : (Spec.direct (T := Watched f) (0 : Fin 1)) 0 0 = 1 := rfl
    have c2 : Spec.mulSeq (Spec.direct 0) P 0 0 = P 0 0 := by
      rw [mulSeq_one, d0, one_mul_clean hb2 hp, zero_add_clean hp]
    have c3 : Spec.mulSeq (Spec.mulSeq (Spec.direct 0) P) (Spec.direct 0).transpose 0 0 = P 0 0 := by
      rw [mulSeq_one, Matrix.transpose_apply, d0, c2, mul_one_clean hb2 hp, zero_add_clean hp]
    have hr0 : 0 < (R 0 0).num.val := Real.sqrt_pos.1 (res_pos.trans hR.root)
    have hle : MDT.le (Spec.mulSeq (Spec.mulSeq (Spec.direct 0) P) (Spec.direct 0).transpose 0 0 + R 0 0) 0 = false := by
      rw [c3, Bool.eq_false_iff]
      intro hc
      obtain ⟨_, e⟩ := add_fits (by omega) hp hRc (by
        rw [abs_of_nonneg (by linarith)]
        linarith [hR.fits])
      have h3 : (P 0 0 + R 0 0).num.val ≤ (0 : FixedPoint f).val := FixedPoint.le_iff.1 (show MDT.le (P 0 0 + R 0 0).num 0 = true from hc)
      rw [e, val_zero] at h3
      linarith
    have := safeRoots_watched (f := f) (by omega)
    obtain ⟨r', sq, d, k1, k2, k3, _, k5, k6, _⟩ := scalar_update_ok bld (o := ({ o with y := y' } : ExtendedObservation 1 1 (Watched f)).asRegular)
      Nat.one_pos h4 ho.H ho.R hk.P hk.x h2 hle
    obtain rfl : r = r' := Except.ok.inj (u1.symm.trans k1)
    have e1 := congrFun (k5.unique g2) 0
    have e2 := congrFun (congrFun (k6.unique g3) 0) 0
    rw [← e1] at g4
    rw [← e2] at g6
    have m1 : Spec.mulSeq (Spec.mulSeq (Spec.direct 0) P) (Spec.direct 0).transpose 0 0 + R 0 0 =
        0 + (0 + Spec.direct (0 : Fin 1) 0 0 * P 0 0) * Spec.direct (0 : Fin 1) 0 0 + R 0 0 := by
      rw [mulSeq_one, mulSeq_one]
      rfl
    have m2 : scalarGain P (Spec.direct 0) d 0 = 0 + (0 + P 0 0 * Spec.direct (0 : Fin 1) 0 0) * scalarInverse d := by
      unfold scalarGain
      rw [mulSeq_one]
      rfl
    have m4 : Spec.mulSeq (Spec.direct 0) P 0 0 = 0 + Spec.direct (0 : Fin 1) 0 0 * P 0 0 := mulSeq_one _ _ _ _
    rw [m1] at hle k2
    have hy0 : ((z - fun _ => b') : Fin 1 → Watched f) 0 = z 0 - b' := rfl
    obtain ⟨r2, hr2⟩ := debug_xcorrect bld (k := u.kf) (o := p) (x := x 0) (p := P 0 0) (h := Spec.direct (0 : Fin 1) 0 0) (z := z 0) (r := R 0 0) (b := b')
      (g := h 1) (st := u.env) (st' := st') (out' := out') hux
      (related_head hr.kf.P (hk.P 0 0)) (related_head hop'.H (ho.H 0 0)) (related_head hop'.z (Mat.repsV_iff.1 ho.z 0 0)) (related_head hop'.R (ho.R 0 0))
      ⟨related_mat_valid hop'.H ho.valid.H, related_mat_valid hop'.z ho.valid.z, related_mat_valid hop'.R ho.valid.R, related_mat_valid hop'.y ho.y,
        related_mat_valid hop'.S ho.S, related_mat_valid hop'.K ho.K, related_mat_valid hop'.tempSInv ho.tempSInv, related_mat_valid hop'.tempHP ho.tempHP,
        related_mat_valid hop'.tempPHt ho.tempPHt, related_mat_valid hop'.tempKHP ho.tempKHP⟩ hg hb0 hle k2 k3
      (by rw [← m2, ← hy0]; exact g4) (by rw [← m2, ← m4]; exact g6)
    exact ⟨_, by simp only [Chk.xstep, hti, hr2, res_bind_ok]; rfl⟩
  | assign a =>
    obtain ⟨w1, c', h1, _⟩ := xforever_step_fixed bld hl hD hZ hcN hv hw0 hop hpc (watch_tame ht)
    obtain ⟨u1, h2, _⟩ := xstep_related bld hr h1
    exact ⟨u1, h2⟩
  | predictTuned _ _ => exact ht.elim

theorem xforever_run_debug (bld : Build) {X Z D q B : ℝ} {N c : Nat} (hl : Spec.LastingFixed f X q B N) (hD : 0 ≤ D) (hZ : Z + D ≤ X) (hcN : c ≤ N)
    {w : XWorld 1 (Watched f) σ} {u : XWorld 1 (FixedPoint f) σ} (hv : w.Valid) (hr : w.Related Eq (fun a b => a.num = b) u)
    (hw : w.asRegular.RunsFixed X Z q B N c) {ops : List (XOp 1 (FixedPoint f) σ)}
    (hop : ∀ op ∈ ops, op.watch.WellFormed w) (hpc : Spec.Paced N c ((ops.map XOp.watch).map XOp.plain)) (ht : ∀ op ∈ ops, Spec.XTameFixed X Z D B op) :
    ∃ r, Chk.xrun (FixedPoint.debugOps f) bld u ops = .ok r := by
  induction ops generalizing w u c with
  | nil => exact ⟨_, rfl⟩
  | cons op ops ih =>
    obtain ⟨w1, c', h1, k0, k0', k1, k2, k3, _⟩ := xforever_step_fixed (ops := ops.map XOp.watch) bld hl hD hZ hcN hv hw (hop op List.mem_cons_self) hpc
      (watch_tame (ht op List.mem_cons_self))
    obtain ⟨r1, j1⟩ := xforever_step_debug (ops := ops.map XOp.watch) bld hl hD hZ hcN hv hr hw (hop op List.mem_cons_self) hpc (ht op List.mem_cons_self)
    obtain ⟨u1, h2, h3⟩ := xstep_related bld hr h1
    have e1 : Chk.xrun (FixedPoint.debugOps f) bld u [op] = .ok r1 := by
      simp only [Chk.xrun, j1, res_bind_ok]
    have e2 := C93_results_agree_extended e1
    have e3 : u.run bld [op] = .ok u1 := by
      simp only [XWorld.run, h2, res_bind_ok]
    rw [e2] at e3
    cases e3
    obtain ⟨r2, j2⟩ := ih k1 k0 h3 k3 (fun o ho => (hop o (List.mem_cons_of_mem _ ho)).congr k0') k2
      (fun o ho => ht o (List.mem_cons_of_mem _ ho))
    refine ⟨r2, ?_⟩
    simp only [Chk.xrun, j1, res_bind_ok]
    exact j2

/-- C110: in a build with overflow checks, no operation of the filter ever panics, not even one whose result is discarded, and state and variance stay within
the same bounds. (The closures are the user's code and assumed not to panic.) -/
theorem C110_with_overflow_checks (bld : Build) {X Z D B : ℝ} {N : Nat} {w : XWorld 1 (FixedPoint f) σ} {x A P Q} (hv : w.Valid)
    (hf : w.kf.asRegular.Reps x A P Q)
    (hl : Spec.LastingFixed f X (Q 0 0).val B N) (hD : 0 ≤ D) (hZ : Z + D ≤ X) (hA1 : |(A 0 0).val| ≤ 1) (hxX : |(x 0).val| ≤ X) (hP0 : 0 ≤ (P 0 0).val)
    (hPB : (P 0 0).val ≤ B)
    (hobs : ∀ s ∈ w.obs, ∃ (o : ExtendedObservation 1 1 (FixedPoint f)) (z : _) (R : _), s = ⟨1, o⟩ ∧ o.asRegular.Reps (Spec.direct 0) z R ∧
      |(z 0).val| ≤ Z ∧ Spec.BalancedFixed f N (Q 0 0).val B (R 0 0).val)
    {ops : List (XOp 1 (FixedPoint f) σ)} (hops : ∀ op ∈ ops, op.WellFormed w) (hpc : Spec.Paced N 0 (ops.map XOp.plain))
    (ht : ∀ op ∈ ops, Spec.XTameFixed X Z D B op) :
    ∃ w' x' P', Chk.xrun (FixedPoint.debugOps f) bld w ops = .ok w' ∧ w'.kf.x.RepsV x' ∧ w'.kf.P.Reps P' ∧ |(x' 0).val| ≤ X ∧
      0 ≤ (P' 0 0).val ∧ (P' 0 0).val ≤ B + N * (Q 0 0).val := by
  have hw : w.watch.asRegular.RunsFixed X Z (Q 0 0).val B N 0 := by
    rw [watch_asRegular]
    refine fresh_runs hf hA1 hxX hP0 hPB ?_
    intro s hs
    obtain ⟨s, hm, rfl⟩ := List.mem_map.1 hs
    obtain ⟨o, z, R, rfl, h⟩ := hobs s hm
    exact ⟨_, z, R, rfl, h⟩
  have hwv : w.watch.Valid := by
    show w.watch.asRegular.Valid
    rw [watch_asRegular]
    exact fresh_world_valid _ hv
  have hpc' := fresh_paced Watched.fresh hpc
  obtain ⟨r, hr⟩ := xforever_run_debug bld hl hD hZ (Nat.zero_le _) hwv (watch_related w) hw (ops := ops)
    (fun op ho => watch_wellFormed (hops op ho))
    (by
      rw [List.map_map, show XOp.plain ∘ XOp.watch = Op.mapCells Watched.fresh ∘ XOp.plain (n := 1) (T := FixedPoint f) (σ := σ) from
        funext xop_watch_plain, ← List.map_map]
      exact hpc') ht
  obtain ⟨w', x', P', h1, h2⟩ := C110_fixed_runs_forever bld hv hf hl hD hZ hA1 hxX hP0 hPB hobs hops hpc ht
  have := C93_results_agree_extended hr
  rw [h1] at this
  cases this
  exact ⟨_, x', P', hr, h2⟩

/-! ## Non-vacuity -/

namespace Ex

/-- A system that changes the sign of its state every other time; the closure counts its calls. -/
def flip {T : Type} [Neg T] (st : Nat) (x out : Mat 1 1 T) : Res (Nat × Mat 1 1 T) :=
  match x.data[0]? with
  | some a => .ok (st + 1, ⟨out.data.set 0 (if st % 2 = 0 then -a else a)⟩)
  | none => .ok (st, out)

/-- A sensor with a dead zone: states between -1 and 1 are measured as 0. -/
def deadZone {T : Type} [Zero T] [One T] [Neg T] [MDT T] {m : Nat} (st : Nat) (x : Mat 1 1 T) (out : Mat m 1 T) : Res (Nat × Mat m 1 T) :=
  match x.data[0]? with
  | some a => .ok (st, ⟨out.data.set 0 (if MDT.le (-1) a = true ∧ MDT.le a 1 = true then 0 else a)⟩)
  | none => .ok (st, out)

theorem set_first {T : Type} {v : List T} (h : 0 < v.length) (a : T) : (v.set 0 a)[0]? = some a := by
  cases v with
  | nil => cases h
  | cons => rfl

def xwalkLoop : List (XOp 1 F32 Nat) := [.predict flip, .assign (.z 0 [f32 3 1]), .correct 0 (fun _ => deadZone), .predict flip, .predict flip,
  .assign (.z 1 [f32 (-7) 3]), .correct 1 (fun _ => deadZone), .correct 0 (fun _ => deadZone)]

def xwalkOps (k : Nat) : List (XOp 1 F32 Nat) := (List.replicate k xwalkLoop).flatten

theorem xwalk_paced (k : Nat) : Spec.Paced 1000 0 ((xwalkOps k).map XOp.plain) := by
  induction k with
  | zero => exact trivial
  | succ k ih => exact ⟨by norm_num, by norm_num, by norm_num, ih⟩

theorem xwalk_mem {k : Nat} {op : XOp 1 F32 Nat} (h : op ∈ xwalkOps k) : op ∈ xwalkLoop := by
  obtain ⟨l, h1, h2⟩ := List.mem_flatten.1 h
  rwa [List.eq_of_mem_replicate h1] at h2

theorem xwalk_z3 : (f32 3 1).Finite ∧ |(f32 3 1).val| ≤ 49 :=
  Bin.rat_at_most (a := f32 3 1) (q := 3) (by decide +kernel) (by norm_num [abs_le])

theorem xwalk_z7 : (f32 (-7) 3).Finite ∧ |(f32 (-7) 3).val| ≤ 49 :=
  Bin.rat_at_most (a := f32 (-7) 3) (q := -9786709 / 4194304) (by decide +kernel) (by rw [abs_le]; constructor <;> norm_num)

theorem flip_tame {fmt : Format} {X Z D B : ℝ} : Spec.XTame X Z D B (XOp.predict (flip (T := Bin fmt))) := by
  rintro st x out a hl ⟨h1, h2, h3⟩
  have hb : ∀ b : Bin fmt, (if st % 2 = 0 then -a else a) = b → b.Finite ∧ |b.val| ≤ X := by
    intro b hb
    split at hb
    · subst hb
      exact ⟨Bin.neg_finite.2 h2, by rw [Bin.neg_val, abs_neg]; exact h3⟩
    · subst hb
      exact ⟨h2, h3⟩
  refine ⟨st + 1, ⟨out.data.set 0 (if st % 2 = 0 then -a else a)⟩, _, ?_, ?_, ?_, hb _ rfl⟩
  · unfold flip
    rw [h1]
  · exact List.length_set
  · exact set_first hl _

theorem deadZone_tame {fmt : Format} {X Z B : ℝ} (i : Nat) : Spec.XTame X Z 1 B (XOp.correct i (fun _ => deadZone (T := Bin fmt))) := by
  rintro st x out a hl ⟨h1, h2, h3⟩
  have hf : (-1 : Bin fmt).Finite := Bin.neg_finite.2 trivial
  have hb : ∀ b : Bin fmt, (if MDT.le (-1) a = true ∧ MDT.le a 1 = true then 0 else a) = b → b.Finite ∧ |b.val - a.val| ≤ 1 := by
    intro b hb
    split at hb
    · next h =>
      subst hb
      refine ⟨trivial, ?_⟩
      have k1 := (Bin.le_iff hf h2).1 h.1
      have k2 := (Bin.le_iff h2 (show (1 : Bin fmt).Finite from trivial)).1 h.2
      rw [Bin.neg_val, Bin.one_val] at k1
      rw [Bin.one_val] at k2
      rw [Bin.zero_val, abs_le]
      constructor <;> linarith
    · subst hb
      exact ⟨h2, by rw [sub_self, abs_zero]; exact zero_le_one⟩
  refine ⟨st, ⟨out.data.set 0 (if MDT.le (-1) a = true ∧ MDT.le a 1 = true then 0 else a)⟩, _, ?_, ?_, set_first hl _, hb _ rfl⟩
  · show deadZone st x out = _
    unfold deadZone
    rw [h1]
  · exact List.length_set

end Ex

open Ex in
/-- The conditions hold, for any number of rounds with functions that are not linear. -/
example (k : Nat) : ∃ w' x' P', (walker.asExtended 0).run ⟨false, true⟩ (xwalkOps k) = .ok w' ∧ w'.kf.x.RepsV x' ∧ w'.kf.P.Reps P' ∧ (x' 0).Finite ∧
    |(x' 0).val| ≤ 100 ∧ (P' 0 0).Finite ∧ 0 ≤ (P' 0 0).val ∧ (P' 0 0).val ≤ 2 * (7 + 1000 * (1 / 8)) := by
  have hlim : (1024 : ℝ) < (Format.f32 true).limit := by
    have := Bin.abs_lt_limit (a := f32 1024 1) (by decide +kernel)
    have h16 := (Bin.rat_val (a := f32 1024 1) (q := 1024) (by decide +kernel)).2
    rw [h16] at this
    norm_num at this
    exact this
  have e1 : (Format.f32 true).prec = 24 := rfl
  have e2 : (Format.f32 true).frac = 149 := rfl
  have hf := (C108_formats true).1
  have hQ : (avgR 0 0).val = 1 / 8 := avgR_val
  have hl : Spec.Lasting (Format.f32 true) 100 (avgR 0 0).val 7 1000 := by
    refine ⟨hf.1, hf.2.1, hf.2.2, ?_, by norm_num, by rw [e1]; norm_num, by linarith, ?_⟩
    · rw [hQ]; norm_num
    · rw [hQ]; norm_num; linarith
  have hz : (0 : F32).Finite ∧ |(0 : F32).val| ≤ 49 := ⟨trivial, by rw [Bin.zero_val]; norm_num⟩
  have h := C110_runs_forever ⟨false, true⟩ (w := walker.asExtended 0) (x := walkX) (P := avgP) (A := Matrix.of fun _ _ => 1) (Q := avgR)
    (ops := xwalkOps k) (X := 100) (Z := 49) (D := 1) (B := 7) (N := 1000)
    ⟨by decide, ⟨by decide +kernel, by decide +kernel, by decide +kernel, by decide +kernel, by decide +kernel, by decide +kernel⟩,
      fun _ h => absurd h List.not_mem_nil, by
      intro o ho
      rcases List.mem_cons.1 ho with rfl | ho
      · exact ⟨by decide, by decide +kernel, by decide +kernel, by decide +kernel, by decide +kernel, by decide +kernel, by decide +kernel,
          by decide +kernel, by decide +kernel, by decide +kernel, by decide +kernel⟩
      · obtain rfl := List.mem_singleton.1 ho
        exact ⟨by decide, by decide +kernel, by decide +kernel, by decide +kernel, by decide +kernel, by decide +kernel, by decide +kernel,
          by decide +kernel, by decide +kernel, by decide +kernel, by decide +kernel⟩⟩
    ⟨by decide +kernel, by decide +kernel, by decide +kernel, by decide +kernel, by decide +kernel, by decide +kernel⟩
    hl zero_le_one (by norm_num) trivial (le_of_eq (by show |(1 : F32).val| = 1; rw [Bin.one_val, abs_one])) (by decide +kernel) (by decide +kernel)
    (by rw [abs_le]; exact abs_le.1 walkX_val)
    (by decide +kernel) (by rw [avgP_val]; norm_num) (le_of_eq avgP_val) ?_ ?_ (xwalk_paced k) ?_
  · obtain ⟨w', x', P', k1, k2, k3, k4, k5, k6, k7, k8⟩ := h
    rw [hQ] at k8
    exact ⟨w', x', P', k1, k2, k3, k4, k5, k6, k7, by norm_num at k8 ⊢; exact k8⟩
  · intro s hs
    rw [hQ]
    rcases List.mem_cons.1 hs with rfl | hs
    · refine ⟨_, ![0], Matrix.of fun _ _ => 1, rfl, ⟨by decide +kernel, by decide +kernel, by decide +kernel, by decide +kernel, by decide +kernel,
        by decide +kernel, by decide +kernel, by decide +kernel, by decide +kernel, by decide +kernel⟩, hz.1, hz.2, ?_⟩
      rw [Matrix.of_apply, Bin.one_val]
      refine ⟨by norm_num, by norm_num, by rw [e1]; norm_num, by rw [e1, e2]; norm_num, by linarith, by rw [e2]; norm_num⟩
    · obtain rfl := List.mem_singleton.1 hs
      refine ⟨_, ![0], avgR, rfl, ⟨by decide +kernel, by decide +kernel, by decide +kernel, by decide +kernel, by decide +kernel,
        by decide +kernel, by decide +kernel, by decide +kernel, by decide +kernel, by decide +kernel⟩, hz.1, hz.2, ?_⟩
      rw [avgR_val]
      refine ⟨by norm_num, by norm_num, by rw [e1]; norm_num, by rw [e1, e2]; norm_num, by linarith, by rw [e2]; norm_num⟩
  · intro op ho
    have k0 : ∀ a : F32, (XOp.assign (.z 0 [a])).WellFormed (walker.asExtended 0) := fun _ => rfl
    have k1 : ∀ a : F32, (XOp.assign (.z 1 [a])).WellFormed (walker.asExtended 0) := fun _ => rfl
    have k3 : ∀ h, (XOp.correct (T := F32) 0 h).WellFormed (walker.asExtended 0) := fun _ => by show 0 < 2; decide
    have k4 : ∀ h, (XOp.correct (T := F32) 1 h).WellFormed (walker.asExtended 0) := fun _ => by show 1 < 2; decide
    have ho := xwalk_mem ho
    simp only [xwalkLoop, List.mem_cons, List.not_mem_nil, or_false] at ho
    rcases ho with rfl | rfl | rfl | rfl | rfl | rfl | rfl | rfl
    exacts [trivial, k0 _, k3 _, trivial, trivial, k1 _, k4 _, k3 _]
  · intro op ho
    have hs : ∀ (a : F32) i, a.Finite ∧ |a.val| ≤ 49 → Spec.XTame (σ := Nat) 100 49 1 7 (XOp.assign (.z i [a])) := by
      intro a i h b hb
      obtain rfl := List.mem_singleton.1 hb
      exact h
    have ho := xwalk_mem ho
    simp only [xwalkLoop, List.mem_cons, List.not_mem_nil, or_false] at ho
    rcases ho with rfl | rfl | rfl | rfl | rfl | rfl | rfl | rfl
    exacts [flip_tame, hs _ _ xwalk_z3, deadZone_tame 0, flip_tame, flip_tame, hs _ _ xwalk_z7, deadZone_tame 1, deadZone_tame 0]

namespace Ex

/-- A system that returns to 0 every other time. -/
def reset {T : Type} [Zero T] (st : Nat) (x out : Mat 1 1 T) : Res (Nat × Mat 1 1 T) :=
  match x.data[0]? with
  | some a => .ok (st + 1, ⟨out.data.set 0 (if st % 2 = 0 then 0 else a)⟩)
  | none => .ok (st, out)

theorem reset_tame {X Z D B : ℝ} : Spec.XTameFixed X Z D B (XOp.predict (reset (T := FixedPoint f))) := by
  rintro st x out a hl ⟨h1, h3⟩
  have hb : ∀ b : FixedPoint f, (if st % 2 = 0 then 0 else a) = b → |b.val| ≤ X := by
    intro b hb
    split at hb
    · subst hb
      rw [val_zero, abs_zero]
      exact (abs_nonneg _).trans h3
    · subst hb
      exact h3
  refine ⟨st + 1, ⟨out.data.set 0 (if st % 2 = 0 then 0 else a)⟩, _, ?_, ?_, set_first hl _, hb _ rfl⟩
  · unfold reset
    rw [h1]
  · exact List.length_set

theorem minus_one_val : (-1 : I16F16).val = -1 := by rw [i16_val (z := -65536) (by decide)]; norm_num

theorem deadZone_tame_fixed {X Z B : ℝ} (i : Nat) : Spec.XTameFixed X Z 1 B (XOp.correct i (fun _ => deadZone (T := I16F16))) := by
  rintro st x out a hl ⟨h1, h3⟩
  have hb : ∀ b : I16F16, (if MDT.le (-1) a = true ∧ MDT.le a 1 = true then 0 else a) = b → |b.val - a.val| ≤ 1 := by
    intro b hb
    split at hb
    · next h =>
      subst hb
      have k1 := FixedPoint.le_iff.1 h.1
      have k2 := FixedPoint.le_iff.1 h.2
      rw [minus_one_val] at k1
      rw [val_one (by norm_num)] at k2
      rw [val_zero, abs_le]
      constructor <;> linarith
    · subst hb
      rw [sub_self, abs_zero]
      exact zero_le_one
  refine ⟨st, ⟨out.data.set 0 (if MDT.le (-1) a = true ∧ MDT.le a 1 = true then 0 else a)⟩, _, ?_, ?_, set_first hl _, hb _ rfl⟩
  · show deadZone st x out = _
    unfold deadZone
    rw [h1]
  · exact List.length_set

def xfixedLoop : List (XOp 1 I16F16 Nat) := [.predict reset, .assign (.z 0 [whole16 3]), .correct 0 (fun _ => deadZone), .predict reset, .predict reset,
  .assign (.z 1 [whole16 (-12000)]), .correct 1 (fun _ => deadZone), .correct 0 (fun _ => deadZone)]

def xfixedWalk (k : Nat) : List (XOp 1 I16F16 Nat) := (List.replicate k xfixedLoop).flatten

theorem xfixedWalk_paced (k : Nat) : Spec.Paced 200 0 ((xfixedWalk k).map XOp.plain) := by
  induction k with
  | zero => exact trivial
  | succ k ih => exact ⟨by norm_num, by norm_num, by norm_num, ih⟩

theorem xfixedWalk_mem {k : Nat} {op : XOp 1 I16F16 Nat} (h : op ∈ xfixedWalk k) : op ∈ xfixedLoop := by
  obtain ⟨l, h1, h2⟩ := List.mem_flatten.1 h
  rwa [List.eq_of_mem_replicate h1] at h2

end Ex

open Ex in
/-- The conditions for fixed point numbers hold, for any number of rounds. -/
example (k : Nat) : ∃ w' x' P', (fixedWalker.asExtended 0).run ⟨false, true⟩ (xfixedWalk k) = .ok w' ∧ w'.kf.x.RepsV x' ∧ w'.kf.P.Reps P' ∧
    |(x' 0).val| ≤ 16383 ∧ 0 ≤ (P' 0 0).val ∧ (P' 0 0).val ≤ 21 + 200 * (1 / 8) := by
  have v0 : (0 : I16F16).val = 0 := by rw [i16_val (z := 0) (by decide)]; norm_num
  have v1 : (1 : I16F16).val = 1 := by rw [i16_val (z := 65536) (by decide)]; norm_num
  have v2 : (whole16 2).val = 2 := by rw [i16_val (z := 131072) (by decide)]; norm_num
  have v3 : (whole16 3).val = 3 := by rw [i16_val (z := 196608) (by decide)]; norm_num
  have v4 : (whole16 (-12000)).val = -12000 := by rw [i16_val (z := -786432000) (by decide)]; norm_num
  have v7 : (whole16 7).val = 7 := by rw [i16_val (z := 458752) (by decide)]; norm_num
  have v10 : (whole16 10).val = 10 := by rw [i16_val (z := 655360) (by decide)]; norm_num
  have vq : (⟨8192⟩ : I16F16).val = 1 / 8 := by rw [i16_val (z := 8192) (by decide)]; norm_num
  have hb : ∀ r : ℝ, 1 ≤ r → r ≤ 20 → Spec.LastingFixed 16 16383 (1 / 8) 21 200 ∧ Spec.BalancedFixed 16 200 (1 / 8) 21 r :=
    fun r h1 h2 => C109_i16f16 (by norm_num) (by norm_num) h1 h2
  have h := C110_fixed_runs_forever ⟨false, true⟩ (w := fixedWalker.asExtended 0) (x := fun _ => whole16 10) (P := Matrix.of fun _ _ => whole16 7)
    (A := Matrix.of fun _ _ => 1) (Q := Matrix.of fun _ _ => ⟨8192⟩) (ops := xfixedWalk k) (X := 16383) (Z := 16382) (D := 1) (B := 21) (N := 200)
    ⟨by decide, ⟨by decide, by decide, by decide, by decide, by decide, by decide⟩,
      fun _ h => absurd h List.not_mem_nil, by
      intro o ho
      rcases List.mem_cons.1 ho with rfl | ho
      · exact ⟨by decide, by decide, by decide, by decide, by decide, by decide, by decide, by decide, by decide, by decide, by decide⟩
      · obtain rfl := List.mem_singleton.1 ho
        exact ⟨by decide, by decide, by decide, by decide, by decide, by decide, by decide, by decide, by decide, by decide, by decide⟩⟩
    ⟨by decide, by decide, by decide, by decide, by decide, by decide⟩
    (by simp only [Matrix.of_apply, vq]; exact (hb 1 le_rfl (by norm_num)).1) zero_le_one (by norm_num) (by simp only [Matrix.of_apply, v1]; norm_num)
    (by simp only [v10]; norm_num [abs_le]) (by simp only [Matrix.of_apply, v7]; norm_num) (by simp only [Matrix.of_apply, v7]; norm_num)
    ?_ ?_ (xfixedWalk_paced k) ?_
  · simp only [Matrix.of_apply, vq] at h
    exact_mod_cast h
  · intro s hs
    simp only [Matrix.of_apply, vq]
    rcases List.mem_cons.1 hs with rfl | hs
    · refine ⟨_, ![0], Matrix.of fun _ _ => 1, rfl, ⟨by decide, by decide, by decide, by decide, by decide,
        by decide, by decide, by decide, by decide, by decide⟩, ?_, ?_⟩
      · show |(0 : I16F16).val| ≤ 16382
        rw [v0]; norm_num
      · simp only [Matrix.of_apply, v1]
        exact (hb 1 le_rfl (by norm_num)).2
    · obtain rfl := List.mem_singleton.1 hs
      refine ⟨_, ![0], Matrix.of fun _ _ => whole16 2, rfl, ⟨by decide, by decide, by decide, by decide, by decide,
        by decide, by decide, by decide, by decide, by decide⟩, ?_, ?_⟩
      · show |(0 : I16F16).val| ≤ 16382
        rw [v0]; norm_num
      · simp only [Matrix.of_apply, v2]
        exact (hb 2 (by norm_num) (by norm_num)).2
  · intro op ho
    have ho := xfixedWalk_mem ho
    simp only [xfixedLoop, List.mem_cons, List.not_mem_nil, or_false] at ho
    have k3 : ∀ h, (XOp.correct (T := I16F16) 0 h).WellFormed (fixedWalker.asExtended 0) := fun _ => by show 0 < 2; decide
    have k4 : ∀ h, (XOp.correct (T := I16F16) 1 h).WellFormed (fixedWalker.asExtended 0) := fun _ => by show 1 < 2; decide
    rcases ho with rfl | rfl | rfl | rfl | rfl | rfl | rfl | rfl
    exacts [trivial, rfl, k3 _, trivial, trivial, rfl, k4 _, k3 _]
  · intro op ho
    have hs : ∀ (a : I16F16) i, |a.val| ≤ 16382 → Spec.XTameFixed (σ := Nat) 16383 16382 1 21 (XOp.assign (.z i [a])) := by
      intro a i h b hb
      obtain rfl := List.mem_singleton.1 hb
      exact h
    have ho := xfixedWalk_mem ho
    simp only [xfixedLoop, List.mem_cons, List.not_mem_nil, or_false] at ho
    rcases ho with rfl | rfl | rfl | rfl | rfl | rfl | rfl | rfl
    exacts [reset_tame, hs _ _ (by rw [v3]; norm_num [abs_le]), deadZone_tame_fixed 0, reset_tame, reset_tame, hs _ _ (by rw [v4]; norm_num [abs_le]),
      deadZone_tame_fixed 1, deadZone_tame_fixed 0]

end Minikalman
