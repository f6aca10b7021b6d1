import Verif.Proofs.ExtendedHistory
import Verif.Spec.Examples
import Verif.Props.History

/-!
# Properties C37, C38, C52 – C55: the extended filter

A program holds one extended filter and any number of observations (`XWorld`); `env` is whatever the user's closures
capture. Closures are arbitrary (stateful, possibly panicking) functions.
-/

set_option linter.unusedSectionVars false

namespace Minikalman

open Matrix

variable {T σ : Type} {n m : Nat}

/-! ## C37 -/

section Any
variable [Zero T] [One T] [Add T] [Sub T] [Mul T] [Neg T] [MDT T]

/-- The closure `|x, out| M.mult_rowvector(x, out)`. -/
def linearClosure {k : Nat} (M : Mat k n T) : σ → Mat n 1 T → Mat k 1 T → Res (σ × Mat k 1 T) :=
  fun st x out => (M.multRowvector x out).map fun r => (st, r)

/-- C37: with the closure `x ↦ A x` the extended prediction is bit for bit the regular one, panics included; for all
buffers and contents, in any arithmetic. -/
theorem C37_predict_linear (f : RegularKalman n T) (st : σ) :
    f.asExtended.predictNonlinear (linearClosure f.A) st = f.predict.map fun f' => (st, f'.asExtended) :=
  xpredict_linear f st

/-- C37 for the tuned prediction. -/
theorem C37_predictTuned_linear (f : RegularKalman n T) (lambda : T) (st : σ) :
    f.asExtended.predictTunedNonlinear lambda (linearClosure f.A) st =
      (f.predictTuned lambda).map fun f' => (st, f'.asExtended) :=
  xpredictTuned_linear f lambda st

/-- C37: with the closure `x ↦ H x` the extended correction is bit for bit the regular one. -/
theorem C37_correct_linear (bld : Build) (f : RegularKalman n T) (o : RegularObservation n m T) (st : σ) :
    f.asExtended.correctNonlinear bld o.asExtended (linearClosure o.H) st =
      (f.correct bld o).map fun r => (st, r.1.asExtended, r.2.asExtended) :=
  xcorrect_linear bld f o st

/-- The extended call corresponding to a regular call on `w`: closures multiply by the matrices `w` holds. There is none
for controls. -/
inductive LinearCall (w : World n T) : Op T → XOp n T σ → Prop
  | predict : LinearCall w .predict (.predict (linearClosure w.kf.A))
  | predictTuned (lambda : T) : LinearCall w (.predictTuned lambda) (.predictTuned lambda (linearClosure w.kf.A))
  | correct (i : Nat) (o) : w.obs[i]? = some o →
      LinearCall w (.correct i) (.correct i fun m => linearClosure (⟨o.2.H.data⟩ : Mat m n T))
  | assign (a : Assign T) : LinearCall w a.toOp (.assign a)

/-- The extended history corresponding to a regular history from `w`. -/
inductive LinearHistory (bld : Build) : World n T → List (Op T) → List (XOp n T σ) → Prop
  | nil (w) : LinearHistory bld w [] []
  | cons {w op xop ops xops} : LinearCall w op xop →
      (∀ w', w.step bld op = .ok w' → LinearHistory bld w' ops xops) → LinearHistory bld w (op :: ops) (xop :: xops)

theorem linear_step (bld : Build) {w : World n T} {op : Op T} {xop : XOp n T σ} (h : LinearCall w op xop) (env : σ) :
    (w.asExtended env).step bld xop = (w.step bld op).map fun w' => w'.asExtended env := by
  cases h with
  | predict =>
    simp only [XWorld.step, World.step]
    show (do let __x ← w.kf.asExtended.predictNonlinear (linearClosure w.kf.A) env; _) = _
    rw [C37_predict_linear]
    cases w.kf.predict <;> rfl
  | predictTuned lambda =>
    simp only [XWorld.step, World.step]
    show (do let __x ← w.kf.asExtended.predictTunedNonlinear lambda (linearClosure w.kf.A) env; _) = _
    rw [C37_predictTuned_linear]
    cases w.kf.predictTuned lambda <;> rfl
  | correct i o hi =>
    obtain ⟨m, o⟩ := o
    have hi' : (w.asExtended env).obs[i]? = some ⟨m, o.asExtended⟩ := by
      simp [World.asExtended, hi]
    simp only [XWorld.step, World.step, hi, hi']
    show (do let __x ← w.kf.asExtended.correctNonlinear bld o.asExtended (linearClosure o.H) env; _) = _
    rw [C37_correct_linear]
    cases hr : w.kf.correct bld o with
    | error e => rfl
    | ok r =>
      simp only [res_map_ok, res_bind_ok, World.asExtended, List.map_set, res_pure_map]
  | assign a =>
    cases a with
    | x v => simp only [XWorld.step, XWorld.assign, World.step, Assign.toOp, res_map_bind]; rfl
    | A v => simp only [XWorld.step, XWorld.assign, World.step, Assign.toOp, res_map_bind]; rfl
    | P v => simp only [XWorld.step, XWorld.assign, World.step, Assign.toOp, res_map_bind]; rfl
    | Q v => simp only [XWorld.step, XWorld.assign, World.step, Assign.toOp, res_map_bind]; rfl
    | z i v =>
      simp only [XWorld.step, XWorld.assign, Assign.toOp, World.step, XWorld.withObs, World.withObs, World.asExtended,
        List.getElem?_map]
      cases w.obs[i]? with
      | none => rfl
      | some o =>
        simp only [Option.map_some, res_map_bind, bind_assoc, pure_bind, res_pure_map, List.map_set]
        rfl
    | H i v =>
      simp only [XWorld.step, XWorld.assign, Assign.toOp, World.step, XWorld.withObs, World.withObs, World.asExtended,
        List.getElem?_map]
      cases w.obs[i]? with
      | none => rfl
      | some o =>
        simp only [Option.map_some, res_map_bind, bind_assoc, pure_bind, res_pure_map, List.map_set]
        rfl
    | R i v =>
      simp only [XWorld.step, XWorld.assign, Assign.toOp, World.step, XWorld.withObs, World.withObs, World.asExtended,
        List.getElem?_map]
      cases w.obs[i]? with
      | none => rfl
      | some o =>
        simp only [Option.map_some, res_map_bind, bind_assoc, pure_bind, res_pure_map, List.map_set]
        rfl

/-- C37 over histories: the extended program with linear closures ends (or panics) exactly like the regular program,
all buffers equal. -/
theorem C37_history_linear (bld : Build) {w : World n T} {ops : List (Op T)} {xops : List (XOp n T σ)}
    (h : LinearHistory bld w ops xops) (env : σ) :
    (w.asExtended env).run bld xops = (w.run bld ops).map fun w' => w'.asExtended env := by
  induction h with
  | nil w => rfl
  | @cons w op xop ops xops hc _ ih =>
    simp only [XWorld.run, World.run, linear_step bld hc, res_bind_map, res_map_bind]
    cases hw : w.step bld op with
    | error e => rfl
    | ok w' => exact ih w' hw

/-- The call does not involve a control. -/
def Op.NoControl : Op T → Prop
  | .control _ => False
  | .setU _ _ => False
  | .setB _ _ => False
  | .setQc _ _ => False
  | _ => True

/-- C37: every well formed history without controls has a corresponding extended history, so `C37_history_linear`
applies to all of them. -/
theorem C37_history_linear_exists (bld : Build) {w : World n T} (hw : w.Valid) {ops : List (Op T)}
    (hops : ∀ op ∈ ops, op.WellFormed w) (hc : ∀ op ∈ ops, op.NoControl) :
    ∃ xops : List (XOp n T σ), LinearHistory bld w ops xops := by
  induction ops generalizing w with
  | nil => exact ⟨[], .nil w⟩
  | cons op ops ih =>
    have hx : ∃ xop : XOp n T σ, LinearCall w op xop := by
      have h1 := hc op (by simp)
      have h2 := hops op (by simp)
      cases op with
      | predict => exact ⟨_, .predict⟩
      | predictTuned lambda => exact ⟨_, .predictTuned lambda⟩
      | correct i => exact ⟨_, .correct i _ (List.getElem?_eq_getElem h2)⟩
      | setX v => exact ⟨_, .assign (.x v)⟩
      | setA v => exact ⟨_, .assign (.A v)⟩
      | setP v => exact ⟨_, .assign (.P v)⟩
      | setQ v => exact ⟨_, .assign (.Q v)⟩
      | setZ i v => exact ⟨_, .assign (.z i v)⟩
      | setH i v => exact ⟨_, .assign (.H i v)⟩
      | setR i v => exact ⟨_, .assign (.R i v)⟩
      | control => exact h1.elim
      | setU => exact h1.elim
      | setB => exact h1.elim
      | setQc => exact h1.elim
    obtain ⟨xop, hx⟩ := hx
    cases hs : w.step bld op with
    | error e => exact ⟨[xop], .cons hx fun w' h => by rw [hs] at h; cases h⟩
    | ok w1 =>
      obtain ⟨h1, h2⟩ := step_ok hw (hops op (by simp)) hs
      obtain ⟨xops, hxs⟩ := ih h1 (fun o ho => (hops o (by simp [ho])).congr h2) (fun o ho => hc o (by simp [ho]))
      refine ⟨xop :: xops, .cons hx fun w' h => ?_⟩
      rw [hs] at h; cases h
      exact hxs

example : (Ex.world ℚ).Valid ∧ (∀ op ∈ ([.predict, .setZ 1 [7], .correct 1, .predictTuned 2] : List (Op ℚ)),
    op.WellFormed (Ex.world ℚ) ∧ op.NoControl) := by
  refine ⟨(Ex.world_reps ℚ).valid, ?_⟩
  simp only [List.mem_cons, List.not_mem_nil, or_false, forall_eq_or_imp, forall_eq]
  exact ⟨⟨trivial, trivial⟩, ⟨rfl, trivial⟩, ⟨Nat.one_lt_two, trivial⟩, trivial, trivial⟩

/-! ## C38 -/

/-- C38: `predict_nonlinear` calls its closure exactly once (the log of calls grows by one entry), with the state before
the step and the old contents of the prediction buffer; the prediction buffer afterwards is what the closure left there,
the new state is the vector in it, and nothing else of the filter but `P` and its temporary changes. -/
theorem C38_predict_calls_once {f f' : ExtendedKalman n T} (hn : 0 < n) (hf : f.asRegular.Valid)
    {g : σ → Mat n 1 T → Mat n 1 T → Res (σ × Mat n 1 T)} (hg : KeepsLength g) {st st' : σ} {log log'}
    (h : f.predictNonlinear (logged g) (st, log) = .ok ((st', log'), f')) :
    log' = log ++ [(f.x, f.predictedX)] ∧
    ∃ out, g st f.x f.predictedX = .ok (st', out) ∧ f'.predictedX = out ∧ (∀ i, i < n → f'.x.data[i]? = out.data[i]?) ∧
      f'.A = f.A ∧ f'.Q = f.Q ∧ f.x.SameTail f'.x ∧ f.P.SameTail f'.P := by
  obtain ⟨px, x', h1, h2, h3⟩ := xpredict_ok h
  obtain ⟨⟨s1, out⟩, k1, k2⟩ := bind_ok h1
  cases k2
  have hl := hg _ _ _ _ _ k1
  have hpx : px.Valid := (show n * 1 ≤ f.predictedX.data.length from hf.predictedX).trans_eq hl.symm
  obtain ⟨x2, l1, l2, l3⟩ := Mat.copyTo_repsV (b := f.x) hn hpx.repsV hf.x
  rw [h2] at l1; cases l1
  have hv : ({ f with x := x', predictedX := px } : ExtendedKalman n T).asRegular.Valid :=
    ⟨l3.valid hf.x, hf.A, hf.P, hf.Q, hpx, hf.tempP⟩
  obtain ⟨f2, m1, _, m3, m4, _, m6⟩ := predictP_any hv hv.A.reps hv.P.reps hv.Q.reps
  rw [h3] at m1; cases m1
  refine ⟨rfl, px, k1, m4, fun i hi => ?_, m6.A, m6.Q, ?_, m6.P⟩
  · show f'.asRegular.x.data[i]? = _
    rw [m3]
    exact (l2 ⟨i, hi⟩).trans (hpx.repsV ⟨i, hi⟩).symm
  · show f.x.SameTail f'.asRegular.x
    rw [m3]; exact l3

/-- C38 for the tuned prediction. -/
theorem C38_predictTuned_calls_once {f f' : ExtendedKalman n T} (hn : 0 < n) (hf : f.asRegular.Valid) (lambda : T)
    {g : σ → Mat n 1 T → Mat n 1 T → Res (σ × Mat n 1 T)} (hg : KeepsLength g) {st st' : σ} {log log'}
    (h : f.predictTunedNonlinear lambda (logged g) (st, log) = .ok ((st', log'), f')) :
    log' = log ++ [(f.x, f.predictedX)] ∧
    ∃ out, g st f.x f.predictedX = .ok (st', out) ∧ f'.predictedX = out ∧ (∀ i, i < n → f'.x.data[i]? = out.data[i]?) ∧
      f'.A = f.A ∧ f'.Q = f.Q ∧ f.x.SameTail f'.x ∧ f.P.SameTail f'.P := by
  obtain ⟨px, x', h1, h2, h3⟩ := xpredictTuned_ok h
  obtain ⟨⟨s1, out⟩, k1, k2⟩ := bind_ok h1
  cases k2
  have hl := hg _ _ _ _ _ k1
  have hpx : px.Valid := (show n * 1 ≤ f.predictedX.data.length from hf.predictedX).trans_eq hl.symm
  obtain ⟨x2, l1, l2, l3⟩ := Mat.copyTo_repsV (b := f.x) hn hpx.repsV hf.x
  rw [h2] at l1; cases l1
  have hv : ({ f with x := x', predictedX := px } : ExtendedKalman n T).asRegular.Valid :=
    ⟨l3.valid hf.x, hf.A, hf.P, hf.Q, hpx, hf.tempP⟩
  cases hr : (MDT.recip (lambda * lambda) : Res T) with
  | error e =>
    unfold RegularKalman.predictPTuned at h3
    rw [hr] at h3; cases h3
  | ok φ =>
    obtain ⟨f2, m1, _, m3, m4, _, m6⟩ := predictPTuned_any hv lambda hr hv.A.reps hv.P.reps hv.Q.reps
    rw [h3] at m1; cases m1
    refine ⟨rfl, px, k1, m4, fun i hi => ?_, m6.A, m6.Q, ?_, m6.P⟩
    · show f'.asRegular.x.data[i]? = _
      rw [m3]
      exact (l2 ⟨i, hi⟩).trans (hpx.repsV ⟨i, hi⟩).symm
    · show f.x.SameTail f'.asRegular.x
      rw [m3]; exact l3

/-- C38: `correct_nonlinear` calls its closure exactly once, with the state before the step and the old contents of the
innovation buffer; the innovation is the measurement minus what the closure left in that buffer, and measurement,
Jacobian and noise are unchanged. -/
theorem C38_correct_calls_once (bld : Build) {f f' : ExtendedKalman n T} {o o' : ExtendedObservation n m T} (hm : 0 < m)
    (hf : f.asRegular.Valid) (ho : o.asRegular.Valid) {h : σ → Mat n 1 T → Mat m 1 T → Res (σ × Mat m 1 T)}
    (hg : KeepsLength h) {st st' : σ} {log log'}
    (hc : f.correctNonlinear bld o (logged h) (st, log) = .ok ((st', log'), f', o')) :
    log' = log ++ [(f.x, o.y)] ∧
    ∃ out, h st f.x o.y = .ok (st', out) ∧ (∀ z hx : Fin m → T, o.z.RepsV z → out.RepsV hx → o'.y.RepsV (z - hx)) ∧
      out.Valid ∧ o'.z = o.z ∧ o'.H = o.H ∧ o'.R = o.R ∧ f' = { f with x := f'.x, P := f'.P } := by
  obtain ⟨y, y', x', P', h1, h2, h3, h4⟩ := xcorrect_ok bld hc
  obtain ⟨⟨s1, out⟩, k1, k2⟩ := bind_ok h1
  cases k2
  have hl := hg _ _ _ _ _ k1
  have hy : y.Valid := (show m * 1 ≤ o.y.data.length from ho.y).trans_eq hl.symm
  obtain ⟨y2, l1, l2, l3, l4⟩ := y_after ho hl ho.z.repsV hy.repsV
  have l1' : o.z.subInplaceB y = .ok y2 := l1
  rw [h2] at l1'; cases l1'
  rcases update_rel bld (o := ({ o with y := y' } : ExtendedObservation n m T).asRegular)
    (o' := ({ o with y := y' } : ExtendedObservation n m T).asRegular) hm l4 l4 hf.P (Mat.Agree.refl _) (Mat.Agree.refl _)
    (Mat.Agree.refl _) hf.x.repsV l2 hf.x.repsV l2 with ⟨e, he, _⟩ | ⟨a, b, r1, _, r2, _, r3, _⟩
  · have he' : ({ o with y := y' } : ExtendedObservation n m T).asRegular.updateWithInnovation bld f.x f.P = .error e := he
    rw [h3] at he'; cases he'
  have r1' : ({ o with y := y' } : ExtendedObservation n m T).asRegular.updateWithInnovation bld f.x f.P = .ok a := r1
  rw [h3] at r1'; cases r1'
  refine ⟨rfl, y, k1, fun z hx hz hhx => ?_, hy, r2.z, r2.H, r2.R, by rw [h4]⟩
  obtain ⟨y3, q1, q2, _⟩ := y_after ho hl hz hhx
  have q1' : o.z.subInplaceB y = .ok y3 := q1
  rw [h2] at q1'; cases q1'
  show o'.asRegular.y.RepsV _
  rw [r3]; exact q2

/-- C38, partially written outputs: a cell the closure of `predict_nonlinear` does not write becomes, in the new state,
whatever the prediction buffer held there before (the previous prediction), not the old state. -/
theorem C38_unwritten_cell_is_stale {f f' : ExtendedKalman n T} (hn : 0 < n) (hf : f.asRegular.Valid)
    {g : σ → Mat n 1 T → Mat n 1 T → Res (σ × Mat n 1 T)} (hg : KeepsLength g) {st st' : σ} {out : Mat n 1 T}
    (h : f.predictNonlinear g st = .ok (st', f')) (ho : g st f.x f.predictedX = .ok (st', out)) {i : Nat} (hi : i < n)
    (hu : out.data[i]? = f.predictedX.data[i]?) : f'.x.data[i]? = f.predictedX.data[i]? := by
  have hlen := hg _ _ _ _ _ ho
  have hpx : out.Valid := (show n * 1 ≤ f.predictedX.data.length from hf.predictedX).trans_eq hlen.symm
  obtain ⟨f2, h1, h2, _⟩ := xpredict_run hn hf ho hlen hpx.repsV hf.A.reps hf.P.reps hf.Q.reps
  rw [h] at h1; cases h1
  rw [← hu]
  exact (h2 ⟨i, hi⟩).trans (hpx.repsV ⟨i, hi⟩).symm

/-- C38: a panic of the closure is passed on. -/
theorem C38_closure_panics (bld : Build) (f : ExtendedKalman n T) (o : ExtendedObservation n m T)
    (g : σ → Mat n 1 T → Mat n 1 T → Res (σ × Mat n 1 T)) (h : σ → Mat n 1 T → Mat m 1 T → Res (σ × Mat m 1 T)) (st : σ)
    (e : Panic) :
    (g st f.x f.predictedX = .error e → f.predictNonlinear g st = .error e ∧
      ∀ lambda, f.predictTunedNonlinear lambda g st = .error e) ∧
    (h st f.x o.y = .error e → f.correctNonlinear bld o h st = .error e) := by
  refine ⟨fun he => ⟨?_, fun lambda => ?_⟩, fun he => ?_⟩
  · simp only [ExtendedKalman.predictNonlinear, ExtendedKalman.predictXNonlinear, he, res_bind_error]
  · simp only [ExtendedKalman.predictTunedNonlinear, ExtendedKalman.predictXNonlinear, he, res_bind_error]
  · simp only [ExtendedKalman.correctNonlinear, ExtendedObservation.correctNonlinear, he, res_bind_error]

/-- What `counted` does to one call. -/
theorem counted_step (bld : Build) (w : XWorld n T σ) (op : XOp n T σ) (c : Nat) :
    (w.withEnv (w.env, c)).step bld op.counted =
      (w.step bld op).map fun w' => w'.withEnv (w'.env, c + XOp.updates [op]) := by
  cases op with
  | predict g =>
    simp only [XWorld.step, XOp.counted, XWorld.withEnv, ExtendedKalman.predictNonlinear, ExtendedKalman.predictXNonlinear,
      counted]
    cases g w.env w.kf.x w.kf.predictedX with
    | error e => rfl
    | ok r =>
      simp only [res_bind_ok, pure, Except.pure]
      cases r.2.copyTo w.kf.x with
      | error e => rfl
      | ok x =>
        simp only [res_bind_ok]
        cases ExtendedKalman.predictP { w.kf with x := x, predictedX := r.2 } <;> rfl
  | predictTuned lambda g =>
    simp only [XWorld.step, XOp.counted, XWorld.withEnv, ExtendedKalman.predictTunedNonlinear,
      ExtendedKalman.predictXNonlinear, counted]
    cases g w.env w.kf.x w.kf.predictedX with
    | error e => rfl
    | ok r =>
      simp only [res_bind_ok, pure, Except.pure]
      cases r.2.copyTo w.kf.x with
      | error e => rfl
      | ok x =>
        simp only [res_bind_ok]
        cases ExtendedKalman.predictPTuned { w.kf with x := x, predictedX := r.2 } lambda <;> rfl
  | correct i h =>
    simp only [XWorld.step, XOp.counted, XWorld.withEnv]
    generalize w.obs[i]? = ob
    cases ob with
    | none => rfl
    | some o =>
      obtain ⟨m, o⟩ := o
      simp only [ExtendedKalman.correctNonlinear, ExtendedObservation.correctNonlinear, counted]
      cases h m w.env w.kf.x o.y with
      | error e => rfl
      | ok r =>
        simp only [res_bind_ok, pure, Except.pure]
        cases o.z.subInplaceB r.2 with
        | error e => rfl
        | ok y =>
          simp only [res_bind_ok]
          cases ExtendedObservation.updateWithInnovation bld { o with y := y } w.kf.x w.kf.P <;> rfl
  | assign a =>
    have hobs : ∀ (i : Nat) (g : (m : Nat) → ExtendedObservation n m T → Res (ExtendedObservation n m T)),
        (w.withEnv (w.env, c)).withObs i g = (w.withObs i g).map fun w' => w'.withEnv (w'.env, c) := by
      intro i g
      simp only [XWorld.withObs, XWorld.withEnv]
      generalize w.obs[i]? = ob
      cases ob with
      | none => rfl
      | some o =>
        obtain ⟨m, o⟩ := o
        simp only
        cases g m o <;> rfl
    cases a with
    | x v => simp only [XWorld.step, XOp.counted, XWorld.assign, XWorld.withEnv]; cases w.kf.x.copyFromSlice v <;> rfl
    | A v => simp only [XWorld.step, XOp.counted, XWorld.assign, XWorld.withEnv]; cases w.kf.A.copyFromSlice v <;> rfl
    | P v => simp only [XWorld.step, XOp.counted, XWorld.assign, XWorld.withEnv]; cases w.kf.P.copyFromSlice v <;> rfl
    | Q v => simp only [XWorld.step, XOp.counted, XWorld.assign, XWorld.withEnv]; cases w.kf.Q.copyFromSlice v <;> rfl
    | z i v => exact hobs i _
    | H i v => exact hobs i _
    | R i v => exact hobs i _

/-- C38 over a whole history: if the closures are instrumented to count their calls, nothing else changes (panics
included), and the count grows by exactly the number of predictions and corrections; what a closure captured is handed
on to the next one. -/
theorem C38_history_call_count (bld : Build) (w : XWorld n T σ) (ops : List (XOp n T σ)) (c : Nat) :
    (w.withEnv (w.env, c)).run bld (ops.map XOp.counted) =
      (w.run bld ops).map fun w' => w'.withEnv (w'.env, c + XOp.updates ops) := by
  induction ops generalizing w c with
  | nil => rfl
  | cons op ops ih =>
    have e : XOp.updates (op :: ops) = XOp.updates [op] + XOp.updates ops := by
      cases op <;> simp [XOp.updates, Nat.add_comm]
    rw [List.map_cons, XWorld.run, XWorld.run, counted_step]
    cases w.step bld op with
    | error e => rfl
    | ok w' =>
      change ((w'.withEnv (w'.env, c + XOp.updates [op])).run bld (ops.map XOp.counted)) = _
      rw [ih, e, Nat.add_assoc]
      rfl

/-- A closure that counts its calls and writes only the first cell: `next[0] = x[0] + x[1]`. -/
def Ex.partialClosure : Nat → Mat 2 1 ℚ → Mat 2 1 ℚ → Res (Nat × Mat 2 1 ℚ) := fun st x out => do
  let a ← x.index 0
  let b ← x.index 1
  let out ← out.indexSet 0 (a + b)
  pure (st + 1, out)

/-- It is called once, and the second state component becomes the stale `5` of the prediction buffer. -/
example : ((Ex.filter ℚ).asExtended.predictNonlinear Ex.partialClosure 0).map (fun r => (r.1, r.2.x.data)) =
    .ok (1, [3, 5, 77]) := by decide +kernel

example : KeepsLength Ex.partialClosure ∧ (Ex.filter ℚ).asExtended.asRegular.Valid := by
  refine ⟨?_, (Ex.filter_reps ℚ).valid⟩
  intro st x out st' out' h
  obtain ⟨a, _, h⟩ := bind_ok h
  obtain ⟨b, _, h⟩ := bind_ok h
  obtain ⟨c, h1, h⟩ := bind_ok h
  cases h
  unfold Mat.indexSet at h1
  obtain ⟨d, h2, h1⟩ := bind_ok h1
  cases h1
  unfold wr at h2
  split at h2
  · cases h2; simp
  · cases h2

end Any
end Minikalman
