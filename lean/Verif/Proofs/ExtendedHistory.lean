import Verif.Proofs.Extended

/-! # Histories of the extended filter: refinement, covariance invariants, two-run properties -/

set_option linter.unusedSectionVars false

namespace Minikalman

open Matrix

variable {T σ : Type} {n m : Nat}

theorem Computes.run {k : Nat} {c : σ → Mat n 1 T → Mat k 1 T → Res (σ × Mat k 1 T)} {g : (Fin n → T) → Fin k → T}
    (h : Computes c g) (st : σ) {x : Mat n 1 T} {out : Mat k 1 T} {X} (hx : x.RepsV X) (ho : out.Valid) :
    ∃ st' out', c st x out = .ok (st', out') ∧ out'.RepsV (g X) ∧ out'.data.length = out.data.length :=
  h st x out X hx ho

section Exact
variable [MDT ℝ] [ExactReal]

theorem xstep_refines (bld : Build) {w : XWorld n ℝ σ} {s : Spec.State n ℝ} (h : w.Reps s) {op : XOp n ℝ σ}
    {sop : Spec.XOp n ℝ} (hi : op.Implements sop) (hop : op.WellFormed w) (hr : s.Regular sop.linear) :
    ∃ w' s', w.step bld op = .ok w' ∧ s.xstep sop = some s' ∧ w'.Reps s' ∧ w.asRegular.SameShape w'.asRegular := by
  have hk : w.kf.asRegular.Reps s.x s.A s.P s.Q := h.kf
  have hv : w.Valid := World.Reps.valid h
  cases hi with
  | @predict c g hc =>
    obtain ⟨st', px, h1, h2, h3⟩ := hc.run w.env hk.x hk.predictedX
    obtain ⟨f', k1, k2, k3, k4, k5, k6, k7, k8, k9⟩ := xpredict_run h.states hk.valid h1 h3 h2 hk.A hk.P hk.Q
    rw [mulSeq_eq_mul, mulSeq_eq_mul] at k3
    have hfr := xpredict_frame (env := st') hv k5 k6 k7 k8 (by rw [k4]; exact h3) k9
    refine ⟨{ w with kf := f', env := st' }, _, ?_, rfl, ⟨h.states, ⟨k2, ?_, k3, ?_, ?_, ?_⟩, h.ctl, h.obs⟩, hfr.2⟩
    · simp only [XWorld.step, k1, res_bind_ok]; rfl
    · show f'.A.Reps _
      rw [k5]; exact hk.A
    · show f'.Q.Reps _
      rw [k6]; exact hk.Q
    · exact hfr.1.kf.predictedX
    · exact hfr.1.kf.tempP
  | @predictTuned lambda c g hc =>
    obtain ⟨st', px, h1, h2, h3⟩ := hc.run w.env hk.x hk.predictedX
    have hl : lambda ≠ 0 := hr
    obtain ⟨f', k1, k2, k3, k4, k5, k6, k7, k8, k9⟩ := xpredictTuned_run h.states hk.valid lambda
      (ExactField.recip_eq _ (mul_ne_zero hl hl)) h1 h3 h2 hk.A hk.P hk.Q
    rw [mulSeq_eq_mul, mulSeq_eq_mul] at k3
    have hfr := xpredict_frame (env := st') hv k5 k6 k7 k8 (by rw [k4]; exact h3) k9
    refine ⟨{ w with kf := f', env := st' }, _, ?_, rfl, ⟨h.states, ⟨k2, ?_, ?_, ?_, ?_, ?_⟩, h.ctl, h.obs⟩, hfr.2⟩
    · simp only [XWorld.step, k1, res_bind_ok]; rfl
    · show f'.A.Reps _
      rw [k5]; exact hk.A
    · show f'.P.Reps _
      convert k3 using 1
      ext i j
      simp [Spec.predPTuned, pow_two, mul_comm]
    · show f'.Q.Reps _
      rw [k6]; exact hk.Q
    · exact hfr.1.kf.predictedX
    · exact hfr.1.kf.tempP
  | @correct i c hh hc =>
    have hi : w.obs[i]? = some w.obs[i] := List.getElem?_eq_getElem hop
    revert hi
    generalize w.obs[i] = oo
    intro hi
    obtain ⟨m, o⟩ := oo
    have hi' : w.asRegular.obs[i]? = some ⟨m, o.asRegular⟩ := by simp [XWorld.asRegular, hi]
    obtain ⟨p, hp, hop'⟩ := forall₂_get h.obs hi'
    cases hop' with | @mk _ _ p hm ho =>
    obtain ⟨st', y, h1, h2, h3⟩ := (hc m).run w.env hk.x (out := o.y) ho.y
    obtain ⟨y', k1, k2, k3, k4⟩ := y_after (o := o.asRegular) ho.valid h3 ho.z h2
    have hpd : (p.H * s.P * p.Hᵀ + p.R).PosDef := hr _ hp
    obtain ⟨o', x', P', r1, r2, r3, r4, r5, _, _, _, _, _, _, r6, r7⟩ :=
      update_exact bld (o := { o.asRegular with y := y' }) hm k4 ho.H ho.R hk.P hk.x k2 hpd
    have hfr := xcorrect_frame (env := st') (o' := o'.asExtended) hv hi (frame_of_y (o := o.asRegular) k3 ho.valid r2) r3 r4
    refine ⟨{ kf := { w.kf with x := x', P := P' }, obs := w.obs.set i ⟨m, o'.asExtended⟩, env := st' },
      { s with x := s.x + Spec.gain p.H s.P p.R *ᵥ (p.z - hh m s.x), P := Spec.corrP p.H s.P p.R }, ?_, ?_,
      ⟨h.states, ⟨r6, hk.A, ?_, hk.Q, hk.predictedX, hk.tempP⟩, h.ctl, ?_⟩, hfr.2⟩
    · simp only [XWorld.step, hi]
      rw [xcorrect_run bld h1 k1]
      have r1' : ({ o with y := y' } : ExtendedObservation n m ℝ).asRegular.updateWithInnovation bld w.kf.x w.kf.P =
        .ok (o', x', P') := r1
      simp only [r1', res_bind_ok]
      rfl
    · simp only [Spec.State.xstep, hp, Option.map_some]
    · rw [Spec.corrP, Matrix.mul_assoc]; exact r7
    · show List.Forall₂ ObsReps (List.map _ _) _
      rw [xasRegular_set]
      refine forall₂_set_left h.obs hp (.mk hm ?_)
      have hv' := hfr.1
      have ho2 := (frame_of_y (o := o.asRegular) k3 ho.valid r2).1
      exact ⟨r2.H ▸ ho.H, r2.z ▸ ho.z, r2.R ▸ ho.R, ho2.y, ho2.S, ho2.K, ho2.tempSInv, ho2.tempHP, ho2.tempPHt, ho2.tempKHP⟩
  | @assign a =>
    obtain ⟨w', s', h1, h2, h3, h4⟩ := step_refines bld h (op := a.toOp) hop hr
    obtain ⟨v, h5, rfl⟩ := xassign_ok h1
    exact ⟨v, s', h5, h2, h3, h4⟩

theorem xrun_refines (bld : Build) {w : XWorld n ℝ σ} {s : Spec.State n ℝ} (h : w.Reps s) {ops : List (XOp n ℝ σ)}
    {sops : List (Spec.XOp n ℝ)} (hi : List.Forall₂ XOp.Implements ops sops) (hops : ∀ op ∈ ops, op.WellFormed w)
    (hr : s.XRegularRun sops) :
    ∃ w' s', w.run bld ops = .ok w' ∧ s.xrun sops = some s' ∧ w'.Reps s' ∧ w.asRegular.SameShape w'.asRegular := by
  induction hi generalizing w s with
  | nil => exact ⟨w, s, rfl, rfl, h, World.SameShape.refl _⟩
  | @cons op sop ops sops hio _ ih =>
    obtain ⟨w1, s1, h1, h2, h3, h4⟩ := xstep_refines bld h hio (hops op (by simp)) hr.1
    obtain ⟨w2, s2, k1, k2, k3, k4⟩ := ih h3 (fun op' ho => (hops op' (by simp [ho])).congr h4) (hr.2 s1 h2)
    refine ⟨w2, s2, ?_, ?_, k3, h4.trans k4⟩
    · simp only [XWorld.run, h1, res_bind_ok]; exact k1
    · simp only [Spec.State.xrun, h2, Option.bind_some]; exact k2

end Exact

/-! ## Covariance invariants -/

theorem xstep_linear [Field T] {s s' : Spec.State n T} {sop : Spec.XOp n T} (h : s.xstep sop = some s') :
    ∃ x, s.step sop.linear = some { s' with x := x } := by
  cases sop with
  | predict g => cases h; exact ⟨_, rfl⟩
  | predictTuned lambda g => cases h; exact ⟨_, rfl⟩
  | correct i hh =>
    simp only [Spec.State.xstep] at h
    cases hi : s.obs[i]? with
    | none => rw [hi] at h; cases h
    | some o =>
      rw [hi] at h; cases h
      simp only [Spec.State.step, Spec.XOp.linear, hi, Option.map_some]
      exact ⟨_, rfl⟩
  | assign a => exact ⟨s'.x, h⟩

theorem cov_x {G G' : ∀ {k : Nat}, Matrix (Fin k) (Fin k) ℝ → Prop} {s : Spec.State n ℝ} {x : Fin n → ℝ}
    (h : Spec.State.Cov G G' { s with x := x }) : s.Cov G G' := ⟨h.P, h.Q, h.ctl, h.obs⟩

theorem xstep_cov_inv {G G' : ∀ {k : Nat}, Matrix (Fin k) (Fin k) ℝ → Prop} (hG : CovClosed G G') {s s' : Spec.State n ℝ}
    {sop : Spec.XOp n ℝ} (h : s.xstep sop = some s') (hs : s.Cov G G') (hd : s.CovData G G' sop.linear)
    (hr : s.Regular sop.linear) : s'.Cov G G' := by
  obtain ⟨x, hx⟩ := xstep_linear h
  exact cov_x (step_cov_inv hG hx hs hd hr)

theorem covData_x {G G' : ∀ {k : Nat}, Matrix (Fin k) (Fin k) ℝ → Prop} {s : Spec.State n ℝ} {x : Fin n → ℝ} {op : Op ℝ}
    (h : Spec.State.CovData G G' { s with x := x } op) : s.CovData G G' op := by
  cases op <;> exact h

theorem xcovData_congr {G G' : ∀ {k : Nat}, Matrix (Fin k) (Fin k) ℝ → Prop} {s s' : Spec.State n ℝ} {sop : Spec.XOp n ℝ}
    {op' : Op ℝ} (h : s.xstep sop = some s') (hd : s.CovData G G' op') : s'.CovData G G' op' := by
  obtain ⟨x, hx⟩ := xstep_linear h
  exact covData_x (covData_congr hx hd)

theorem xrun_cov_inv {G G' : ∀ {k : Nat}, Matrix (Fin k) (Fin k) ℝ → Prop} (hG : CovClosed G G') {s s' : Spec.State n ℝ}
    {ops : List (Spec.XOp n ℝ)} (h : s.xrun ops = some s') (hs : s.Cov G G') (hd : ∀ op ∈ ops, s.CovData G G' op.linear)
    (hr : s.XRegularRun ops) : s'.Cov G G' := by
  induction ops generalizing s with
  | nil => cases h; exact hs
  | cons op ops ih =>
    simp only [Spec.State.xrun] at h
    cases h1 : s.xstep op with
    | none => rw [h1] at h; cases h
    | some s1 =>
      rw [h1] at h
      exact ih h (xstep_cov_inv hG h1 hs (hd op (by simp)) hr.1) (fun o ho => xcovData_congr h1 (hd o (by simp [ho])))
        (hr.2 s1 h1)

theorem xpsd_regularRun {s : Spec.State n ℝ} {ops : List (Spec.XOp n ℝ)} (hs : s.Psd)
    (hl : ∀ op ∈ ops, op.linear.NonzeroLambda) (hd : ∀ op ∈ ops, s.PsdData op.linear) : s.XRegularRun ops := by
  induction ops generalizing s with
  | nil => trivial
  | cons op ops ih =>
    have hr := psd_regular hs (hl op (by simp))
    exact ⟨hr, fun s' h => ih (xstep_cov_inv psd_closed h hs (hd op (by simp)) hr) (fun o ho => hl o (by simp [ho]))
      (fun o ho => xcovData_congr h (hd o (by simp [ho])))⟩

/-! ## Two runs with different closures and data -/

section Any
variable [Zero T] [One T] [Add T] [Sub T] [Mul T] [Neg T] [MDT T]

theorem exRepsZ {R C : Nat} {M : Mat R C T} (h : M.Valid) : ∃ A : Matrix (Fin R) (Fin C) T, M.Reps A := ⟨_, h.reps⟩

theorem obsCov_get {w w' : World n T} (h : w.CovEq w') {i : Nat} {c : (l : Nat) × RegularObservation n l T}
    (hi : w.obs[i]? = some c) : ∃ d, w'.obs[i]? = some d ∧ ObsCovEq c d := forall₂_get h.obs hi

theorem xget_regular {w : XWorld n T σ} {i : Nat} {d : (m : Nat) × RegularObservation n m T}
    (h : w.asRegular.obs[i]? = some d) : w.obs[i]? = some ⟨d.1, d.2.asExtended⟩ := by
  simp only [XWorld.asRegular, List.getElem?_map, Option.map_eq_some_iff] at h
  obtain ⟨o, h1, rfl⟩ := h
  exact h1

theorem xstep_cov (bld : Build) {w w' : XWorld n T σ} (hw : w.Valid) (hw' : w'.Valid)
    (h : w.asRegular.CovEq w'.asRegular) {op op' : XOp n T σ} (hs : op.SameUpToData op') (hop : op.WellFormed w)
    (hop' : op'.WellFormed w') (hk : op.KeepsLength) (hk' : op'.KeepsLength) (ht : op.Total) (ht' : op'.Total) :
    Rel2 (w.step bld op) (w'.step bld op') (fun v v' => v.asRegular.CovEq v'.asRegular) := by
  have hv := hw.kf
  have hv' := hw'.kf
  have hassign : ∀ a a' : Assign T, a.toOp.SameUpToData a'.toOp → a.toOp.WellFormed w.asRegular →
      a'.toOp.WellFormed w'.asRegular →
      Rel2 (w.assign a) (w'.assign a') (fun v v' => v.asRegular.CovEq v'.asRegular) := by
    intro a a' h1 h2 h3
    rcases step_cov bld hw hw' h h1 h2 h3 with ⟨e, k1, k2⟩ | ⟨v, v', k1, k2, k3⟩
    · exact Or.inl ⟨e, xassign_error k1, xassign_error k2⟩
    · obtain ⟨u, l1, rfl⟩ := xassign_ok k1
      obtain ⟨u', l2, rfl⟩ := xassign_ok k2
      exact Or.inr ⟨u, u', l1, l2, k3⟩
  cases hs with
  | predict g g' =>
    obtain ⟨⟨st, px⟩, hg⟩ := ht w.env w.kf.x w.kf.predictedX
    obtain ⟨⟨st', px'⟩, hg'⟩ := ht' w'.env w'.kf.x w'.kf.predictedX
    have hl := hk _ _ _ _ _ hg
    have hl' := hk' _ _ _ _ _ hg'
    have hpx : px.Valid := (show n * 1 ≤ w.kf.predictedX.data.length from hv.predictedX).trans_eq hl.symm
    have hpx' : px'.Valid := (show n * 1 ≤ w'.kf.predictedX.data.length from hv'.predictedX).trans_eq hl'.symm
    obtain ⟨A, hA⟩ := exRepsZ hv.A
    obtain ⟨P, hP⟩ := exRepsZ hv.P
    obtain ⟨Q, hQ⟩ := exRepsZ hv.Q
    obtain ⟨f', h1, _, h3, _, h5, h6, _⟩ := xpredict_run hw.states hv hg hl hpx.repsV hA hP hQ
    obtain ⟨f'', k1, _, k3, _, k5, k6, _⟩ :=
      xpredict_run hw.states hv' hg' hl' hpx'.repsV (h.A.reps hA) (h.P.reps hP) (h.Q.reps hQ)
    simp only [XWorld.step, h1, k1, res_bind_ok]
    refine Rel2.pure ⟨?_, h3.agree k3, ?_, h.ctl, h.obs⟩
    · show f'.A.Agree f''.A
      rw [h5, k5]; exact h.A
    · show f'.Q.Agree f''.Q
      rw [h6, k6]; exact h.Q
  | predictTuned lambda g g' =>
    obtain ⟨⟨st, px⟩, hg⟩ := ht w.env w.kf.x w.kf.predictedX
    obtain ⟨⟨st', px'⟩, hg'⟩ := ht' w'.env w'.kf.x w'.kf.predictedX
    have hl := hk _ _ _ _ _ hg
    have hl' := hk' _ _ _ _ _ hg'
    have hpx : px.Valid := (show n * 1 ≤ w.kf.predictedX.data.length from hv.predictedX).trans_eq hl.symm
    have hpx' : px'.Valid := (show n * 1 ≤ w'.kf.predictedX.data.length from hv'.predictedX).trans_eq hl'.symm
    obtain ⟨A, hA⟩ := exRepsZ hv.A
    obtain ⟨P, hP⟩ := exRepsZ hv.P
    obtain ⟨Q, hQ⟩ := exRepsZ hv.Q
    cases hr : MDT.recip (lambda * lambda) with
    | error e =>
      refine Or.inl ⟨e, ?_, ?_⟩ <;> simp only [XWorld.step]
      · rw [xpredictTuned_panic hw.states hv lambda hr hg hl]; rfl
      · rw [xpredictTuned_panic hw.states hv' lambda hr hg' hl']; rfl
    | ok φ =>
      obtain ⟨f', h1, _, h3, _, h5, h6, _⟩ := xpredictTuned_run hw.states hv lambda hr hg hl hpx.repsV hA hP hQ
      obtain ⟨f'', k1, _, k3, _, k5, k6, _⟩ :=
        xpredictTuned_run hw.states hv' lambda hr hg' hl' hpx'.repsV (h.A.reps hA) (h.P.reps hP) (h.Q.reps hQ)
      simp only [XWorld.step, h1, k1, res_bind_ok]
      refine Rel2.pure ⟨?_, h3.agree k3, ?_, h.ctl, h.obs⟩
      · show f'.A.Agree f''.A
        rw [h5, k5]; exact h.A
      · show f'.Q.Agree f''.Q
        rw [h6, k6]; exact h.Q
  | correct i hh hh' =>
    have hi : w.obs[i]? = some w.obs[i] := List.getElem?_eq_getElem hop
    revert hi
    generalize w.obs[i] = oo
    intro hi
    obtain ⟨m, o⟩ := oo
    have hir : w.asRegular.obs[i]? = some ⟨m, o.asRegular⟩ := by simp [XWorld.asRegular, hi]
    obtain ⟨d, hd, hod⟩ := obsCov_get h hir
    cases hod with | @mk _ _ p hH hR =>
    have hi' : w'.obs[i]? = some ⟨m, p.asExtended⟩ := xget_regular hd
    obtain ⟨hm, ho⟩ := xvalid_mem hw hi
    obtain ⟨_, hp⟩ := xvalid_mem hw' hi'
    have ho : o.asRegular.Valid := ho
    have hp : p.Valid := hp
    obtain ⟨⟨st, y⟩, hg⟩ := ht m w.env w.kf.x o.y
    obtain ⟨⟨st', y'⟩, hg'⟩ := ht' m w'.env w'.kf.x p.y
    have hl := hk _ _ _ _ _ _ hg
    have hl' := hk' _ _ _ _ _ _ hg'
    have hy : y.Valid := (show m * 1 ≤ o.y.data.length from ho.y).trans_eq hl.symm
    have hy' : y'.Valid := (show m * 1 ≤ p.y.data.length from hp.y).trans_eq hl'.symm
    obtain ⟨z, h1, h2, h3, h4⟩ := y_after ho hl ho.z.repsV hy.repsV
    obtain ⟨z', k1, k2, k3, k4⟩ := y_after hp hl' hp.z.repsV hy'.repsV
    simp only [XWorld.step, hi, hi']
    rw [xcorrect_run bld hg h1, xcorrect_run bld (o := p.asExtended) hg' k1]
    simp only [bind_assoc, res_bind_ok]
    refine (update_rel bld (o := ({ o with y := z } : ExtendedObservation n m T).asRegular)
      (o' := ({ p.asExtended with y := z' } : ExtendedObservation n m T).asRegular) hm h4 k4 hv.P hH hR h.P hv.x.repsV h2
      hv'.x.repsV k2).bind ?_
    rintro ⟨o1, x1, P1⟩ ⟨o2, x2, P2⟩ ⟨r1, r2, _, _, _, _, _, _, r3, _⟩
    refine Rel2.pure ⟨h.A, r3, h.Q, h.ctl, ?_⟩
    show List.Forall₂ ObsCovEq (List.map _ _) (List.map _ _)
    rw [xasRegular_set, xasRegular_set]
    refine forall₂_set h.obs i (.mk ?_ ?_)
    · show o1.H.Agree o2.H
      rw [r1.H, r2.H]; exact hH
    · show o1.R.Agree o2.R
      rw [r1.R, r2.R]; exact hR
  | assign a => exact hassign a a (.same _) hop hop'
  | assignX v v' => exact hassign (.x v) (.x v') (.setX v v') hop hop'
  | assignZ i v v' => exact hassign (.z i v) (.z i v') (.setZ i v v') hop hop'

theorem xstep_ok {bld : Build} {w w' : XWorld n T σ} (hw : w.Valid) {op : XOp n T σ} (hop : op.WellFormed w)
    (hk : op.KeepsLength) (h : w.step bld op = .ok w') : w'.Valid ∧ w.asRegular.SameShape w'.asRegular := by
  rcases xstep_safe bld hw hop hk with ⟨e, he, _⟩ | ⟨v, h1, h2⟩
  · rw [h] at he; cases he
  · rw [h] at h1; cases h1; exact h2

theorem xrun_cov (bld : Build) {w w' : XWorld n T σ} (hw : w.Valid) (hw' : w'.Valid)
    (h : w.asRegular.CovEq w'.asRegular) {ops ops' : List (XOp n T σ)} (hs : List.Forall₂ XOp.SameUpToData ops ops')
    (hops : ∀ op ∈ ops, op.WellFormed w) (hops' : ∀ op ∈ ops', op.WellFormed w')
    (hk : ∀ op ∈ ops, op.KeepsLength ∧ op.Total) (hk' : ∀ op ∈ ops', op.KeepsLength ∧ op.Total) :
    Rel2 (w.run bld ops) (w'.run bld ops') (fun v v' => v.asRegular.CovEq v'.asRegular) := by
  induction hs generalizing w w' with
  | nil => exact Rel2.pure h
  | @cons op op' ops ops' ho _ ih =>
    unfold XWorld.run
    have h1 := xstep_cov bld hw hw' h ho (hops op (by simp)) (hops' op' (by simp)) (hk op (by simp)).1
      (hk' op' (by simp)).1 (hk op (by simp)).2 (hk' op' (by simp)).2
    rcases h1 with ⟨e, k1, k2⟩ | ⟨v, v', k1, k2, k3⟩
    · exact Or.inl ⟨e, by rw [k1]; rfl, by rw [k2]; rfl⟩
    · rw [k1, k2]
      simp only [res_bind_ok]
      obtain ⟨l1, l2⟩ := xstep_ok hw (hops op (by simp)) (hk op (by simp)).1 k1
      obtain ⟨l3, l4⟩ := xstep_ok hw' (hops' op' (by simp)) (hk' op' (by simp)).1 k2
      exact ih l1 l3 k3 (fun o ho => (hops o (by simp [ho])).congr l2) (fun o ho => (hops' o (by simp [ho])).congr l4)
        (fun o ho => hk o (by simp [ho])) (fun o ho => hk' o (by simp [ho]))

end Any
end Minikalman
