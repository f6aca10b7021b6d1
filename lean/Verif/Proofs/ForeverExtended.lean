import Verif.Spec.ForeverExtended
import Verif.Proofs.ForeverFixed
import Verif.Props.ExtendedCovariance

/-!
# An extended filter with one state that runs forever
-/

set_option linter.unusedSectionVars false

namespace Minikalman

open Matrix

theorem repsV_one {T : Type} {x : Mat 1 1 T} {a : T} (h : x.data[0]? = some a) : x.RepsV fun _ => a := by
  intro i
  obtain rfl : i = 0 := Subsingleton.elim _ _
  exact h

section Float
variable {fmt : Format} {σ : Type}

theorem xforever_step (bld : Build) {X Z D q B : ℝ} {N c : Nat} (hl : Spec.Lasting fmt X q B N) (hD : 0 ≤ D) (hZ : 2 * (Z + D) ≤ X) (hcN : c ≤ N)
    {w : XWorld 1 (Bin fmt) σ} (hv : w.Valid) (hw : w.asRegular.Runs X Z q B N c) {op : XOp 1 (Bin fmt) σ} {ops : List (XOp 1 (Bin fmt) σ)}
    (hop : op.WellFormed w) (hpc : Spec.Paced N c ((op :: ops).map XOp.plain)) (ht : Spec.XTame X Z D B op) :
    ∃ w' c', w.step bld op = .ok w' ∧ w'.Valid ∧ w.asRegular.SameShape w'.asRegular ∧ c' ≤ N ∧ Spec.Paced N c' (ops.map XOp.plain) ∧
      w'.asRegular.Runs X Z q B N c' ∧ (∀ i h, op = .correct i h → c' = 0) := by
  have hw0 := hw
  obtain ⟨⟨x, A, P, Q, hk, ha, ha1, hq, hqv, hx, hxX, hp, hp0, hp1⟩, hobs⟩ := hw
  have hkv := hv.kf
  have hx0 : w.kf.x.data[0]? = some (x 0) := Mat.repsV_iff.1 hk.x 0 0
  cases op with
  | predict g =>
    obtain ⟨st', out', b, hg, hlen, hb0, hbf, hbX⟩ := ht w.env w.kf.x w.kf.predictedX _ hkv.predictedX ⟨hx0, hx, hxX⟩
    obtain ⟨f', h1, h2, h3, h4, h5, h6, h7, h8, h9⟩ := xpredict_run Nat.one_pos hkv hg hlen (repsV_one hb0) hk.A hk.P hk.Q
    obtain ⟨k', r1, _, r3, _⟩ := predict_any Nat.one_pos hkv hk.x hk.A hk.P hk.Q
    have hstep : w.asRegular.step bld .predict = .ok { w.asRegular with kf := k' } := by
      unfold World.step
      simp only [r1, res_bind_ok]
      rfl
    obtain ⟨c', j1, j2, ⟨⟨x1, A1, P1, Q1, jk, _, _, _, _, _, _, g1, g2, g3⟩, _⟩, _⟩ := forever_step bld hl (Z := Z) (by linarith) hcN hw0
      (op := .predict) trivial hpc trivial hstep
    obtain rfl := jk.P.unique r3
    obtain ⟨u1, u2⟩ := xpredict_frame (env := st') hv h5 h6 h7 h8 (by rw [h4]; exact hlen) h9
    have hA' : f'.A.Reps A := by rw [h5]; exact hk.A
    have hQ' : f'.Q.Reps Q := by rw [h6]; exact hk.Q
    refine ⟨{ w with kf := f', env := st' }, c', ?_, u1, u2, j1, j2,
      ⟨⟨_, A, _, Q, ⟨h2, hA', h3, hQ',
        u1.kf.predictedX, u1.kf.tempP⟩, ha, ha1, hq, hqv, hbf, hbX, g1, g2, g3⟩, hobs⟩, fun _ _ h => nomatch h⟩
    simp only [XWorld.step, h1, res_bind_ok]
    rfl
  | correct i h =>
    have hpc : Spec.Paced N 0 (ops.map XOp.plain) := hpc
    have hi : w.obs[i]? = some w.obs[i] := List.getElem?_eq_getElem hop
    revert hi
    generalize w.obs[i] = oo
    intro hi
    obtain ⟨m, o⟩ := oo
    have hmem : (⟨m, o.asRegular⟩ : (m : Nat) × RegularObservation 1 m (Bin fmt)) ∈ w.asRegular.obs :=
      List.mem_map.2 ⟨_, List.mem_of_getElem? hi, rfl⟩
    obtain ⟨o', z, R, e, ho, hzf, hzX, hR⟩ := hobs _ hmem
    obtain rfl : m = 1 := congrArg Sigma.fst e
    obtain rfl : o.asRegular = o' := eq_of_heq (Sigma.mk.inj e).2
    obtain ⟨st', out', b, hg, hlen, hb0, hbf, hbX⟩ := ht w.env w.kf.x o.y _ ho.y ⟨hx0, hx, hxX⟩
    obtain ⟨y', h1, h2, h3, h4⟩ := y_after ho.valid hlen ho.z (repsV_one hb0)
    obtain ⟨r, x', P', u1, u2, g2, g3, g4, g5, g6, g7, g8⟩ := forever_update bld hl hcN (o := ({ o with y := y' } : ExtendedObservation 1 1 (Bin fmt)).asRegular)
      (z := z 0) (hx := b) h4 ho.H ho.R hk.P hk.x h2 rfl hx hxX hp hp0 hp1 hzf hbf (by
        have h5 := abs_sub (z 0).val (b.val - (x 0).val)
        linarith) hR
    have hfr := frame_of_y (o := o.asRegular) h3 ho.valid u2
    rcases update_safe_frame bld (o := ({ o with y := y' } : ExtendedObservation 1 1 (Bin fmt)).asRegular) Nat.one_pos h4 hkv.x hkv.P with
      ⟨_, q2, _⟩ | ⟨r', q2, _, q4, q5⟩
    · have := u1.symm.trans q2
      cases this
    obtain rfl : r = r' := Except.ok.inj (u1.symm.trans q2)
    obtain ⟨s1, s2⟩ := xcorrect_frame (o' := r.1.asExtended) (env := st') hv hi hfr q4 q5
    refine ⟨{ kf := { w.kf with x := r.2.1, P := r.2.2 }, obs := w.obs.set i ⟨1, r.1.asExtended⟩, env := st' }, 0, ?_, s1, s2, Nat.zero_le _, hpc,
      ⟨⟨x', A, P', Q, ⟨g2, hk.A, g3, hk.Q, hk.predictedX, hk.tempP⟩, ha, ha1, hq, hqv, g4, g5, g6, g7, ?_⟩, fun s hs => ?_⟩, fun _ _ _ => rfl⟩
    · simp only [XWorld.step, hi]
      rw [xcorrect_run bld hg h1]
      have u1' : ({ o with y := y' } : ExtendedObservation 1 1 (Bin fmt)).asRegular.updateWithInnovation bld w.kf.x w.kf.P = .ok r := u1
      rw [u1']
      rfl
    · have := hR.bound
      simp only [pow_zero, one_mul, Nat.cast_zero, zero_mul, add_zero]
      linarith
    · have hs : s ∈ (w.obs.set i ⟨1, r.1.asExtended⟩).map _ := hs
      rw [xasRegular_set] at hs
      rcases List.mem_or_eq_of_mem_set hs with hs | rfl
      · exact hobs s hs
      · have hov := hfr.1
        exact ⟨r.1, z, R, rfl, ⟨u2.H ▸ ho.H, u2.z ▸ ho.z, u2.R ▸ ho.R, hov.y, hov.S, hov.K, hov.tempSInv, hov.tempHP, hov.tempPHt, hov.tempKHP⟩,
          hzf, hzX, hR⟩
  | assign a =>
    obtain ⟨w1, h1, h2, h3⟩ := C40_history_never_panics bld hv (ops := [a.toOp]) (by
      intro o ho
      obtain rfl := List.mem_singleton.1 ho
      exact hop)
    obtain ⟨w2, h4, h5⟩ := bind_ok (show (w.asRegular.step bld a.toOp >>= fun v => v.run bld []) = .ok w1 from h1)
    cases h5
    obtain ⟨v, h6, rfl⟩ := xassign_ok h4
    obtain ⟨c', j1, j2, j3, _⟩ := forever_step bld hl (Z := Z) (by linarith) hcN hw0 (op := a.toOp) hop hpc ht h4
    exact ⟨v, c', h6, h2, h3, j1, j2, j3, fun _ _ h => nomatch h⟩
  | predictTuned _ _ => exact ht.elim

theorem xforever_run (bld : Build) {X Z D q B : ℝ} {N c : Nat} (hl : Spec.Lasting fmt X q B N) (hD : 0 ≤ D) (hZ : 2 * (Z + D) ≤ X) (hcN : c ≤ N)
    {w : XWorld 1 (Bin fmt) σ} (hv : w.Valid) (hw : w.asRegular.Runs X Z q B N c) {ops rest : List (XOp 1 (Bin fmt) σ)}
    (hop : ∀ op ∈ ops, op.WellFormed w) (hpc : Spec.Paced N c ((ops ++ rest).map XOp.plain)) (ht : ∀ op ∈ ops, Spec.XTame X Z D B op) :
    ∃ w' c', w.run bld ops = .ok w' ∧ w'.Valid ∧ w.asRegular.SameShape w'.asRegular ∧ c' ≤ N ∧ Spec.Paced N c' (rest.map XOp.plain) ∧
      w'.asRegular.Runs X Z q B N c' := by
  induction ops generalizing w c with
  | nil => exact ⟨w, c, rfl, hv, .refl _, hcN, hpc, hw⟩
  | cons op ops ih =>
    obtain ⟨w1, c', h1, k0, k0', k1, k2, k3, _⟩ := xforever_step (ops := ops ++ rest) bld hl hD hZ hcN hv hw (hop op List.mem_cons_self) hpc (ht op List.mem_cons_self)
    obtain ⟨w2, c2, j1, j2, j3, j4, j5, j6⟩ := ih k1 k0 k3 (fun o ho => (hop o (List.mem_cons_of_mem _ ho)).congr k0') k2
      (fun o ho => ht o (List.mem_cons_of_mem _ ho))
    refine ⟨w2, c2, ?_, j2, k0'.trans j3, j4, j5, j6⟩
    simp only [XWorld.run, h1, res_bind_ok]
    exact j1

end Float

section Fixed
variable {f : Nat} {σ : Type}

/-- The calls, for watched numbers. -/
def XTameWatched (X Z D B : ℝ) : XOp 1 (Watched f) σ → Prop
  | .predict g => ∀ st x out a, 0 < out.data.length → x.data[0]? = some a ∧ a.clean = true ∧ |a.num.val| ≤ X →
      ∃ st' out' b, g st x out = .ok (st', out') ∧ out'.data.length = out.data.length ∧ out'.data[0]? = some b ∧ b.clean = true ∧ |b.num.val| ≤ X
  | .correct _ h => ∀ st x out a, 0 < out.data.length → x.data[0]? = some a ∧ a.clean = true ∧ |a.num.val| ≤ X →
      ∃ st' out' b, h 1 st x out = .ok (st', out') ∧ out'.data.length = out.data.length ∧ out'.data[0]? = some b ∧ b.clean = true ∧
        |b.num.val - a.num.val| ≤ D
  | .assign a => TameWatched X Z B a.toOp
  | .predictTuned _ _ => False

theorem xforever_step_fixed (bld : Build) {X Z D q B : ℝ} {N c : Nat} (hl : Spec.LastingFixed f X q B N) (hD : 0 ≤ D) (hZ : Z + D ≤ X) (hcN : c ≤ N)
    {w : XWorld 1 (Watched f) σ} (hv : w.Valid) (hw : w.asRegular.RunsFixed X Z q B N c) {op : XOp 1 (Watched f) σ} {ops : List (XOp 1 (Watched f) σ)}
    (hop : op.WellFormed w) (hpc : Spec.Paced N c ((op :: ops).map XOp.plain)) (ht : XTameWatched X Z D B op) :
    ∃ w' c', w.step bld op = .ok w' ∧ w'.Valid ∧ w.asRegular.SameShape w'.asRegular ∧ c' ≤ N ∧ Spec.Paced N c' (ops.map XOp.plain) ∧
      w'.asRegular.RunsFixed X Z q B N c' ∧ (∀ i h, op = .correct i h → c' = 0) := by
  have hw0 := hw
  obtain ⟨⟨x, A, P, Q, hk, ha, ha1, hq, hqv, hx, hxX, hp, hp0, hp1⟩, hobs⟩ := hw
  have hkv := hv.kf
  have hx0 : w.kf.x.data[0]? = some (x 0) := Mat.repsV_iff.1 hk.x 0 0
  cases op with
  | predict g =>
    obtain ⟨st', out', b, hg, hlen, hb0, hbf, hbX⟩ := ht w.env w.kf.x w.kf.predictedX _ hkv.predictedX ⟨hx0, hx, hxX⟩
    obtain ⟨f', h1, h2, h3, h4, h5, h6, h7, h8, h9⟩ := xpredict_run Nat.one_pos hkv hg hlen (repsV_one hb0) hk.A hk.P hk.Q
    obtain ⟨k', r1, _, r3, _⟩ := predict_any Nat.one_pos hkv hk.x hk.A hk.P hk.Q
    have hstep : w.asRegular.step bld .predict = .ok { w.asRegular with kf := k' } := by
      unfold World.step
      simp only [r1, res_bind_ok]
      rfl
    obtain ⟨w2, c', j0, j1, j2, ⟨⟨x1, A1, P1, Q1, jk, _, _, _, _, _, _, g1, g2, g3⟩, _⟩, _⟩ := forever_step_fixed bld hl (Z := Z) (by linarith) hcN hw0
      (op := .predict) trivial hpc trivial
    rw [hstep] at j0
    cases j0
    obtain rfl := jk.P.unique r3
    obtain ⟨u1, u2⟩ := xpredict_frame (env := st') hv h5 h6 h7 h8 (by rw [h4]; exact hlen) h9
    have hA' : f'.A.Reps A := by rw [h5]; exact hk.A
    have hQ' : f'.Q.Reps Q := by rw [h6]; exact hk.Q
    refine ⟨{ w with kf := f', env := st' }, c', ?_, u1, u2, j1, j2,
      ⟨⟨_, A, _, Q, ⟨h2, hA', h3, hQ',
        u1.kf.predictedX, u1.kf.tempP⟩, ha, ha1, hq, hqv, hbf, hbX, g1, g2, g3⟩, hobs⟩, fun _ _ h => nomatch h⟩
    simp only [XWorld.step, h1, res_bind_ok]
    rfl
  | correct i h =>
    have hpc : Spec.Paced N 0 (ops.map XOp.plain) := hpc
    have hi : w.obs[i]? = some w.obs[i] := List.getElem?_eq_getElem hop
    revert hi
    generalize w.obs[i] = oo
    intro hi
    obtain ⟨m, o⟩ := oo
    have hmem : (⟨m, o.asRegular⟩ : (m : Nat) × RegularObservation 1 m (Watched f)) ∈ w.asRegular.obs :=
      List.mem_map.2 ⟨_, List.mem_of_getElem? hi, rfl⟩
    obtain ⟨o', z, R, e, ho, hzf, hzX, hRc, hR⟩ := hobs _ hmem
    obtain rfl : m = 1 := congrArg Sigma.fst e
    obtain rfl : o.asRegular = o' := eq_of_heq (Sigma.mk.inj e).2
    obtain ⟨st', out', b, hg, hlen, hb0, hbf, hbX⟩ := ht w.env w.kf.x o.y _ ho.y ⟨hx0, hx, hxX⟩
    obtain ⟨y', h1, h2, h3, h4⟩ := y_after ho.valid hlen ho.z (repsV_one hb0)
    obtain ⟨r, x', P', u1, u2, g2, g3, g4, g5, g6, g7, g8⟩ := forever_update_fixed bld hl hcN (o := ({ o with y := y' } : ExtendedObservation 1 1 (Watched f)).asRegular)
      (z := z 0) (hx := b) h4 ho.H ho.R hk.P hk.x h2 rfl hx hxX hp hp0 hp1 hzf hbf (by
        have h5 := abs_sub (z 0).num.val (b.num.val - (x 0).num.val)
        linarith) hRc hR
    have hfr := frame_of_y (o := o.asRegular) h3 ho.valid u2
    rcases update_safe_frame bld (o := ({ o with y := y' } : ExtendedObservation 1 1 (Watched f)).asRegular) Nat.one_pos h4 hkv.x hkv.P with
      ⟨_, q2, _⟩ | ⟨r', q2, _, q4, q5⟩
    · have := u1.symm.trans q2
      cases this
    obtain rfl : r = r' := Except.ok.inj (u1.symm.trans q2)
    obtain ⟨s1, s2⟩ := xcorrect_frame (o' := r.1.asExtended) (env := st') hv hi hfr q4 q5
    refine ⟨{ kf := { w.kf with x := r.2.1, P := r.2.2 }, obs := w.obs.set i ⟨1, r.1.asExtended⟩, env := st' }, 0, ?_, s1, s2, Nat.zero_le _, hpc,
      ⟨⟨x', A, P', Q, ⟨g2, hk.A, g3, hk.Q, hk.predictedX, hk.tempP⟩, ha, ha1, hq, hqv, g4, g5, g6, g7, ?_⟩, fun s hs => ?_⟩, fun _ _ _ => rfl⟩
    · simp only [XWorld.step, hi]
      rw [xcorrect_run bld hg h1]
      have u1' : ({ o with y := y' } : ExtendedObservation 1 1 (Watched f)).asRegular.updateWithInnovation bld w.kf.x w.kf.P = .ok r := u1
      rw [u1']
      rfl
    · simp only [Nat.cast_zero, zero_mul, add_zero]
      exact g8
    · have hs : s ∈ (w.obs.set i ⟨1, r.1.asExtended⟩).map _ := hs
      rw [xasRegular_set] at hs
      rcases List.mem_or_eq_of_mem_set hs with hs | rfl
      · exact hobs s hs
      · have hov := hfr.1
        exact ⟨r.1, z, R, rfl, ⟨u2.H ▸ ho.H, u2.z ▸ ho.z, u2.R ▸ ho.R, hov.y, hov.S, hov.K, hov.tempSInv, hov.tempHP, hov.tempPHt, hov.tempKHP⟩,
          hzf, hzX, hRc, hR⟩
  | assign a =>
    obtain ⟨w1, c', h4, j1, j2, j3, _⟩ := forever_step_fixed bld hl (Z := Z) (by linarith) hcN hw0 (op := a.toOp) hop hpc ht
    obtain ⟨h2, h3⟩ := step_keeps hv hop h4
    obtain ⟨v, h6, rfl⟩ := xassign_ok h4
    exact ⟨v, c', h6, h2, h3, j1, j2, j3, fun _ _ h => nomatch h⟩
  | predictTuned _ _ => exact ht.elim

theorem xforever_run_fixed (bld : Build) {X Z D q B : ℝ} {N c : Nat} (hl : Spec.LastingFixed f X q B N) (hD : 0 ≤ D) (hZ : Z + D ≤ X) (hcN : c ≤ N)
    {w : XWorld 1 (Watched f) σ} (hv : w.Valid) (hw : w.asRegular.RunsFixed X Z q B N c) {ops rest : List (XOp 1 (Watched f) σ)}
    (hop : ∀ op ∈ ops, op.WellFormed w) (hpc : Spec.Paced N c ((ops ++ rest).map XOp.plain)) (ht : ∀ op ∈ ops, XTameWatched X Z D B op) :
    ∃ w' c', w.run bld ops = .ok w' ∧ w'.Valid ∧ w.asRegular.SameShape w'.asRegular ∧ c' ≤ N ∧ Spec.Paced N c' (rest.map XOp.plain) ∧
      w'.asRegular.RunsFixed X Z q B N c' := by
  induction ops generalizing w c with
  | nil => exact ⟨w, c, rfl, hv, .refl _, hcN, hpc, hw⟩
  | cons op ops ih =>
    obtain ⟨w1, c', h1, k0, k0', k1, k2, k3, _⟩ := xforever_step_fixed (ops := ops ++ rest) bld hl hD hZ hcN hv hw (hop op List.mem_cons_self) hpc (ht op List.mem_cons_self)
    obtain ⟨w2, c2, j1, j2, j3, j4, j5, j6⟩ := ih k1 k0 k3 (fun o ho => (hop o (List.mem_cons_of_mem _ ho)).congr k0') k2
      (fun o ho => ht o (List.mem_cons_of_mem _ ho))
    refine ⟨w2, c2, ?_, j2, k0'.trans j3, j4, j5, j6⟩
    simp only [XWorld.run, h1, res_bind_ok]
    exact j1

end Fixed
end Minikalman
