import Verif.Props.Observer
import Verif.Props.Monotone
import Verif.Props.ExtendedHistory

/-!
# Property C106: covariance results carry over to the extended filter

The covariance an extended filter reports is that of a regular filter with the Jacobians as its matrices that makes the same calls
(`Spec.XOp.linear`). So what C70, C84 and C105 say about the covariance of the regular filter holds for the extended one, whatever
the functions are.
-/

set_option linter.unusedSectionVars false

namespace Minikalman

open Matrix Filter Topology

variable {n : Nat} {σ τ : Type}

theorem xrun_linear {sops : List (Spec.XOp n ℝ)} : ∀ {s s1 : Spec.State n ℝ}, s.xrun sops = some s1 →
    ∀ x' : Fin n → ℝ, ∃ x1, Spec.State.run { s with x := x' } (sops.map Spec.XOp.linear) = some { s1 with x := x1 } := by
  induction sops with
  | nil => intro s s1 h x'; cases h; exact ⟨x', rfl⟩
  | cons op sops ih =>
    intro s s1 h x'
    simp only [Spec.State.xrun] at h
    cases e1 : s.xstep op with
    | none => rw [e1] at h; cases h
    | some t =>
      rw [e1, Option.bind_some] at h
      obtain ⟨y, hy⟩ := xstep_linear e1
      obtain ⟨y', hy'⟩ := Spec.step_other_x hy x'
      obtain ⟨x1, hx1⟩ := ih h y'
      refine ⟨x1, ?_⟩
      rw [List.map_cons, Spec.State.run, hy', Option.bind_some]
      exact hx1

/-- The covariance an extended program ends with. -/
theorem xrun_P [MDT ℝ] [ExactReal] (bld : Build) {w : XWorld n ℝ σ} {s : Spec.State n ℝ} (h : w.Reps s) (hs : s.Psd)
    {ops : List (XOp n ℝ σ)} {sops : List (Spec.XOp n ℝ)} (hi : List.Forall₂ XOp.Implements ops sops)
    (hops : ∀ op ∈ ops, op.WellFormed w) (hl : ∀ op ∈ sops, op.linear.NonzeroLambda) (hd : ∀ op ∈ sops, s.PsdData op.linear)
    (x' : Fin n → ℝ) :
    ∃ w1 s1, w.run bld ops = .ok w1 ∧ w1.kf.P.Reps s1.P ∧
      Spec.State.run { s with x := x' } (sops.map Spec.XOp.linear) = some s1 := by
  obtain ⟨w1, s1, h1, h2, h3, _⟩ := xrun_refines bld h hi hops (xpsd_regularRun hs hl hd)
  obtain ⟨x1, hx⟩ := xrun_linear h2 x'
  exact ⟨w1, { s1 with x := x1 }, h1, h3.kf.P, hx⟩

/-- C106: in exact arithmetic, an extended program (any functions) and a regular program with the same covariances and matrices that
makes the corresponding calls end with the same covariance; their states may have nothing to do with each other. None panics. -/
theorem C106_same_covariance [MDT ℝ] [ExactReal] (bld bld' : Build) {w : XWorld n ℝ σ} {s : Spec.State n ℝ} (h : w.Reps s)
    (hs : s.Psd) {ops : List (XOp n ℝ σ)} {sops : List (Spec.XOp n ℝ)} (hi : List.Forall₂ XOp.Implements ops sops)
    (hops : ∀ op ∈ ops, op.WellFormed w) (hl : ∀ op ∈ sops, op.linear.NonzeroLambda) (hd : ∀ op ∈ sops, s.PsdData op.linear)
    {v : World n ℝ} {x' : Fin n → ℝ} (hv : v.Reps { s with x := x' }) (hv' : ∀ op ∈ sops, op.linear.WellFormed v) :
    ∃ w1 v1 P, w.run bld ops = .ok w1 ∧ v.run bld' (sops.map Spec.XOp.linear) = .ok v1 ∧ w1.kf.P.Reps P ∧ v1.kf.P.Reps P := by
  obtain ⟨w1, s1, h1, h2, h3⟩ := xrun_P bld h hs hi hops hl hd x'
  have hs' : Spec.State.Psd { s with x := x' } := ⟨hs.P, hs.Q, hs.ctl, hs.obs⟩
  obtain ⟨v1, s2, k1, k2, k3, _⟩ := run_refines bld' hv (fun op ho => by
    obtain ⟨o, ho', rfl⟩ := List.mem_map.1 ho
    exact hv' o ho') (psd_regularRun (ops := sops.map Spec.XOp.linear) hs' (fun op ho => by
      obtain ⟨o, ho', rfl⟩ := List.mem_map.1 ho
      exact hl o ho') (fun op ho => by
      obtain ⟨o, ho', rfl⟩ := List.mem_map.1 ho
      exact hd o ho'))
  rw [h3] at k2
  cases k2
  exact ⟨w1, v1, s1.P, h1, k1, h2, k3.kf.P⟩

/-- C106: less noise and more measurements never make the covariance of an extended filter larger (C70 for the extended filter).
The functions, states and measured values of the two programs may differ in any way; the Jacobians have to be the same. -/
theorem C106_history_monotone [MDT ℝ] [ExactReal] (bld bld' : Build) {w : XWorld n ℝ σ} {w' : XWorld n ℝ τ}
    {s s' : Spec.State n ℝ} (h : w.Reps s) (h' : w'.Reps s') (hb : s.Below s') (hs : s.Psd) {ops : List (XOp n ℝ σ)}
    {ops' : List (XOp n ℝ τ)} {sops sops' : List (Spec.XOp n ℝ)} (hi : List.Forall₂ XOp.Implements ops sops)
    (hi' : List.Forall₂ XOp.Implements ops' sops') (hops : ∀ op ∈ ops, op.WellFormed w) (hops' : ∀ op ∈ ops', op.WellFormed w')
    (hl : ∀ op ∈ sops, op.linear.NonzeroLambda) (hl' : ∀ op ∈ sops', op.linear.NonzeroLambda)
    (hd : ∀ op ∈ sops, s.PsdData op.linear)
    (ho : Spec.OpsBelow n (s.ctl.map Sigma.fst) (s.obs.map Sigma.fst) (sops.map Spec.XOp.linear) (sops'.map Spec.XOp.linear)) :
    ∃ w1 w1' P P', w.run bld ops = .ok w1 ∧ w'.run bld' ops' = .ok w1' ∧ w1.kf.P.Reps P ∧ w1'.kf.P.Reps P' ∧
      (P' - P).PosSemidef := by
  have hm : ∀ {p : Op ℝ → Prop} {l : List (Spec.XOp n ℝ)}, (∀ op ∈ l, p op.linear) → ∀ op ∈ l.map Spec.XOp.linear, p op := by
    intro p l hp op hop
    obtain ⟨o, ho', rfl⟩ := List.mem_map.1 hop
    exact hp o ho'
  have hd' := Spec.opsBelow_data hb ho (hm hd)
  obtain ⟨w1, s1, h1, h2, h3⟩ := xrun_P bld h hs hi hops hl hd s.x
  obtain ⟨w1', s1', h1', h2', h3'⟩ := xrun_P bld' h' (hb.psd hs) hi' hops' hl'
    (fun op hop => hd' _ (List.mem_map_of_mem hop)) s'.x
  exact ⟨w1, w1', s1.P, s1'.P, h1, h1', h2, h2', (Spec.run_below hb hs ho (hm hl) (hm hl') (hm hd) h3 h3').P⟩

/-- Extended programs with these Jacobians and noises, and any functions, that end with a variance of `v` of at most `b`; `calls` are
the calls with the functions left out. -/
def XVarianceAtMost [MDT ℝ] (s : Spec.State n ℝ) (calls : List (Op ℝ)) (v : Fin n → ℝ) (b : ℝ) : Prop :=
  ∀ (σ : Type) (bld : Build) (w : XWorld n ℝ σ) (x0 : Fin n → ℝ) (P0 : Matrix (Fin n) (Fin n) ℝ) (ops : List (XOp n ℝ σ))
    (sops : List (Spec.XOp n ℝ)), w.Reps { s with x := x0, P := P0 } → P0.PosSemidef → sops.map Spec.XOp.linear = calls →
    List.Forall₂ XOp.Implements ops sops → (∀ op ∈ ops, op.WellFormed w) →
    ∃ w1 P, w.run bld ops = .ok w1 ∧ w1.kf.P.Reps P ∧ v ⬝ᵥ P *ᵥ v ≤ b

theorem xreps_other_P {w : XWorld n ℝ σ} {s : Spec.State n ℝ} (h : w.Reps s) (P0 : Matrix (Fin n) (Fin n) ℝ) :
    XWorld.Reps { w with kf := { w.kf with P := ⟨Spec.rowMajor P0⟩ } } { s with x := s.x, P := P0 } :=
  reps_other_P (w := w.asRegular) h P0

/-- C106: the variance of a combination `v` of the state variables an extended filter ends with is bounded, for all initial estimates
and covariances and all functions, if and only if the measurements of the linearised system determine `v` (C105 for the extended
filter). -/
theorem C106_bounded_iff_determined [MDT ℝ] [ExactReal] {w : XWorld n ℝ σ} {s : Spec.State n ℝ} (h : w.Reps s) (hs : s.Psd)
    {ops : List (XOp n ℝ σ)} {sops : List (Spec.XOp n ℝ)} (hi : List.Forall₂ XOp.Implements ops sops)
    (hops : ∀ op ∈ ops, op.WellFormed w) (hl : ∀ op ∈ sops, op.linear.NonzeroLambda) (hd : ∀ op ∈ sops, s.PsdData op.linear)
    (hk : ∀ op ∈ sops, Spec.KeepsCovariance op.linear) (v : Fin n → ℝ) :
    (∃ b, XVarianceAtMost s (sops.map Spec.XOp.linear) v b) ↔ s.Determines (sops.map Spec.XOp.linear) v := by
  have hm : ∀ {p : Op ℝ → Prop} {l : List (Spec.XOp n ℝ)}, (∀ op ∈ l, p op.linear) → ∀ op ∈ l.map Spec.XOp.linear, p op := by
    intro p l hp op hop
    obtain ⟨o, ho', rfl⟩ := List.mem_map.1 hop
    exact hp o ho'
  obtain ⟨_, s1, _, _, hr⟩ := xrun_P ⟨true, false⟩ h hs hi hops hl hd s.x
  constructor
  · rintro ⟨b, hb⟩
    by_contra hn
    obtain ⟨P0, hP0, hu⟩ := Spec.undetermined_unbounded hr (hm hl) (hm hd) (hm hk) hn b
    have hs' : Spec.State.Psd { s with x := s.x, P := P0 } := ⟨hP0, hs.Q, hs.ctl, hs.obs⟩
    obtain ⟨t1, r1, r2⟩ := hu { s with x := s.x, P := P0 } rfl hs' (by rw [sub_self]; exact .zero)
    have hw' : ∀ op ∈ ops, op.WellFormed { w with kf := { w.kf with P := ⟨Spec.rowMajor P0⟩ } } := fun op hop => by
      have h1 := hops op hop
      obtain ⟨so, hso, him⟩ : ∃ so ∈ sops, XOp.Implements op so := Spec.forall₂_mem_right (List.Forall₂.flip hi) hop
      have h2 := hk so hso
      cases him with
      | predict _ => exact h1
      | predictTuned _ => exact h1
      | correct _ => exact h1
      | assign => exact wellFormed_other_P (w := w.asRegular) ⟨Spec.rowMajor P0⟩ h2 h1
    obtain ⟨w1, P, q1, q2, q3⟩ := hb σ ⟨true, false⟩ _ s.x P0 ops sops (xreps_other_P h P0) hP0 rfl hi hw'
    obtain ⟨w1', t1', p1, p2, p3⟩ := xrun_P ⟨true, false⟩ (xreps_other_P h P0) hs' hi hw' hl hd s.x
    rw [q1] at p1
    cases p1
    have hr1 : t1' = t1 := Option.some.inj (p3.symm.trans r1)
    subst hr1
    rw [q2.unique p2] at q3
    linarith
  · intro hv
    obtain ⟨b, hb⟩ := Spec.determined_bounded hr (hm hl) (hm hd) (hm hk) hv
    refine ⟨b, fun σ' bld w' x0 P0 ops' sops' hw hP0 hcalls hi' hops' => ?_⟩
    have hs' : Spec.State.Psd { s with x := x0, P := P0 } := ⟨hP0, hs.Q, hs.ctl, hs.obs⟩
    obtain ⟨t1, r1, r2⟩ := hb { s with x := x0, P := P0 } rfl hs'
    have hmem : ∀ op ∈ sops', op.linear ∈ sops.map Spec.XOp.linear := fun op hop => by
      rw [← hcalls]; exact List.mem_map_of_mem hop
    obtain ⟨w1, t1', p1, p2, p3⟩ := xrun_P bld hw hs' hi' hops' (fun op hop => hm hl _ (hmem op hop))
      (fun op hop => hm hd _ (hmem op hop)) x0
    rw [hcalls] at p3
    have hr1 : t1' = t1 := Option.some.inj (p3.symm.trans r1)
    subst hr1
    exact ⟨w1, _, p1, p2, r2⟩

/-- C106: an extended filter that is operated periodically with the same Jacobians in every cycle (any functions, which may differ
from cycle to cycle), where `N` cycles determine the state of the linearised system: from cycle `N` on the covariance is below one
bound, for all functions, initial estimates and covariances; and if `Q` is positive definite and a cycle contains a prediction, all
covariances converge to the same limit. `cyc` are the calls of the cycles with the functions left out. -/
theorem C106_periodic [MDT ℝ] [ExactReal] {v : World n ℝ} {s : Spec.State n ℝ} (h : v.Reps s) (hs : s.Psd)
    {cyc : Nat → List (Op ℝ)} (hc : Spec.Periodic cyc) (hops : ∀ k, ∀ op ∈ cyc k, op.WellFormed v)
    (hl : ∀ op ∈ cyc 0, op.NonzeroLambda) {N : Nat} (ho : s.Observable (Spec.cycles cyc N)) :
    ∃ B L : Matrix (Fin n) (Fin n) ℝ, ∀ (σ : Type) (bld : Build) (w : XWorld n ℝ σ) (x0 : Fin n → ℝ)
      (P0 : Matrix (Fin n) (Fin n) ℝ) (ops : Nat → List (XOp n ℝ σ)) (sops : Nat → List (Spec.XOp n ℝ)),
      w.Reps { s with x := x0, P := P0 } → P0.PosSemidef → (∀ k, (sops k).map Spec.XOp.linear = Spec.cycles cyc k) →
      (∀ k, List.Forall₂ XOp.Implements (ops k) (sops k)) → (∀ k, ∀ op ∈ ops k, op.WellFormed w) →
      ∃ P : Nat → Matrix (Fin n) (Fin n) ℝ, (∀ k, ∃ wk, w.run bld (ops k) = .ok wk ∧ wk.kf.P.Reps (P k)) ∧
        (∀ k, N ≤ k → (B - P k).PosSemidef) ∧
        (s.Q.PosDef → (∃ op ∈ cyc 0, Spec.IsPredict op) → L.PosDef ∧ Tendsto P atTop (𝓝 L)) := by
  obtain ⟨β, hβ, hb⟩ := observable_cycles h hs hc hops hl ho
  have hf := Spec.covRun_map hs (cyc 0)
  obtain ⟨C, c1, c2, c3⟩ := Spec.bounded_fixed hf hb
  have hsteps : ∀ k, ∀ op ∈ Spec.cycles cyc k, Spec.StepOrData op := fun k op hop => by
    obtain ⟨j, hj⟩ := Spec.mem_cycles hop
    exact hc.stepsAll j op hj
  have hlam : ∀ k, ∀ op ∈ Spec.cycles cyc k, op.NonzeroLambda := fun k op hop => by
    obtain ⟨j, hj⟩ := Spec.mem_cycles hop
    obtain ⟨o, ho, hd⟩ := Spec.forall₂_mem_right (hc.same j) hj
    exact Spec.lambda_data hd (hl o ho)
  have hlim : ∃ L : Matrix (Fin n) (Fin n) ℝ, s.Q.PosDef → (∃ op ∈ cyc 0, Spec.IsPredict op) → L.PosDef ∧
      ∀ P, P.PosSemidef → Tendsto (fun k => (Spec.covRun s (cyc 0))^[k] P) atTop (𝓝 L) := by
    by_cases hq : s.Q.PosDef ∧ ∃ op ∈ cyc 0, Spec.IsPredict op
    · obtain ⟨L, l1, _, _, _, l5⟩ := Spec.strict_converges hf (Spec.covRun_strict hs hq.1 hq.2) c1 (by
        rw [c2, sub_self]; exact .zero)
      exact ⟨L, fun _ _ => ⟨l1, l5⟩⟩
    · exact ⟨0, fun a b => absurd ⟨a, b⟩ hq⟩
  obtain ⟨L, hL⟩ := hlim
  refine ⟨Matrix.diagonal fun _ => β, L, fun σ bld w x0 P0 ops sops hw hP0 hcalls hi hops' =>
    ⟨fun k => (Spec.covRun s (cyc 0))^[k] P0, fun k => ?_, fun k hk => ?_, fun hQ hp => ⟨(hL hQ hp).1, (hL hQ hp).2 P0 hP0⟩⟩⟩
  · have hs' : Spec.State.Psd { s with x := x0, P := P0 } := ⟨hP0, hs.Q, hs.ctl, hs.obs⟩
    have hmem : ∀ op ∈ sops k, op.linear ∈ Spec.cycles cyc k := fun op hop => by
      rw [← hcalls k]; exact List.mem_map_of_mem hop
    obtain ⟨w1, t1, p1, p2, p3⟩ := xrun_P bld hw hs' (hi k) (hops' k) (fun op hop => hlam k _ (hmem op hop))
      (fun op hop => Spec.psdData_steps _ (hsteps k _ (hmem op hop))) x0
    rw [hcalls k] at p3
    have hP : t1.P = (Spec.covRun s (cyc 0))^[k] P0 := by
      rw [(Spec.run_cov (hsteps k) p3).2, Spec.covRun_cycles hc, (Spec.SameModel.refl s x0 P0).covRun]
    exact ⟨w1, p1, by rwa [hP] at p2⟩
  · show (Matrix.diagonal (fun _ : Fin n => β) - (Spec.covRun s (cyc 0))^[k] P0).PosSemidef
    rw [← Nat.add_sub_cancel' hk, Function.iterate_add_apply]
    exact hb _ ((hf.iter _).psd hP0)

/-! ## In any arithmetic, bit for bit -/

section Any

variable {T : Type} [Zero T] [One T] [Add T] [Sub T] [Mul T] [Neg T] [MDT T]

/-- The regular call with the same name and arguments, without the function. -/
def XOp.plain : XOp n T σ → Op T
  | .predict _ => .predict
  | .predictTuned lambda _ => .predictTuned lambda
  | .correct i _ => .correct i
  | .assign a => a.toOp

/-- `linearClosure`, except that it leaves the buffer alone where `linearClosure` would panic. -/
def tryLinear {k : Nat} (M : Mat k n T) (st : σ) (x : Mat n 1 T) (out : Mat k 1 T) : Res (σ × Mat k 1 T) :=
  match M.multRowvector x out with
  | .ok r => if r.data.length = out.data.length then .ok (st, r) else .ok (st, out)
  | .error _ => .ok (st, out)

theorem tryLinear_keeps {k : Nat} (M : Mat k n T) : KeepsLength (tryLinear (σ := σ) M) := by
  intro st x out st' out' h
  unfold tryLinear at h
  split at h
  · split at h
    · cases h; assumption
    · cases h; rfl
  · cases h; rfl

theorem tryLinear_total {k : Nat} (M : Mat k n T) (st : σ) (x : Mat n 1 T) (out : Mat k 1 T) :
    ∃ r, tryLinear M st x out = .ok r := by
  unfold tryLinear
  split
  · split
    · exact ⟨_, rfl⟩
    · exact ⟨_, rfl⟩
  · exact ⟨_, rfl⟩

theorem tryLinear_eq {k : Nat} {M : Mat k n T} (hn : 0 < n) (hM : M.Valid) {x : Mat n 1 T} (hx : x.Valid) {out : Mat k 1 T}
    (ho : out.Valid) (st : σ) : tryLinear M st x out = linearClosure M st x out := by
  obtain ⟨r, h1, _, h2⟩ := Mat.multRowvector_reps hn hM.reps hx.repsV ho
  have h2 := h2.1
  simp only [tryLinear, linearClosure, h1, h2, if_true]
  rfl

theorem xstep_plain (bld : Build) {w : XWorld n T σ} {v : World n T} (hw : w.Valid) (hv : v.Valid) (h : w.asRegular.CovEq v)
    {op : XOp n T σ} (hop : op.WellFormed w) (hop' : op.plain.WellFormed v) (hk : op.KeepsLength) (ht : op.Total) :
    Rel2 (w.step bld op) (v.step bld op.plain) (fun w1 v1 => w1.asRegular.CovEq v1) := by
  have back : ∀ {v : World n T}, v.ctl = [] → (v.asExtended w.env).asRegular = v := by
    intro v hc
    obtain ⟨kf, ctl, obs⟩ := v
    cases hc
    show World.mk _ _ (List.map _ (List.map _ _)) = _
    rw [List.map_map]
    congr 1
    exact List.map_id _
  have hc : v.ctl = [] := List.forall₂_nil_left_iff.1 h.ctl
  have e := back hc
  have key : ∀ op' op'' : XOp n T σ, op.SameUpToData op' → op'.WellFormed (v.asExtended w.env) → op'.KeepsLength → op'.Total →
      LinearCall v op.plain op'' → (v.asExtended w.env).step bld op' = (v.asExtended w.env).step bld op'' →
      Rel2 (w.step bld op) (v.step bld op.plain) (fun w1 v1 => w1.asRegular.CovEq v1) := by
    intro op' op'' h1 h2 h3 h4 h5 h5'
    have h6 := xstep_cov bld hw (w' := v.asExtended w.env) (show World.Valid _ by rw [e]; exact hv) (by rw [e]; exact h) h1 hop
      h2 hk h3 ht h4
    rw [h5', linear_step bld h5] at h6
    rcases h6 with ⟨er, k1, k2⟩ | ⟨w1, v1, k1, k2, k3⟩
    · cases hs : v.step bld op.plain with
      | error e' => rw [hs] at k2; cases k2; exact Or.inl ⟨_, k1, rfl⟩
      | ok v' => rw [hs] at k2; cases k2
    · cases hs : v.step bld op.plain with
      | error e' => rw [hs] at k2; cases k2
      | ok v' =>
        rw [hs] at k2
        cases k2
        have hc' : v'.ctl = [] := by
          have := (step_ok hv hop' hs).2.ctl
          rw [hc] at this
          exact List.map_eq_nil_iff.1 this
        rw [back hc'] at k3
        exact Or.inr ⟨_, _, k1, rfl, k3⟩
  cases op with
  | predict g =>
    refine key _ _ (.predict g (tryLinear v.kf.A)) trivial (tryLinear_keeps _) (tryLinear_total _) .predict ?_
    simp only [XWorld.step, ExtendedKalman.predictNonlinear, ExtendedKalman.predictXNonlinear]
    rw [show tryLinear v.kf.A (v.asExtended w.env).env (v.asExtended w.env).kf.x (v.asExtended w.env).kf.predictedX = _ from
      tryLinear_eq hv.states hv.kf.A hv.kf.x hv.kf.predictedX _]
    rfl
  | predictTuned lambda g =>
    refine key _ _ (.predictTuned lambda g (tryLinear v.kf.A)) trivial (tryLinear_keeps _) (tryLinear_total _)
      (.predictTuned lambda) ?_
    simp only [XWorld.step, ExtendedKalman.predictTunedNonlinear, ExtendedKalman.predictXNonlinear]
    rw [show tryLinear v.kf.A (v.asExtended w.env).env (v.asExtended w.env).kf.x (v.asExtended w.env).kf.predictedX = _ from
      tryLinear_eq hv.states hv.kf.A hv.kf.x hv.kf.predictedX _]
    rfl
  | correct i g =>
    have hi : v.obs[i]? = some v.obs[i] := List.getElem?_eq_getElem hop'
    revert hi
    generalize v.obs[i] = oo
    intro hi
    obtain ⟨m, o⟩ := oo
    have hi' : (v.asExtended w.env).obs[i]? = some ⟨m, o.asExtended⟩ := by simp [World.asExtended, hi]
    obtain ⟨_, ho⟩ := hv.obs _ (List.mem_of_getElem? hi)
    refine key _ _ (.correct i g fun k => tryLinear (⟨o.H.data⟩ : Mat k n T)) ?_ (fun _ => tryLinear_keeps _)
      (fun _ => tryLinear_total _) (.correct i _ hi) ?_
    · show i < (v.asExtended w.env).obs.length
      rw [World.asExtended, List.length_map]
      exact hop'
    · simp only [XWorld.step, hi', ExtendedKalman.correctNonlinear, ExtendedObservation.correctNonlinear]
      rw [show tryLinear (⟨o.H.data⟩ : Mat m n T) (v.asExtended w.env).env (v.asExtended w.env).kf.x o.asExtended.y = _ from
        tryLinear_eq hv.states ho.H hv.kf.x ho.y _]
      rfl
  | assign a =>
    refine key _ _ (.assign a) ?_ trivial trivial (.assign a) rfl
    show a.toOp.WellFormed (v.asExtended w.env).asRegular
    rw [e]
    exact hop'

/-- C106, bit for bit and in any arithmetic (floating point, fixed point, …): an extended filter with any functions (which do not
panic and keep the length of their buffer) and a regular filter with the same matrices and covariances that makes the same calls
(without the functions) end with bitwise the same covariance, or both panic for the same reason. -/
theorem C106_bitwise (bld : Build) {w : XWorld n T σ} {v : World n T} (hw : w.Valid) (hv : v.Valid) (h : w.asRegular.CovEq v)
    {ops : List (XOp n T σ)} (hops : ∀ op ∈ ops, op.WellFormed w) (hops' : ∀ op ∈ ops, op.plain.WellFormed v)
    (hk : ∀ op ∈ ops, op.KeepsLength ∧ op.Total) :
    (∃ e, w.run bld ops = .error e ∧ v.run bld (ops.map XOp.plain) = .error e) ∨
    ∃ w1 v1, w.run bld ops = .ok w1 ∧ v.run bld (ops.map XOp.plain) = .ok v1 ∧ w1.asRegular.CovEq v1 ∧
      w1.kf.P.Agree v1.kf.P := by
  suffices hs : Rel2 (w.run bld ops) (v.run bld (ops.map XOp.plain)) fun w1 v1 => w1.asRegular.CovEq v1 by
    rcases hs with hs | ⟨w1, v1, h1, h2, h3⟩
    · exact Or.inl hs
    · exact Or.inr ⟨w1, v1, h1, h2, h3, h3.P⟩
  induction ops generalizing w v with
  | nil => exact Rel2.pure h
  | cons op ops ih =>
    have h1 := xstep_plain bld hw hv h (hops op (by simp)) (hops' op (by simp)) (hk op (by simp)).1 (hk op (by simp)).2
    unfold XWorld.run
    rw [List.map_cons]
    unfold World.run
    rcases h1 with ⟨e, k1, k2⟩ | ⟨w1, v1, k1, k2, k3⟩
    · exact Or.inl ⟨e, by rw [k1]; rfl, by rw [k2]; rfl⟩
    · rw [k1, k2]
      simp only [res_bind_ok]
      have a1 := xstep_ok hw (hops op (by simp)) (hk op (by simp)).1 k1
      have a2 := step_ok hv (hops' op (by simp)) k2
      exact ih a1.1 a2.1 k3 (fun o ho => (hops o (by simp [ho])).congr a1.2) (fun o ho => (hops' o (by simp [ho])).congr a2.2)
        (fun o ho => hk o (by simp [ho]))

end Any

/-! ## Non-vacuity -/

namespace Ex

/-- A regular filter with the matrices of `xworld` and another state. -/
noncomputable def xsibling : World 2 ℝ := { world ℝ with ctl := [], kf := { filter ℝ with x := ⟨[100, -5]⟩ } }

theorem xsibling_reps : xsibling.Reps { xstate with x := ![100, -5] } := by
  obtain ⟨a, ⟨hx, hA, hP, hQ, h1, h2⟩, c, d⟩ := world_reps ℝ
  refine ⟨a, ⟨?_, hA, hP, hQ, h1, h2⟩, .nil, d⟩
  intro i; fin_cases i <;> rfl

theorem xsibling_ok : ∀ op ∈ sops, op.linear.WellFormed xsibling := by
  simp only [sops, List.mem_cons, List.not_mem_nil, or_false, forall_eq_or_imp, forall_eq]
  exact ⟨trivial, rfl, Nat.zero_lt_two, rfl, trivial, Nat.one_lt_two⟩

/-- An extended filter with more initial covariance, another closure state and other functions. -/
noncomputable def xworldNoisy : XWorld 2 ℝ Nat := worldNoisy.asExtended 7

noncomputable def xstateNoisy : Spec.State 2 ℝ := { stateNoisy with ctl := [] }

noncomputable def sopsNoisy : List (Spec.XOp 2 ℝ) :=
  [.predictTuned (1 / 2) fun x => ![x 1, 3], .assign (.H 0 [2, 1]), .assign (.A [2, 1, 1, 4]), .predictTuned 2 fun x => x + x,
    .correct 1 meas]

noncomputable def xopsNoisy : List (XOp 2 ℝ Nat) :=
  [.predictTuned (1 / 2) (closureOf fun x => ![x 1, 3]), .assign (.H 0 [2, 1]), .assign (.A [2, 1, 1, 4]),
    .predictTuned 2 (closureOf fun x => x + x), .correct 1 fun m => closureOf (meas m)]

theorem xnoisy_implement : List.Forall₂ XOp.Implements xopsNoisy sopsNoisy :=
  .cons (.predictTuned (computes_closureOf _)) (.cons .assign (.cons .assign (.cons (.predictTuned (computes_closureOf _))
    (.cons (.correct fun m => computes_closureOf (meas m)) .nil))))

theorem xnoisy_ok : (∀ op ∈ xopsNoisy, op.WellFormed xworldNoisy) ∧ ∀ op ∈ sopsNoisy, op.linear.NonzeroLambda := by
  constructor
  · simp only [xopsNoisy, List.mem_cons, List.not_mem_nil, or_false, forall_eq_or_imp, forall_eq]
    exact ⟨trivial, rfl, rfl, trivial, Nat.one_lt_two⟩
  · simp only [sopsNoisy, List.mem_cons, List.not_mem_nil, or_false, forall_eq_or_imp, forall_eq, Spec.XOp.linear, Assign.toOp,
      Op.NonzeroLambda]
    norm_num

theorem xnoisy_reps : xworldNoisy.Reps xstateNoisy := by
  obtain ⟨a, b, c, d⟩ := worldNoisy_reps
  exact ⟨a, b, .nil, d⟩

theorem xnoisy_below : xstate.Below xstateNoisy := by
  obtain ⟨a, b, c, d, e⟩ := state_below
  exact ⟨a, b, c, .nil, e⟩

theorem xnoisy_opsBelow : Spec.OpsBelow 2 (xstate.ctl.map Sigma.fst) (xstate.obs.map Sigma.fst) (sops.map Spec.XOp.linear)
    (sopsNoisy.map Spec.XOp.linear) := by
  refine .cons (.inflated _ ?_) (.cons (.setH _ _ _ fun _ _ => rfl) (.measured 0
    (.cons (.setA _ _ rfl) (.cons (.predictTuned _ _ le_rfl) (.cons (.correct 1) .nil)))))
  rw [abs_of_pos (by norm_num)]; norm_num

/-- The hypotheses of `C106_bitwise` are met: any functions, and a regular filter with another state. -/
example (f : Nat → Mat 2 1 ℚ → ℚ) :
    let v : World 2 ℚ := { world ℚ with ctl := [], kf := { filter ℚ with x := ⟨[100, -5]⟩ } }
    let ops : List (XOp 2 ℚ Nat) :=
      [.predict (fill f), .correct 0 (fun _ => fill f), .assign (.z 0 [3]), .predictTuned 2 (fill f)]
    ((world ℚ).asExtended 0).Valid ∧ v.Valid ∧ ((world ℚ).asExtended (0 : Nat)).asRegular.CovEq v ∧
    ∀ op ∈ ops, op.KeepsLength ∧ op.Total ∧ op.WellFormed ((world ℚ).asExtended 0) ∧ op.plain.WellFormed v := by
  refine ⟨⟨by decide, (filter_reps ℚ).valid, by simp [XWorld.asRegular], (world_reps ℚ).valid.obs⟩,
    ⟨by decide, ⟨Nat.le_refl _, (filter_reps ℚ).valid.A, (filter_reps ℚ).valid.P, (filter_reps ℚ).valid.Q,
      (filter_reps ℚ).valid.predictedX, (filter_reps ℚ).valid.tempP⟩, (fun _ h => nomatch h), (world_reps ℚ).valid.obs⟩,
    ⟨.refl _, .refl _, .refl _, .nil, .cons (.mk (.refl _) (.refl _)) (.cons (.mk (.refl _) (.refl _)) .nil)⟩, ?_⟩
  simp only [List.mem_cons, List.not_mem_nil, or_false, forall_eq_or_imp, forall_eq]
  exact ⟨⟨(fill_ok f).1, (fill_ok f).2, trivial, trivial⟩,
    ⟨fun m => (fill_ok f).1, fun m => (fill_ok f).2, Nat.zero_lt_two, Nat.zero_lt_two⟩,
    ⟨trivial, trivial, rfl, rfl⟩, ⟨(fill_ok f).1, (fill_ok f).2, trivial, trivial⟩⟩

/-- The hypotheses of `C106_same_covariance` and `C106_history_monotone` are met. -/
example : xworld.Reps xstate ∧ xstate.Psd ∧ List.Forall₂ XOp.Implements xops sops ∧ (∀ op ∈ xops, op.WellFormed xworld) ∧
    (∀ op ∈ sops, xstate.PsdData op.linear ∧ op.linear.NonzeroLambda) ∧ xsibling.Reps { xstate with x := ![100, -5] } ∧
    (∀ op ∈ sops, op.linear.WellFormed xsibling) ∧
    xworldNoisy.Reps xstateNoisy ∧ xstate.Below xstateNoisy ∧ List.Forall₂ XOp.Implements xopsNoisy sopsNoisy ∧
    (∀ op ∈ xopsNoisy, op.WellFormed xworldNoisy) ∧ (∀ op ∈ sopsNoisy, op.linear.NonzeroLambda) ∧
    Spec.OpsBelow 2 (xstate.ctl.map Sigma.fst) (xstate.obs.map Sigma.fst) (sops.map Spec.XOp.linear)
      (sopsNoisy.map Spec.XOp.linear) :=
  ⟨xworld_reps, xstate_psd, xops_implement, xops_wellFormed, sops_psdData, xsibling_reps, xsibling_ok, xnoisy_reps, xnoisy_below,
    xnoisy_implement, xnoisy_ok.1, xnoisy_ok.2, xnoisy_opsBelow⟩

/-- The moving object of C105 as an extended filter. -/
noncomputable def xtrackWorld : XWorld 2 ℝ Unit := trackWorld.asExtended ()

/-- One cycle, with functions that differ from cycle to cycle. -/
noncomputable def xtrackSpec (k : Nat) : List (Spec.XOp 2 ℝ) :=
  [.assign (.z 0 [(k : ℝ) ^ 2]), .predict fun x => ![x 0 + x 1 ^ 2, k * x 1], .correct 0 meas]

noncomputable def xtrackOps (k : Nat) : List (XOp 2 ℝ Unit) :=
  [.assign (.z 0 [(k : ℝ) ^ 2]), .predict (closureOf fun x => ![x 0 + x 1 ^ 2, k * x 1]), .correct 0 fun m => closureOf (meas m)]

noncomputable def xtrackSpecs : Nat → List (Spec.XOp 2 ℝ)
  | 0 => []
  | k + 1 => xtrackSpecs k ++ xtrackSpec k

noncomputable def xtrackAll : Nat → List (XOp 2 ℝ Unit)
  | 0 => []
  | k + 1 => xtrackAll k ++ xtrackOps k

theorem xtrack_linear : ∀ k, (xtrackSpecs k).map Spec.XOp.linear = Spec.cycles walkCycle k
  | 0 => rfl
  | k + 1 => by rw [xtrackSpecs, List.map_append, xtrack_linear k]; rfl

theorem xtrack_implement : ∀ k, List.Forall₂ XOp.Implements (xtrackAll k) (xtrackSpecs k)
  | 0 => .nil
  | k + 1 => List.rel_append (xtrack_implement k)
      (.cons .assign (.cons (.predict (computes_closureOf _)) (.cons (.correct fun m => computes_closureOf (meas m)) .nil)))

theorem xtrackOps_ok (k : Nat) : ∀ op ∈ xtrackOps k, op.WellFormed xtrackWorld := by
  simp only [xtrackOps, List.mem_cons, List.not_mem_nil, or_false, forall_eq_or_imp, forall_eq]
  exact ⟨rfl, trivial, Nat.zero_lt_one⟩

theorem xtrack_ok : ∀ k, ∀ op ∈ xtrackAll k, op.WellFormed xtrackWorld
  | 0 => fun _ h => nomatch h
  | k + 1 => fun op h => by
    rcases List.mem_append.1 h with h | h
    · exact xtrack_ok k op h
    · exact xtrackOps_ok k op h

theorem xtrack_reps : xtrackWorld.Reps trackState := track_reps

/-- C106 for the moving object: with these functions (which have nothing to do with the matrices) the covariance converges. -/
theorem xtrack_converges [MDT ℝ] [ExactReal] : ∃ (P : Nat → Matrix (Fin 2) (Fin 2) ℝ) (L : Matrix (Fin 2) (Fin 2) ℝ),
    (∀ k, ∃ wk, xtrackWorld.run ⟨true, false⟩ (xtrackAll k) = .ok wk ∧ wk.kf.P.Reps (P k)) ∧ L.PosDef ∧ Tendsto P atTop (𝓝 L) := by
  obtain ⟨B, L, h⟩ := C106_periodic track_reps track_psd walk_periodic track_ok (fun op h => (walk_lambda op h).1) track_observable
  obtain ⟨P, h1, _, h3⟩ := h Unit ⟨true, false⟩ xtrackWorld trackState.x trackState.P xtrackAll xtrackSpecs xtrack_reps track_psd.P
    xtrack_linear xtrack_implement xtrack_ok
  have h4 := h3 (Matrix.PosDef.diagonal fun _ => by norm_num) ⟨.predict, by simp [walkCycle], trivial⟩
  exact ⟨P, L, h1, h4⟩

/-- C106 for one cycle of the moving object: the variance of the position is bounded for all initial covariances and functions, that
of the velocity is not. -/
theorem xtrack_velocity [MDT ℝ] [ExactReal] :
    (∃ b, XVarianceAtMost trackState (walkCycle 0) ![1, 0] b) ∧ ¬∃ b, XVarianceAtMost trackState (walkCycle 0) ![0, 1] b := by
  have hst := walk_periodic.steps
  have e : (xtrackSpecs 1).map Spec.XOp.linear = walkCycle 0 := by rw [xtrack_linear]; rfl
  have hm : ∀ {p : Op ℝ → Prop}, (∀ op ∈ walkCycle 0, p op) → ∀ op ∈ xtrackSpecs 1, p op.linear := by
    intro p hp op hop
    exact hp _ (by rw [← e]; exact List.mem_map_of_mem hop)
  have key := C106_bounded_iff_determined xtrack_reps track_psd (xtrack_implement 1) (xtrack_ok 1)
    (hm fun op h => (walk_lambda op h).1) (hm fun op h => Spec.psdData_steps _ (hst op h))
    (hm fun op h => Spec.keeps_steps (hst op h))
  rw [e] at key
  rw [key, key]
  exact track_one _

end Ex
end Minikalman
