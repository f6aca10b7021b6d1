import Verif.Spec.Linearised
import Verif.Proofs.ExtendedHistory
import Verif.Proofs.WorstCase

/-! # The extended filter is the regular filter of the linearised system -/

set_option linter.unusedSectionVars false

namespace Minikalman

open Matrix

variable {σ : Type} {n : Nat}

namespace Spec

theorem vecOf_ofFn {T : Type} [Zero T] (v : Fin n → T) : (vecOf (List.ofFn v) : Fin n → T) = v := by
  funext i
  simp [vecOf]

theorem predict_steered (s : State n ℝ) (u x : Fin n → ℝ) (P : Matrix (Fin n) (Fin n) ℝ) (op : Op ℝ) (y : Fin n → ℝ)
    (h : (s.steered u).step op = some { s.steered u with x := x, P := P }) :
    (s.steered u).run [op, .setU 0 (List.ofFn (y - x)), .control 0] = some (State.steered { s with x := y, P := P } (y - x)) := by
  simp only [State.run, h, Option.bind_some]
  simp only [State.step, State.steered, List.getElem?_cons_zero, Option.map_some, List.set_cons_zero, Option.bind_some, vecOf_ofFn]
  congr 1
  · congr 1
    · rw [ctlX, Matrix.one_mulVec]; abel
    · rw [ctlP]; simp

theorem obs_put_back {s : State n ℝ} {i : Nat} {o : (m : Nat) × Obs n m ℝ} (hi : s.obs[i]? = some o) (p : (m : Nat) × Obs n m ℝ) :
    (s.obs.set i p).set i o = s.obs := by
  rw [List.set_set]
  obtain ⟨h, rfl⟩ := List.getElem?_eq_some_iff.1 hi
  exact List.set_getElem_self h

theorem steered_run {s s' : State n ℝ} {op : XOp n ℝ} (h : s.xstep op = some s') (hr : s.Regular op.linear) (u : Fin n → ℝ) :
    (s.steered u).RegularRun (s.linearised op) ∧ ∃ u', (s.steered u).run (s.linearised op) = some (s'.steered u') := by
  cases op with
  | predict g =>
    cases h
    exact ⟨⟨trivial, fun _ _ => ⟨trivial, fun _ _ => ⟨trivial, fun _ _ => trivial⟩⟩⟩, _, predict_steered s u _ _ _ _ rfl⟩
  | predictTuned lambda g =>
    cases h
    exact ⟨⟨hr, fun _ _ => ⟨trivial, fun _ _ => ⟨trivial, fun _ _ => trivial⟩⟩⟩, _, predict_steered s u _ _ _ _ rfl⟩
  | correct i hh =>
    simp only [State.xstep] at h
    obtain ⟨o, ho, rfl⟩ := option_map_some h
    obtain ⟨m, o⟩ := o
    have hr' : (o.H * s.P * o.Hᵀ + o.R).PosDef := hr _ ho
    have hlt : i < s.obs.length := (List.getElem?_eq_some_iff.1 ho).1
    have e : s.linearised (.correct i hh) = [.setZ i (List.ofFn (o.z - (hh m s.x - o.H *ᵥ s.x))), .correct i,
        .setZ i (List.ofFn o.z)] := by
      simp only [State.linearised, ho]
    rw [e]
    have e1 : (s.steered u).step (.setZ i (List.ofFn (o.z - (hh m s.x - o.H *ᵥ s.x)))) =
        some { s.steered u with obs := s.obs.set i ⟨m, { o with z := o.z - (hh m s.x - o.H *ᵥ s.x) }⟩ } := by
      simp only [State.step, State.steered, ho, Option.map_some, vecOf_ofFn]
    have g : (s.obs.set i ⟨m, { o with z := o.z - (hh m s.x - o.H *ᵥ s.x) }⟩)[i]? =
        some ⟨m, { o with z := o.z - (hh m s.x - o.H *ᵥ s.x) }⟩ := by
      rw [List.getElem?_set_self hlt]
    refine ⟨⟨trivial, fun s1 h1 => ⟨?_, fun s2 h2 => ⟨trivial, fun _ _ => trivial⟩⟩⟩, u, ?_⟩
    · rw [e1] at h1
      cases h1
      intro o' ho'
      have ho'' : (s.obs.set i ⟨m, { o with z := o.z - (hh m s.x - o.H *ᵥ s.x) }⟩)[i]? = some o' := ho'
      rw [g] at ho''
      cases ho''
      exact hr'
    · simp only [State.run, e1, Option.bind_some]
      have e2 : State.step { s.steered u with obs := s.obs.set i ⟨m, { o with z := o.z - (hh m s.x - o.H *ᵥ s.x) }⟩ } (.correct i) =
          some { s.steered u with
            x := s.x + gain o.H s.P o.R *ᵥ (o.z - hh m s.x), P := corrP o.H s.P o.R,
            obs := s.obs.set i ⟨m, { o with z := o.z - (hh m s.x - o.H *ᵥ s.x) }⟩ } := by
        simp only [State.step, g, Option.map_some]
        congr 2
        show corrX o.H s.P o.R s.x (o.z - (hh m s.x - o.H *ᵥ s.x)) = _
        rw [corrX]
        congr 2
        abel
      simp only [e2, Option.bind_some]
      simp only [State.step, g, Option.map_some, Option.bind_some, vecOf_ofFn, State.steered]
      congr 2
      exact obs_put_back ho _
  | assign a =>
    have e : (s.steered u).step a.toOp = some (s'.steered u) := by
      have h' : s.step a.toOp = some s' := h
      cases a <;> first
        | (cases h'; rfl)
        | (obtain ⟨c, hc, rfl⟩ := option_map_some h'
           simp only [Assign.toOp, State.step, State.steered, hc, Option.map_some])
    refine ⟨⟨?_, fun _ _ => trivial⟩, u, ?_⟩
    · cases a <;> trivial
    · show ((s.steered u).step a.toOp).bind _ = _
      rw [e]; rfl

end Spec

section
variable [MDT ℝ] [ExactReal]

/-- The buffers of the two programs that users write have the same lengths; those for shifts and measurements have exactly the length of
the vectors. -/
structure SteeredShape (w : XWorld n ℝ σ) (v : World n ℝ) : Prop where
  same : ({ w.asRegular with ctl := v.ctl } : World n ℝ).SameShape v
  u : (v.ctl[0]?.map fun c => c.2.u.data.length) = some n
  z : ∀ i : Nat, (v.obs[i]?.map fun o => o.2.z.data.length) = v.obs[i]?.map Sigma.fst

theorem SteeredShape.wellFormed {w : XWorld n ℝ σ} {v : World n ℝ} (h : SteeredShape w v) {s : Spec.State n ℝ} (hs : w.Reps s)
    {op : XOp n ℝ σ} {sop : Spec.XOp n ℝ} (hi : op.Implements sop) (hop : op.WellFormed w) :
    ∀ o ∈ s.linearised sop, o.WellFormed v := by
  have hu : ∀ y : Fin n → ℝ, (Op.setU 0 (List.ofFn y)).WellFormed v := fun y => by
    show (v.ctl[0]?.map fun c => c.2.u.data.length) = some (List.ofFn y).length
    rw [h.u, List.length_ofFn]
  have hc : 0 < v.ctl.length := by
    by_contra hc
    have := h.u
    rw [List.getElem?_eq_none (by omega)] at this
    cases this
  cases hi with
  | predict _ =>
    intro o ho
    simp only [Spec.State.linearised, List.mem_cons, List.not_mem_nil, or_false] at ho
    rcases ho with rfl | rfl | rfl
    · trivial
    · exact hu _
    · exact hc
  | predictTuned _ =>
    intro o ho
    simp only [Spec.State.linearised, List.mem_cons, List.not_mem_nil, or_false] at ho
    rcases ho with rfl | rfl | rfl
    · trivial
    · exact hu _
    · exact hc
  | @correct i c hh _ =>
    have hlen : v.obs.length = w.obs.length := by
      have := congrArg List.length h.same.obs
      simpa [XWorld.asRegular] using this
    have hlt : i < v.obs.length := by rw [hlen]; exact hop
    have hlt' : i < w.obs.length := hop
    have hws : w.asRegular.obs[i]? = some ⟨w.obs[i].1, w.obs[i].2.asRegular⟩ := by
      simp [XWorld.asRegular, List.getElem?_eq_getElem hlt']
    obtain ⟨p, hp, hrel⟩ := forall₂_get hs.obs hws
    have hz : ∀ y : Fin p.1 → ℝ, (Op.setZ i (List.ofFn y)).WellFormed v := fun y => by
      show (v.obs[i]?.map fun o => o.2.z.data.length) = some (List.ofFn y).length
      rw [h.z i, List.length_ofFn]
      have hsh := congrArg (fun l => (l[i]?).map Prod.fst) h.same.obs
      simp only [List.getElem?_map, Option.map_map] at hsh
      have e : (Prod.fst ∘ obsShape : ((m : Nat) × RegularObservation n m ℝ) → Nat) = Sigma.fst := rfl
      rw [e] at hsh
      rw [hsh, hws]
      cases hrel with | mk _ _ => rfl
    intro o ho
    simp only [Spec.State.linearised, hp, List.mem_cons, List.not_mem_nil, or_false] at ho
    rcases ho with rfl | rfl | rfl
    · exact hz _
    · exact hlt
    · exact hz _
  | @assign a =>
    intro o ho
    simp only [Spec.State.linearised, List.mem_cons, List.not_mem_nil, or_false] at ho
    subst ho
    refine Op.WellFormed.congr h.same ?_
    have : a.toOp.WellFormed w.asRegular := hop
    cases a <;> exact this

theorem SteeredShape.next {w w' : XWorld n ℝ σ} {v v' : World n ℝ} (h : SteeredShape w v) (hw : w.asRegular.SameShape w'.asRegular)
    (hv : v.SameShape v') : SteeredShape w' v' := by
  refine ⟨⟨?_, ?_, ?_, ?_, rfl, ?_⟩, ?_, fun i => ?_⟩
  · exact hv.x.trans (h.same.x.trans hw.x.symm)
  · exact hv.A.trans (h.same.A.trans hw.A.symm)
  · exact hv.P.trans (h.same.P.trans hw.P.symm)
  · exact hv.Q.trans (h.same.Q.trans hw.Q.symm)
  · exact hv.obs.trans (h.same.obs.trans hw.obs.symm)
  · exact (shape_ctl_get hv (fun q => q.2.1) 0).trans h.u
  · exact (shape_obs_get hv (fun q => q.2.1) i).trans ((h.z i).trans (shape_obs_get hv (fun q => q.1) i).symm)

theorem world_run_append (bld : Build) {v v1 : World n ℝ} {a b : List (Op ℝ)} (h : v.run bld a = .ok v1) :
    v.run bld (a ++ b) = v1.run bld b := by
  induction a generalizing v with
  | nil => cases h; rfl
  | cons op a ih =>
    simp only [World.run] at h
    obtain ⟨v2, h1, h2⟩ := bind_ok h
    simp only [List.cons_append, World.run, h1, res_bind_ok]
    exact ih h2

theorem linearised_refines (bld bld' : Build) {w : XWorld n ℝ σ} {v : World n ℝ} {s : Spec.State n ℝ} {u : Fin n → ℝ} (h : w.Reps s)
    (h' : v.Reps (s.steered u)) (hsh : SteeredShape w v) {ops : List (XOp n ℝ σ)} {sops : List (Spec.XOp n ℝ)}
    (hi : List.Forall₂ XOp.Implements ops sops) (hops : ∀ op ∈ ops, op.WellFormed w) (hr : s.XRegularRun sops) :
    ∃ w' v' s' u', w.run bld ops = .ok w' ∧ v.run bld' (s.linearisedRun sops) = .ok v' ∧ w'.Reps s' ∧ v'.Reps (s'.steered u') := by
  induction hi generalizing w v s u with
  | nil => exact ⟨w, v, s, u, rfl, rfl, h, h'⟩
  | @cons op sop ops sops hio _ ih =>
    obtain ⟨w1, s1, h1, h2, h3, h4⟩ := xstep_refines bld h hio (hops op (by simp)) hr.1
    obtain ⟨r, u1, e⟩ := Spec.steered_run h2 hr.1 u
    obtain ⟨v1, t1, k1, k2, k3, k4⟩ := run_refines bld' h' (hsh.wellFormed h hio (hops op (by simp))) r
    rw [e] at k2
    cases k2
    obtain ⟨w2, v2, s2, u2, l1, l2, l3, l4⟩ := ih h3 k3 (hsh.next h4 k4) (fun op' ho => (hops op' (by simp [ho])).congr h4) (hr.2 s1 h2)
    refine ⟨w2, v2, s2, u2, ?_, ?_, l3, l4⟩
    · simp only [XWorld.run, h1, res_bind_ok]; exact l1
    · simp only [Spec.State.linearisedRun, h2]
      rw [world_run_append bld' k1]
      exact l2

end

namespace Spec

theorem xreality_within {s : State n ℝ} {ξ ξ' : Fin n → ℝ} {ops : List (XOp n ℝ)} {c : ℝ} (ht : XReality s ξ ops c ξ') :
    ∀ {c0 : ℝ}, 0 ≤ c0 → s.Psd → (∀ op ∈ ops, op.linear.NonzeroLambda) → (∀ op ∈ ops, s.PsdData op.linear) → Within c0 s.P (s.x - ξ) →
      0 ≤ c ∧ ∃ s1, s.xrun ops = some s1 ∧ Within (c0 + c) s1.P (s1.x - ξ') := by
  induction ht with
  | nil => exact fun h0 _ _ _ hw => ⟨le_rfl, _, rfl, by rwa [add_zero]⟩
  | @predict s s1 ξ ξ1 ξ' ops c g cw hw0 hw h ht ih =>
    intro c0 h0 hs hl hd hi
    have hs1 := xstep_cov_inv psd_closed h hs (hd _ (by simp)) (psd_regular hs (hl _ (by simp)))
    have e : s1 = { s with x := g s.x, P := predP s.A s.P s.Q } := (Option.some.inj h).symm
    obtain ⟨a, s2, b, d⟩ := ih (add_nonneg h0 hw0) hs1 (fun o ho => hl o (by simp [ho]))
      (fun o ho => xcovData_congr h (hd o (by simp [ho]))) (by
        subst e
        have := predict_within (A := s.A) h0 hw0 hs.P hs.Q hi hw.neg
        have e2 : s.A *ᵥ (s.x - ξ) + -(ξ1 - (g s.x + s.A *ᵥ (ξ - s.x))) = g s.x - ξ1 := by
          rw [Matrix.mulVec_sub, Matrix.mulVec_sub]; abel
        rwa [e2] at this)
    exact ⟨add_nonneg hw0 a, s2, by simp only [State.xrun, h]; exact b, by rwa [← add_assoc]⟩
  | @predictTuned s s1 ξ ξ1 ξ' ops c lambda hla g cw hw0 hw h ht ih =>
    intro c0 h0 hs hl hd hi
    have hs1 := xstep_cov_inv psd_closed h hs (hd _ (by simp)) (psd_regular hs (hl _ (by simp)))
    have e : s1 = { s with x := g s.x, P := predPTuned lambda s.A s.P s.Q } := (Option.some.inj h).symm
    obtain ⟨a, s2, b, d⟩ := ih (add_nonneg h0 hw0) hs1 (fun o ho => hl o (by simp [ho]))
      (fun o ho => xcovData_congr h (hd o (by simp [ho]))) (by
        subst e
        have hla0 : lambda ≠ 0 := hl (.predictTuned lambda g) (by simp)
        have := predictTuned_within (A := s.A) h0 hw0 hla0 hla hs.P hs.Q hi hw.neg
        have e2 : s.A *ᵥ (s.x - ξ) + -(ξ1 - (g s.x + s.A *ᵥ (ξ - s.x))) = g s.x - ξ1 := by
          rw [Matrix.mulVec_sub, Matrix.mulVec_sub]; abel
        rwa [e2] at this)
    exact ⟨add_nonneg hw0 a, s2, by simp only [State.xrun, h]; exact b, by rwa [← add_assoc]⟩
  | @correct s s1 ξ ξ' ops c i hh m o ho cv hv0 hv h ht ih =>
    intro c0 h0 hs hl hd hi
    have hs1 := xstep_cov_inv psd_closed h hs (hd _ (by simp)) (psd_regular hs (hl _ (by simp)))
    have e : s1 = { s with x := s.x + gain o.H s.P o.R *ᵥ (o.z - hh m s.x), P := corrP o.H s.P o.R } := by
      simp only [State.xstep, ho] at h; exact (Option.some.inj h).symm
    obtain ⟨a, s2, b, d⟩ := ih (add_nonneg h0 hv0) hs1 (fun o ho => hl o (by simp [ho]))
      (fun o ho => xcovData_congr h (hd o (by simp [ho]))) (by
        subst e
        have := correct_within (H := o.H) h0 hv0 hs.P (hs.obs _ (List.mem_of_getElem? ho)) hi hv
        have e2 : s.x + gain o.H s.P o.R *ᵥ (o.z - hh m s.x) - ξ =
            (1 - gain o.H s.P o.R * o.H) *ᵥ (s.x - ξ) + gain o.H s.P o.R *ᵥ (o.z - (hh m s.x + o.H *ᵥ (ξ - s.x))) := by
          rw [Matrix.sub_mulVec, Matrix.one_mulVec, ← Matrix.mulVec_mulVec, Matrix.mulVec_sub o.H, Matrix.mulVec_sub o.H]
          simp only [Matrix.mulVec_sub, Matrix.mulVec_add]
          abel
        show Within _ (corrP o.H s.P o.R) _
        rwa [e2])
    exact ⟨add_nonneg hv0 a, s2, by simp only [State.xrun, h]; exact b, by rwa [← add_assoc]⟩
  | @assign s s1 ξ ξ' ops c op hop h ht ih =>
    intro c0 h0 hs hl hd hi
    have hs1 := xstep_cov_inv psd_closed h hs (hd _ (by simp)) (psd_regular hs (hl _ (by simp)))
    have h' : s.step op.toOp = some s1 := h
    have e : s1.x = s.x ∧ s1.P = s.P := by
      cases op <;> first
        | exact hop.elim
        | (cases h'; exact ⟨rfl, rfl⟩)
        | (obtain ⟨c, _, rfl⟩ := option_map_some h'; exact ⟨rfl, rfl⟩)
    obtain ⟨a, s2, b, d⟩ := ih h0 hs1 (fun o ho => hl o (by simp [ho]))
      (fun o ho => xcovData_congr h (hd o (by simp [ho]))) (by rwa [e.1, e.2])
    exact ⟨a, s2, by simp only [State.xrun, h]; exact b, d⟩

end Spec
end Minikalman
