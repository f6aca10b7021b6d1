import Verif.Proofs.CheckedSim
import Verif.Spec.Extended

/-!
# Simulation between programs whose element types may panic: the extended filter
-/

set_option linter.unusedSectionVars false

namespace Minikalman

open Mode Limit

section
variable {ι : Type} {T σ : ι → Type} {X σ' : Type} {n m : Nat}

inductive FullXObs (lim : (∀ k, T k) → X → Prop) :
    (∀ k, (m : Nat) × ExtendedObservation n m (T k)) → (m : Nat) × ExtendedObservation n m X → Prop
  | mk {m : Nat} {o : ∀ k, ExtendedObservation n m (T k)} {p : ExtendedObservation n m X}
      (h : FullO lim (fun k => (o k).asRegular) p.asRegular) : FullXObs lim (fun k => ⟨m, o k⟩) ⟨m, p⟩

/-- All buffers of the programs are related to those of `v`, and what the closures capture is related by `r`. -/
structure FullXW (lim : (∀ k, T k) → X → Prop) (r : (∀ k, σ k) → σ' → Prop) (w : ∀ k, XWorld n (T k) (σ k)) (v : XWorld n X σ') :
    Prop where
  kf : FullK lim (fun k => (w k).kf.asRegular) v.kf.asRegular
  obs : ListTends (FullXObs lim) (fun k => (w k).obs) v.obs
  env : r (fun k => (w k).env) v.env

/-- Closures which on related arguments give related results. -/
def ClosureSim (M : Mode ι) (lim : (∀ k, T k) → X → Prop) (r : (∀ k, σ k) → σ' → Prop)
    (g : ∀ k, σ k → Mat n 1 (T k) → Mat m 1 (T k) → Res (σ k × Mat m 1 (T k))) (g' : σ' → Mat n 1 X → Mat m 1 X → Res (σ' × Mat m 1 X)) :
    Prop :=
  ∀ st st' x x' out out', r st st' → MatTends lim x x' → MatTends lim out out' →
    M.Sim (fun k => g k (st k) (x k) (out k)) (g' st' x' out') (Both r (MatTends lim))

inductive AssignSim (lim : (∀ k, T k) → X → Prop) : (∀ k, Assign (T k)) → Assign X → Prop
  | x {v w} (h : ListTends lim v w) : AssignSim lim (fun k => .x (v k)) (.x w)
  | A {v w} (h : ListTends lim v w) : AssignSim lim (fun k => .A (v k)) (.A w)
  | P {v w} (h : ListTends lim v w) : AssignSim lim (fun k => .P (v k)) (.P w)
  | Q {v w} (h : ListTends lim v w) : AssignSim lim (fun k => .Q (v k)) (.Q w)
  | z (i) {v w} (h : ListTends lim v w) : AssignSim lim (fun k => .z i (v k)) (.z i w)
  | H (i) {v w} (h : ListTends lim v w) : AssignSim lim (fun k => .H i (v k)) (.H i w)
  | R (i) {v w} (h : ListTends lim v w) : AssignSim lim (fun k => .R i (v k)) (.R i w)

inductive XOpSim (M : Mode ι) (lim : (∀ k, T k) → X → Prop) (r : (∀ k, σ k) → σ' → Prop) :
    (∀ k, XOp n (T k) (σ k)) → XOp n X σ' → Prop
  | predict {g g'} (h : ClosureSim M lim r g g') : XOpSim M lim r (fun k => .predict (g k)) (.predict g')
  | predictTuned {a x g g'} (ha : lim a x) (h : ClosureSim M lim r g g') :
      XOpSim M lim r (fun k => .predictTuned (a k) (g k)) (.predictTuned x g')
  | correct (i) {g : ∀ k, (m : Nat) → σ k → Mat n 1 (T k) → Mat m 1 (T k) → Res (σ k × Mat m 1 (T k))}
      {g' : (m : Nat) → σ' → Mat n 1 X → Mat m 1 X → Res (σ' × Mat m 1 X)} (h : ∀ m, ClosureSim M lim r (fun k => g k m) (g' m)) :
      XOpSim M lim r (fun k => .correct i (g k)) (.correct i g')
  | assign {a a'} (h : AssignSim lim a a') : XOpSim M lim r (fun k => .assign (a k)) (.assign a')

end

namespace Chk

variable {ι : Type} {M : Mode ι} {T σ : ι → Type} {X σ' : Type} {o : ∀ k, Ops (T k)} {o' : Ops X} {lim : (∀ k, T k) → X → Prop}
  {r : (∀ k, σ k) → σ' → Prop} {n l m R C U N : Nat}

section
variable (hr : OpsSim M o o' lim)
include hr

theorem xupdate_sim (bld : Build) {b : ∀ k, ExtendedObservation n m (T k)} {x : ∀ k, Mat n 1 (T k)} {P : ∀ k, Mat n n (T k)}
    {b' : ExtendedObservation n m X} {x' : Mat n 1 X} {P' : Mat n n X} (ho : FullO lim (fun k => (b k).asRegular) b'.asRegular)
    (hx : MatTends lim x x') (hP : MatTends lim P P') :
    M.Sim (fun k => xupdateWithInnovation (o k) bld (b k) (x k) (P k)) (xupdateWithInnovation o' bld b' x' P')
      (fun a b => FullO lim (fun k => (a k).1.asRegular) b.1.asRegular ∧ MatTends lim (fun k => (a k).2.1) b.2.1 ∧
        MatTends lim (fun k => (a k).2.2) b.2.2) := by
  unfold xupdateWithInnovation
  refine Sim.bind (mult_sim hr ho.H hP ho.tempHP) fun _ _ hHP => ?_
  refine Sim.bind (multTransb_sim hr hHP ho.H ho.S) fun _ _ hS => ?_
  refine Sim.bind (addInplaceA_sim hr hS ho.R) fun _ _ hS => ?_
  refine Sim.bind (chol_sim hr bld hS) ?_
  rintro _ ⟨S', ok⟩ ⟨S, rfl, hS⟩
  refine Sim.bind (invert_sim hr hS ho.tempSInv) fun _ _ hI => ?_
  refine Sim.bind (multTransb_sim hr hP ho.H ho.tempPHt) fun _ _ hPHt => ?_
  refine Sim.bind (mult_sim hr hPHt hI ho.K) fun _ _ hK => ?_
  refine Sim.bind (multaddRowvector_sim hr hK ho.y hx) fun _ _ hx => ?_
  refine Sim.bind (mult_sim hr ho.H hP hHP) fun _ _ hHP => ?_
  refine Sim.bind (mult_sim hr hK hHP ho.tempKHP) fun _ _ hKHP => ?_
  refine Sim.bind (subInplaceA_sim hr hP hKHP) fun _ _ hP => ?_
  exact Sim.pure ⟨⟨ho.H, ho.z, ho.R, ho.y, hS, hK, hI, hHP, hPHt, hKHP⟩, hx, hP⟩

omit hr in
theorem xpredictX_sim {f : ∀ k, ExtendedKalman n (T k)} {g : ExtendedKalman n X}
    (h : FullK lim (fun k => (f k).asRegular) g.asRegular)
    {c : ∀ k, σ k → Mat n 1 (T k) → Mat n 1 (T k) → Res (σ k × Mat n 1 (T k))} {c'} (hc : ClosureSim M lim r c c') {st : ∀ k, σ k} {st'}
    (hst : r st st') :
    M.Sim (fun k => predictXNonlinear (f k) (c k) (st k)) (predictXNonlinear g c' st')
      (fun a b => r (fun k => (a k).1) b.1 ∧ FullK lim (fun k => (a k).2.asRegular) b.2.asRegular) := by
  unfold predictXNonlinear
  refine Sim.bind (hc _ _ _ _ _ _ hst h.x h.predictedX) ?_
  rintro a ⟨st', p'⟩ ⟨hst, hp⟩
  exact Sim.bind (copyTo_sim hp h.x) fun _ _ hx => Sim.pure ⟨hst, ⟨hx, h.A, h.P, h.Q, hp, h.tempP⟩⟩

theorem xpredict_sim {f : ∀ k, ExtendedKalman n (T k)} {g : ExtendedKalman n X}
    (h : FullK lim (fun k => (f k).asRegular) g.asRegular)
    {c : ∀ k, σ k → Mat n 1 (T k) → Mat n 1 (T k) → Res (σ k × Mat n 1 (T k))} {c'} (hc : ClosureSim M lim r c c') {st : ∀ k, σ k} {st'}
    (hst : r st st') :
    M.Sim (fun k => predictNonlinear (o k) (f k) (c k) (st k)) (predictNonlinear o' g c' st')
      (fun a b => r (fun k => (a k).1) b.1 ∧ FullK lim (fun k => (a k).2.asRegular) b.2.asRegular) := by
  unfold predictNonlinear
  refine Sim.bind (xpredictX_sim h hc hst) ?_
  rintro a ⟨st', g⟩ ⟨hst, h⟩
  refine Sim.bind (mult_sim hr h.A h.P h.tempP) fun _ _ ht => ?_
  refine Sim.bind (multTransb_sim hr ht h.A h.P) fun _ _ hP => ?_
  exact Sim.bind (addInplaceB_sim hr h.Q hP) fun _ _ hP => Sim.pure ⟨hst, ⟨h.x, h.A, hP, h.Q, h.predictedX, ht⟩⟩

theorem xpredictTuned_sim {f : ∀ k, ExtendedKalman n (T k)} {g : ExtendedKalman n X}
    (h : FullK lim (fun k => (f k).asRegular) g.asRegular) {a b} (hab : lim a b)
    {c : ∀ k, σ k → Mat n 1 (T k) → Mat n 1 (T k) → Res (σ k × Mat n 1 (T k))} {c'} (hc : ClosureSim M lim r c c') {st : ∀ k, σ k} {st'}
    (hst : r st st') :
    M.Sim (fun k => predictTunedNonlinear (o k) (f k) (a k) (c k) (st k)) (predictTunedNonlinear o' g b c' st')
      (fun a b => r (fun k => (a k).1) b.1 ∧ FullK lim (fun k => (a k).2.asRegular) b.2.asRegular) := by
  unfold predictTunedNonlinear
  refine Sim.bind (xpredictX_sim h hc hst) ?_
  rintro a ⟨st', g⟩ ⟨hst, h⟩
  refine Sim.bind (hr.mul hab hab) fun q q' hq => Sim.bind (hr.recip hq) fun q q' hq => ?_
  refine Sim.bind (mult_sim hr h.A h.P h.tempP) fun _ _ ht => ?_
  refine Sim.bind (multscaleTransb_sim hr ht h.A hq h.P) fun _ _ hP => ?_
  exact Sim.bind (addInplaceB_sim hr h.Q hP) fun _ _ hP => Sim.pure ⟨hst, ⟨h.x, h.A, hP, h.Q, h.predictedX, ht⟩⟩

theorem xcorrect_sim (bld : Build) {f : ∀ k, ExtendedKalman n (T k)} {g : ExtendedKalman n X}
    (h : FullK lim (fun k => (f k).asRegular) g.asRegular) {b : ∀ k, ExtendedObservation n m (T k)} {p : ExtendedObservation n m X}
    (ho : FullO lim (fun k => (b k).asRegular) p.asRegular)
    {c : ∀ k, σ k → Mat n 1 (T k) → Mat m 1 (T k) → Res (σ k × Mat m 1 (T k))} {c'} (hc : ClosureSim M lim r c c') {st : ∀ k, σ k} {st'}
    (hst : r st st') :
    M.Sim (fun k => correctNonlinear (o k) bld (f k) (b k) (c k) (st k)) (correctNonlinear o' bld g p c' st')
      (fun a b => r (fun k => (a k).1) b.1 ∧ FullK lim (fun k => (a k).2.1.asRegular) b.2.1.asRegular ∧
        FullO lim (fun k => (a k).2.2.asRegular) b.2.2.asRegular) := by
  unfold correctNonlinear
  refine Sim.bind (hc _ _ _ _ _ _ hst h.x ho.y) ?_
  rintro a ⟨st', y'⟩ ⟨hst, hy⟩
  refine Sim.bind (subInplaceB_sim hr ho.z hy) fun y y' hy => ?_
  refine Sim.bind (xupdate_sim hr bld (b := fun k => { b k with y := y k }) (b' := { p with y := y' })
    ⟨ho.H, ho.z, ho.R, hy, ho.S, ho.K, ho.tempSInv, ho.tempHP, ho.tempPHt, ho.tempKHP⟩ h.x h.P) ?_
  rintro a ⟨d, y, S⟩ ⟨hc, hx, hP⟩
  exact Sim.pure ⟨hst, ⟨hx, h.A, hP, h.Q, h.predictedX, h.tempP⟩, hc⟩

omit hr in
theorem xwithObs_sim {w : ∀ k, XWorld n (T k) (σ k)} {v : XWorld n X σ'} (h : FullXW lim r w v) (i : Nat)
    {g : ∀ k, (m : Nat) → ExtendedObservation n m (T k) → Res (ExtendedObservation n m (T k))}
    {g' : (m : Nat) → ExtendedObservation n m X → Res (ExtendedObservation n m X)}
    (hg : ∀ {m : Nat} {c : ∀ k, ExtendedObservation n m (T k)} {d : ExtendedObservation n m X},
      FullO lim (fun k => (c k).asRegular) d.asRegular →
      M.Sim (fun k => g k m (c k)) (g' m d) (fun a b => FullO lim (fun k => (a k).asRegular) b.asRegular)) :
    M.Sim (fun k => (w k).withObs i (g k)) (v.withObs i g') (FullXW lim r) := by
  unfold XWorld.withObs
  cases hi : v.obs[i]? with
  | none => exact Sim.error _ fun k => by rw [none_of_tends h.obs hi k]
  | some d =>
    obtain ⟨f, h1, h2⟩ := h.obs.2 i d hi
    cases h2 with
    | mk hc =>
      simp only [h1]
      exact Sim.bind (hg hc) fun c d hc => Sim.pure ⟨h.kf, ListTends.set h.obs i (.mk hc), h.env⟩

omit hr in
theorem xassign_sim {w : ∀ k, XWorld n (T k) (σ k)} {v : XWorld n X σ'} (h : FullXW lim r w v) {a : ∀ k, Assign (T k)} {a' : Assign X}
    (ha : AssignSim lim a a') : M.Sim (fun k => (w k).assign (a k)) (v.assign a') (FullXW lim r) := by
  cases ha with
  | x hv => exact Sim.bind (copyFromSlice_sim h.kf.x hv) (fun _ _ k =>
      Sim.pure ⟨⟨k, h.kf.A, h.kf.P, h.kf.Q, h.kf.predictedX, h.kf.tempP⟩, h.obs, h.env⟩)
  | A hv => exact Sim.bind (copyFromSlice_sim h.kf.A hv) (fun _ _ k =>
      Sim.pure ⟨⟨h.kf.x, k, h.kf.P, h.kf.Q, h.kf.predictedX, h.kf.tempP⟩, h.obs, h.env⟩)
  | P hv => exact Sim.bind (copyFromSlice_sim h.kf.P hv) (fun _ _ k =>
      Sim.pure ⟨⟨h.kf.x, h.kf.A, k, h.kf.Q, h.kf.predictedX, h.kf.tempP⟩, h.obs, h.env⟩)
  | Q hv => exact Sim.bind (copyFromSlice_sim h.kf.Q hv) (fun _ _ k =>
      Sim.pure ⟨⟨h.kf.x, h.kf.A, h.kf.P, k, h.kf.predictedX, h.kf.tempP⟩, h.obs, h.env⟩)
  | z i hv => exact xwithObs_sim h i fun ho => (Sim.bind (copyFromSlice_sim ho.z hv) (fun _ _ k =>
      Sim.pure (.mk ho.H k ho.R ho.y ho.S ho.K ho.tempSInv ho.tempHP ho.tempPHt ho.tempKHP)))
  | H i hv => exact xwithObs_sim h i fun ho => (Sim.bind (copyFromSlice_sim ho.H hv) (fun _ _ k =>
      Sim.pure (.mk k ho.z ho.R ho.y ho.S ho.K ho.tempSInv ho.tempHP ho.tempPHt ho.tempKHP)))
  | R i hv => exact xwithObs_sim h i fun ho => (Sim.bind (copyFromSlice_sim ho.R hv) (fun _ _ k =>
      Sim.pure (.mk ho.H ho.z k ho.y ho.S ho.K ho.tempSInv ho.tempHP ho.tempPHt ho.tempKHP)))

theorem xstep_sim (bld : Build) {w : ∀ k, XWorld n (T k) (σ k)} {v : XWorld n X σ'} (h : FullXW lim r w v)
    {op : ∀ k, XOp n (T k) (σ k)} {op' : XOp n X σ'} (hop : XOpSim M lim r op op') :
    M.Sim (fun k => xstep (o k) bld (w k) (op k)) (xstep o' bld v op') (FullXW lim r) := by
  cases hop with
  | predict hc =>
    refine Sim.bind (xpredict_sim hr h.kf hc h.env) ?_
    rintro a ⟨st, g⟩ ⟨hst, hk⟩
    exact Sim.pure ⟨hk, h.obs, hst⟩
  | predictTuned hab hc =>
    refine Sim.bind (xpredictTuned_sim hr h.kf hab hc h.env) ?_
    rintro a ⟨st, g⟩ ⟨hst, hk⟩
    exact Sim.pure ⟨hk, h.obs, hst⟩
  | correct i hg =>
    unfold xstep
    dsimp only
    cases hi : v.obs[i]? with
    | none => exact Sim.error _ fun k => by rw [none_of_tends h.obs hi k]
    | some d =>
      obtain ⟨f, h1, h2⟩ := h.obs.2 i d hi
      cases h2 with
      | mk hc =>
        simp only [h1]
        refine Sim.bind (xcorrect_sim hr bld h.kf hc (hg _) h.env) ?_
        rintro a ⟨st, g, d⟩ ⟨hst, hf, hc⟩
        exact Sim.pure ⟨hf, ListTends.set h.obs i (.mk hc), hst⟩
  | assign ha => exact xassign_sim h ha

theorem xrun_sim (bld : Build) {w : ∀ k, XWorld n (T k) (σ k)} {v : XWorld n X σ'} (h : FullXW lim r w v)
    {ops : ∀ k, List (XOp n (T k) (σ k))} {ops' : List (XOp n X σ')} (hops : ListTends (XOpSim M lim r) ops ops') :
    M.Sim (fun k => xrun (o k) bld (w k) (ops k)) (xrun o' bld v ops') (FullXW lim r) := by
  induction ops' generalizing w v ops with
  | nil =>
    have : ops = fun _ => [] := funext fun k => ListTends.nil_inv hops k
    subst this
    exact Sim.ok h
  | cons op' ops' ih =>
    obtain ⟨op, rest, h1, h2, h3⟩ := ListTends.cons_inv hops
    obtain rfl : ops = fun k => op k :: rest k := funext h1
    exact Sim.bind (xstep_sim hr bld h h2) fun w v h => ih h h3

end
end Chk
end Minikalman
