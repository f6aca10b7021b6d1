import Verif.Spec.CoordinatesExtended
import Verif.Proofs.Coordinates
import Verif.Proofs.ExtendedHistory

/-! # Change of coordinates of the extended filter: helper lemmas -/

set_option linter.unusedSectionVars false

namespace Minikalman
namespace Spec

open Matrix

variable {n n' : Nat}

theorem xstep_moved {g : Coord n n'} {b : Fin n' → ℝ} {d : Nat → (m : Nat) → Fin m → ℝ} (hc : 0 < g.c) (hM : ∀ i m, IsUnit (g.M i m).det)
    {s s1 : State n ℝ} {s' : State n' ℝ} (h : s.Moved g b d s') {op : XOp n ℝ} {op' : XOp n' ℝ}
    (ho : XOpMoved g b d (s.obs.map Sigma.fst) op op') (hr : s.Regular op.linear) (hs : s.xstep op = some s1) :
    s'.Regular op'.linear ∧ ∃ s1', s'.xstep op' = some s1' ∧ s1.Moved g b d s1' := by
  have aux : ∀ {α : Type} {o : Option α} {f : α → State n ℝ}, o.map f = some s1 → ∃ a, o = some a ∧ f a = s1 := by
    intro α o f h
    cases o with
    | none => cases h
    | some a => exact ⟨a, rfl, Option.some.inj h⟩
  cases ho with
  | predict hF =>
    cases hs
    refine ⟨trivial, _, rfl, ?_, h.A, ?_, h.Q, h.obsLen, h.obs⟩
    · show _ = g.T *ᵥ _ + b
      rw [← hF, ← h.x]
    · show predP s'.A s'.P s'.Q = g.c • (g.T * predP s.A s.P s.Q * g.Tᵀ)
      rw [h.P, h.Q, predP_smul]
      unfold predP
      rw [predP_changed (Q := s.Q) h.A, Matrix.mul_add, Matrix.add_mul]
  | predictTuned a hF =>
    cases hs
    refine ⟨hr, _, rfl, ?_, h.A, ?_, h.Q, h.obsLen, h.obs⟩
    · show _ = g.T *ᵥ _ + b
      rw [← hF, ← h.x]
    · show predPTuned a s'.A s'.P s'.Q = g.c • (g.T * predPTuned a s.A s.P s.Q * g.Tᵀ)
      rw [h.P, h.Q, predPTuned_smul]
      unfold predPTuned
      rw [predP_changed (Q := s.Q) h.A, Matrix.mul_add, Matrix.add_mul, Matrix.mul_smul, Matrix.smul_mul]
  | @correct i F F' hF =>
    obtain ⟨o, hi, rfl⟩ := aux hs
    obtain ⟨p, hp⟩ := partner h.obsLen hi
    have hS := hr _ hi
    have hF := hF _ (dims_get hi)
    cases h.obs i _ _ hi hp with | @mk m o p hH hz hR =>
    have hS' : IsUnit (innovCov p.H (g.T * s.P * g.Tᵀ) (g.M i m * o.R * (g.M i m)ᵀ)).det :=
      pd_det (innov_changed_posDef hH (hM _ _) hS)
    refine ⟨?_, { s' with x := s'.x + gain p.H s'.P p.R *ᵥ (p.z - F' m s'.x), P := corrP p.H s'.P p.R },
      by simp only [State.xstep, hp]; rfl, ?_, h.A, ?_, h.Q, h.obsLen, h.obs⟩
    · intro q hq
      rw [hp] at hq
      cases hq
      show (p.H * s'.P * p.Hᵀ + p.R).PosDef
      rw [hR, h.P]
      have := innovCov_smul g.c p.H (g.T * s.P * g.Tᵀ) (g.M i m * o.R * (g.M i m)ᵀ)
      unfold innovCov at this
      rw [this]
      exact (innov_changed_posDef hH (hM _ _) hS).smul hc
    · show s'.x + gain p.H s'.P p.R *ᵥ (p.z - F' m s'.x) = g.T *ᵥ (s.x + gain o.H s.P o.R *ᵥ (o.z - F m s.x)) + b
      rw [h.x, hF, hz, add_sub_add_right_eq_sub, ← Matrix.mulVec_sub, hR, h.P, gain_smul hc.ne' hS', Matrix.mulVec_mulVec,
        gain_changed hH (hM _ _), ← Matrix.mulVec_mulVec, Matrix.mulVec_add]
      abel
    · show corrP _ s'.P _ = _
      rw [hR, h.P, corrP_smul hc.ne' hS', corrP_changed hH (hM _ _)]
  | setX v v' hv =>
    cases hs
    exact ⟨trivial, _, rfl, hv, h.A, h.P, h.Q, h.obsLen, h.obs⟩
  | setA v v' hv =>
    cases hs
    exact ⟨trivial, _, rfl, h.x, hv, h.P, h.Q, h.obsLen, h.obs⟩
  | setP v v' hv =>
    cases hs
    exact ⟨trivial, _, rfl, h.x, h.A, hv, h.Q, h.obsLen, h.obs⟩
  | setQ v v' hv =>
    cases hs
    exact ⟨trivial, _, rfl, h.x, h.A, h.P, hv, h.obsLen, h.obs⟩
  | setZ i v v' hv =>
    obtain ⟨c, hi, rfl⟩ := aux hs
    obtain ⟨d, hd⟩ := partner h.obsLen hi
    have hv := hv _ (dims_get hi)
    cases h.obs i _ _ hi hd with | @mk m c d hB hu hQ =>
    exact ⟨trivial, { s' with obs := s'.obs.set i ⟨m, { d with z := vecOf v' }⟩ },
      by simp only [State.xstep, Assign.toOp, State.step, hd]; rfl, h.x, h.A, h.P, h.Q,
      (by simp only [List.length_set]; exact h.obsLen), changed_set h.obsLen h.obs i (a := ⟨m, { c with z := vecOf v }⟩)
        (b := ⟨m, { d with z := vecOf v' }⟩) (.mk hB hv hQ)⟩
  | setH i v v' hv =>
    obtain ⟨c, hi, rfl⟩ := aux hs
    obtain ⟨d, hd⟩ := partner h.obsLen hi
    have hv := hv _ (dims_get hi)
    cases h.obs i _ _ hi hd with | @mk m c d hB hu hQ =>
    exact ⟨trivial, { s' with obs := s'.obs.set i ⟨m, { d with H := matOf v' }⟩ },
      by simp only [State.xstep, Assign.toOp, State.step, hd]; rfl, h.x, h.A, h.P, h.Q,
      (by simp only [List.length_set]; exact h.obsLen), changed_set h.obsLen h.obs i (a := ⟨m, { c with H := matOf v }⟩)
        (b := ⟨m, { d with H := matOf v' }⟩) (.mk hv hu hQ)⟩
  | setR i v v' hv =>
    obtain ⟨c, hi, rfl⟩ := aux hs
    obtain ⟨d, hd⟩ := partner h.obsLen hi
    have hv := hv _ (dims_get hi)
    cases h.obs i _ _ hi hd with | @mk m c d hB hu hQ =>
    exact ⟨trivial, { s' with obs := s'.obs.set i ⟨m, { d with R := matOf v' }⟩ },
      by simp only [State.xstep, Assign.toOp, State.step, hd]; rfl, h.x, h.A, h.P, h.Q,
      (by simp only [List.length_set]; exact h.obsLen), changed_set h.obsLen h.obs i (a := ⟨m, { c with R := matOf v }⟩)
        (b := ⟨m, { d with R := matOf v' }⟩) (.mk hB hu hv)⟩

/-- A call keeps the numbers of values of the measurements. -/
theorem xstep_dims {s s1 : State n ℝ} {op : XOp n ℝ} (h : s.xstep op = some s1) : s1.obs.map Sigma.fst = s.obs.map Sigma.fst := by
  cases op with
  | predict F => cases h; rfl
  | predictTuned a F => cases h; rfl
  | correct i F =>
    simp only [State.xstep] at h
    cases hi : s.obs[i]? with
    | none => rw [hi] at h; cases h
    | some o => rw [hi] at h; cases h; rfl
  | assign a => exact (spec_step_dims (show s.step a.toOp = some s1 from h)).2

theorem xrun_moved {g : Coord n n'} {b : Fin n' → ℝ} {d : Nat → (m : Nat) → Fin m → ℝ} (hc : 0 < g.c) (hM : ∀ i m, IsUnit (g.M i m).det)
    {s s1 : State n ℝ} {s' : State n' ℝ} (h : s.Moved g b d s') {ops : List (XOp n ℝ)} {ops' : List (XOp n' ℝ)}
    (ho : List.Forall₂ (XOpMoved g b d (s.obs.map Sigma.fst)) ops ops') (hr : s.XRegularRun ops) (hs : s.xrun ops = some s1) :
    s'.XRegularRun ops' ∧ ∃ s1', s'.xrun ops' = some s1' ∧ s1.Moved g b d s1' := by
  induction ops generalizing s s' ops' with
  | nil => cases ho; cases hs; exact ⟨trivial, _, rfl, h⟩
  | cons op ops ih =>
    cases ho with
    | @cons _ op' _ ops' ho1 ho2 =>
      simp only [State.xrun] at hs
      cases hst : s.xstep op with
      | none => rw [hst] at hs; cases hs
      | some s2 =>
        rw [hst, Option.bind_some] at hs
        obtain ⟨r1, s2', e1, c1⟩ := xstep_moved hc hM h ho1 hr.1 hst
        rw [← xstep_dims hst] at ho2
        obtain ⟨r2, s3', e2, c2⟩ := ih c1 ho2 (hr.2 _ hst) hs
        refine ⟨⟨r1, ?_⟩, s3', ?_, c2⟩
        · intro t ht
          rw [e1] at ht
          cases ht
          exact r2
        · simp only [State.xrun, e1, Option.bind_some, e2]

end Spec
end Minikalman
