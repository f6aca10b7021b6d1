import Verif.Props.Late
import Verif.Props.Coordinates

/-!
# Property C117: late measurements by means of a copy of the former state

With process noise a measurement of a former state cannot be processed late by a filter that only knows the present state
(C116). A filter whose state also contains a copy of the former state can: its estimate of the present state is the one of a
filter that processed the measurement in time.
-/

namespace Minikalman

open Matrix

variable {n N m : Nat}

namespace Spec

/-- The coordinates of a part `T ξ` of the state. -/
def Coord.of (T : Matrix (Fin n) (Fin N) ℝ) : Coord N n := ⟨1, T, fun _ _ => 1, fun _ _ => 1⟩

theorem unaffected_mul {k : Nat} (H : Matrix (Fin m) (Fin k) ℝ) {D : Matrix (Fin k) (Fin N) ℝ} {ops : List (Op ℝ)}
    {s : State N ℝ} (h : s.Unaffected D ops) : s.Unaffected (H * D) ops := by
  induction ops generalizing s with
  | nil => trivial
  | cons op ops ih =>
    intro s' hs'
    refine ⟨ih (h s' hs').1, fun d hd ξ => ?_⟩
    rw [← Matrix.mulVec_mulVec, ← Matrix.mulVec_mulVec, (h s' hs').2 d hd ξ]

/-- What is the same now is corrected in the same way. -/
theorem gain_copy {P : Matrix (Fin N) (Fin N) ℝ} {H₁ H₂ : Matrix (Fin m) (Fin N) ℝ} {R : Matrix (Fin m) (Fin m) ℝ}
    (hP : Pᵀ = P) (h : H₁ * P = H₂ * P) : gain H₁ P R = gain H₂ P R := by
  have h1 : P * H₁ᵀ = P * H₂ᵀ := by
    have := congrArg Matrix.transpose h
    rwa [Matrix.transpose_mul, Matrix.transpose_mul, hP] at this
  unfold gain innovCov
  rw [h1, h, Matrix.mul_assoc H₂, h1, ← Matrix.mul_assoc H₂]

end Spec

/-- C117: let `w` be a program with a filter for the state `ξ`, and let `w'` be a program with a filter for a larger state, of which
`T` picks the part the first filter estimates (in the sense of C68) and `D` another part of the same size. At present both parts are
the same: `D x = T x` and `D P = T P`, as after copying. Let `ops` be calls for the large filter, and `ops'` the
corresponding ones for the small filter, that do not use observation object `i`, and let the part `D` be left alone: the calls
`ops` do not move it and no process noise acts on it. The rest of the state may be disturbed by process noise. Then in exact arithmetic
the small filter that makes the correction `i` at once, and the large filter that makes it after `ops` with the observation matrix
`H D`, both run without panicking, and the large filter ends with the same estimate of the part `T`, and the same covariance of
it, as the small one. -/
theorem C117_copy [MDT ℝ] [ExactReal] (bld bld' : Build) {w : World n ℝ} {w' : World N ℝ} {s : Spec.State n ℝ}
    {s' : Spec.State N ℝ} (hw : w.Reps s) (hw' : w'.Reps s') {T D : Matrix (Fin n) (Fin N) ℝ}
    (hs : s'.Changed (Spec.Coord.of T) s) (hp : s'.Psd) (hx : D *ᵥ s'.x = T *ᵥ s'.x) (hP : D * s'.P = T * s'.P)
    {i : Nat} {o : Spec.Obs n m ℝ} (ho : s.obs[i]? = some ⟨m, o⟩) {ops ops' : List (Op ℝ)}
    (hc : List.Forall₂ (Spec.OpChanged (Spec.Coord.of T) (s'.ctl.map Sigma.fst) (s'.obs.map Sigma.fst)) ops ops')
    (hb : ∀ op ∈ ops, op.LeavesOut i) (hops : ∀ op ∈ ops, op.WellFormed w') (hops' : ∀ op ∈ ops', op.WellFormed w)
    (hd : ∀ op ∈ ops, s'.PsdData op) (hm : ∀ ξ, D *ᵥ s'.evolved ops ξ = D *ᵥ ξ) (hn : s'.Unaffected D ops)
    {h z : List ℝ} (hh : (Op.setH i h).WellFormed w') (hz : (Op.setZ i z).WellFormed w')
    (eh : (Spec.matOf h : Matrix (Fin m) (Fin N) ℝ) = o.H * D) (ez : (Spec.vecOf z : Fin m → ℝ) = o.z) :
    ∃ w₁ w₁' x P, w.run bld (.correct i :: ops') = .ok w₁ ∧
      w'.run bld' (ops ++ [.setH i h, .setZ i z, .correct i]) = .ok w₁' ∧
      w₁'.kf.x.RepsV x ∧ w₁'.kf.P.Reps P ∧ w₁.kf.x.RepsV (T *ᵥ x) ∧ w₁.kf.P.Reps (T * P * Tᵀ) := by
  have hi' : i < s'.obs.length := by
    rw [← hs.obsLen]; exact (List.getElem?_eq_some_iff.1 ho).1
  have hiw : i < w.obs.length := by
    rw [hw.obs.length_eq]; exact (List.getElem?_eq_some_iff.1 ho).1
  have hiw' : i < w'.obs.length := by rw [hw'.obs.length_eq]; exact hi'
  obtain ⟨p, ho'⟩ : ∃ p, s'.obs[i]? = some p := ⟨_, List.getElem?_eq_getElem hi'⟩
  have hcobs := hs.obs i p _ ho' ho
  have key : ∃ q : Spec.Obs N m ℝ, p = ⟨m, q⟩ ∧ q.H = o.H * T ∧ q.z = o.z ∧ q.R = o.R := by
    cases hcobs with
    | mk H z R =>
      refine ⟨_, rfl, ?_, ?_, ?_⟩
      · simpa [Spec.Coord.of] using H.symm
      · simpa [Spec.Coord.of] using z.symm
      · simpa [Spec.Coord.of] using R.symm
  obtain ⟨q, rfl, qH, qz, qR⟩ := key
  have hlo : ∀ op ∈ ops, op.NonzeroLambda := by
    intro op h1
    have := hb op h1
    cases op <;> trivial
  -- the small filter and the large one that corrects at once
  have reg1 : s'.RegularRun (.correct i :: ops) := by
    refine psd_regularRun hp (fun op h1 => ?_) fun op h1 => ?_ <;> rcases List.mem_cons.1 h1 with rfl | h1
    · trivial
    · exact hlo op h1
    · trivial
    · exact hd op h1
  have wf1 : ∀ op ∈ Op.correct i :: ops, op.WellFormed w' := by
    intro op h1
    rcases List.mem_cons.1 h1 with rfl | h1
    · exact hiw'
    · exact hops op h1
  have wf2 : ∀ op ∈ Op.correct i :: ops', op.WellFormed w := by
    intro op h1
    rcases List.mem_cons.1 h1 with rfl | h1
    · exact hiw
    · exact hops' op h1
  obtain ⟨_, s₁', _, a2, _, _⟩ := run_refines bld hw' wf1 reg1
  obtain ⟨reg2, s₁, c1, c2⟩ := Spec.run_changed (g := Spec.Coord.of T) one_pos (fun _ m => by simp [Spec.Coord.of]) hs
    (.cons (.correct i) hc) reg1 a2
  obtain ⟨w₁, t, b1, b2, b3, _⟩ := run_refines bld hw wf2 reg2
  rw [c1] at b2
  cases b2
  -- the large filter that corrects late
  have wf3 : ∀ op ∈ ops ++ [.setH i h, .setZ i z, .correct i], op.WellFormed w' := by
    intro op h1
    simp only [List.mem_cons, List.mem_append, List.not_mem_nil, or_false] at h1
    rcases h1 with h1 | rfl | rfl | rfl
    · exact hops op h1
    · exact hh
    · exact hz
    · exact hiw'
  have reg3 : s'.RegularRun (ops ++ [.setH i h, .setZ i z, .correct i]) := by
    refine psd_regularRun hp (fun op h1 => ?_) fun op h1 => ?_ <;>
      simp only [List.mem_cons, List.mem_append, List.not_mem_nil, or_false] at h1 <;>
      rcases h1 with h1 | rfl | rfl | rfl
    · exact hlo op h1
    · trivial
    · trivial
    · trivial
    · exact hd op h1
    · trivial
    · trivial
    · trivial
  obtain ⟨w₁', s₂', d1, d2, d3, _⟩ := run_refines bld' hw' wf3 reg3
  suffices e : s₂'.x = s₁'.x ∧ s₂'.P = s₁'.P by
    refine ⟨w₁, w₁', s₂'.x, s₂'.P, b1, d1, d3.kf.x, d3.kf.P, ?_, ?_⟩
    · rw [e.1]
      have := c2.x
      rw [show (Spec.Coord.of T).T = T from rfl] at this
      rw [← this]
      exact b3.kf.x
    · rw [e.2]
      have := c2.P
      rw [show (Spec.Coord.of T).T = T from rfl, show (Spec.Coord.of T).c = 1 from rfl, one_smul] at this
      rw [← this]
      exact b3.kf.P
  -- both corrections of the large filter
  rw [Spec.run_append, Option.bind_eq_some_iff] at d2
  obtain ⟨t₂, e1, e2⟩ := d2
  have h0 : s'.step (.correct i) =
      some { s' with x := Spec.corrX q.H s'.P q.R s'.x q.z, P := Spec.corrP q.H s'.P q.R } := by
    simp only [Spec.State.step, ho', Option.map_some]
  have hg : Spec.gain q.H s'.P q.R = Spec.gain (o.H * D) s'.P q.R := by
    refine Spec.gain_copy (psd_symm hp.P) ?_
    rw [qH, Matrix.mul_assoc, Matrix.mul_assoc, hP]
  obtain ⟨t₁, k1, k2⟩ := Spec.owes_run (i := i) (R := q.R) (H := o.H * D) (z := q.z) (H' := o.H * D) (z' := q.z)
    (s₂ := s') (s₁ := { s' with x := Spec.corrX q.H s'.P q.R s'.x q.z, P := Spec.corrP q.H s'.P q.R })
    ⟨rfl, rfl, rfl, rfl, by
      simp only [Spec.corrX, hg]
      rw [qH, ← Matrix.mulVec_mulVec, ← Matrix.mulVec_mulVec, hx], by
      simp only [Spec.corrP, hg]
      rw [qH, Matrix.mul_assoc, Matrix.mul_assoc, Matrix.mul_assoc, Matrix.mul_assoc, hP],
      ⟨q, ho', rfl⟩⟩ hp (Spec.unaffected_mul o.H hn) hb hd e1
    (fun ξ => by rw [← Matrix.mulVec_mulVec, hm, Matrix.mulVec_mulVec])
  simp only [Spec.State.run, h0, Option.bind_some, k1, Option.some.injEq] at a2
  subst a2
  obtain ⟨q', hq', hR⟩ := k2.has
  have hlen : i < t₂.obs.length := (List.getElem?_eq_some_iff.1 hq').1
  simp only [Spec.State.run, Spec.State.step, hq', Option.map_some, Option.bind_some, List.getElem?_set_self hlen,
    List.getElem?_set_self, List.length_set, hlen, Option.some.injEq] at e2
  subst e2
  simp only [k2.x, k2.P, eh, ez, hR, qz, and_self]

namespace Ex

/-- A random walk that is measured with variance 3, and a second sensor. -/
def cloneWalk (T : Type) [Field T] : World 1 T :=
  ⟨⟨⟨[1]⟩, ⟨[1]⟩, ⟨[1]⟩, ⟨[1]⟩, ⟨[0]⟩, ⟨[0]⟩⟩, [],
    [⟨1, ⟨⟨[1]⟩, ⟨[5]⟩, ⟨[3]⟩, ⟨[0]⟩, ⟨[0]⟩, ⟨[0]⟩, ⟨[0]⟩, ⟨[0]⟩, ⟨[0]⟩, ⟨[0]⟩⟩⟩,
      ⟨1, ⟨⟨[1]⟩, ⟨[4]⟩, ⟨[2]⟩, ⟨[0]⟩, ⟨[0]⟩, ⟨[0]⟩, ⟨[0]⟩, ⟨[0]⟩, ⟨[0]⟩, ⟨[0]⟩⟩⟩]⟩

/-- The same random walk with a copy of its former position, which does not walk. -/
def cloneLargeWorld (T : Type) [Field T] : World 2 T :=
  ⟨⟨⟨[1, 1]⟩, ⟨[1, 0, 0, 1]⟩, ⟨[1, 1, 1, 1]⟩, ⟨[1, 0, 0, 0]⟩, ⟨[0, 0]⟩, ⟨[0, 0, 0, 0]⟩⟩, [],
    [⟨1, ⟨⟨[1, 0]⟩, ⟨[5]⟩, ⟨[3]⟩, ⟨[0]⟩, ⟨[0]⟩, ⟨[0, 0]⟩, ⟨[0]⟩, ⟨[0, 0]⟩, ⟨[0, 0]⟩, ⟨[0, 0, 0, 0]⟩⟩⟩,
      ⟨1, ⟨⟨[1, 0]⟩, ⟨[4]⟩, ⟨[2]⟩, ⟨[0]⟩, ⟨[0]⟩, ⟨[0, 0]⟩, ⟨[0]⟩, ⟨[0, 0]⟩, ⟨[0, 0]⟩, ⟨[0, 0, 0, 0]⟩⟩⟩]⟩

def cloneSmall : Spec.State 1 ℝ :=
  ⟨![1], !![1], !![1], !![1], [], [⟨1, !![1], ![5], !![3]⟩, ⟨1, !![1], ![4], !![2]⟩]⟩

def cloneLarge : Spec.State 2 ℝ :=
  ⟨![1, 1], !![1, 0; 0, 1], !![1, 1; 1, 1], !![1, 0; 0, 0], [],
    [⟨1, !![1, 0], ![5], !![3]⟩, ⟨1, !![1, 0], ![4], !![2]⟩]⟩

theorem cloneWalk_reps : (cloneWalk ℝ).Reps cloneSmall := by
  refine ⟨by decide, ⟨?_, ?_, ?_, ?_, Nat.le_refl _, Nat.le_refl _⟩, .nil, .cons (.mk (by decide) ⟨?_, ?_, ?_, Nat.le_refl _,
    Nat.le_refl _, Nat.le_refl _, Nat.le_refl _, Nat.le_refl _, Nat.le_refl _, Nat.le_refl _⟩) (.cons (.mk (by decide)
    ⟨?_, ?_, ?_, Nat.le_refl _, Nat.le_refl _, Nat.le_refl _, Nat.le_refl _, Nat.le_refl _, Nat.le_refl _,
    Nat.le_refl _⟩) .nil)⟩
  all_goals first
    | (intro i j; fin_cases i; fin_cases j; rfl)
    | (intro i; fin_cases i; rfl)

theorem cloneLarge_reps : (cloneLargeWorld ℝ).Reps cloneLarge := by
  refine ⟨by decide, ⟨?_, ?_, ?_, ?_, Nat.le_refl _, Nat.le_refl _⟩, .nil, .cons (.mk (by decide) ⟨?_, ?_, ?_, Nat.le_refl _,
    Nat.le_refl _, Nat.le_refl _, Nat.le_refl _, Nat.le_refl _, Nat.le_refl _, Nat.le_refl _⟩) (.cons (.mk (by decide)
    ⟨?_, ?_, ?_, Nat.le_refl _, Nat.le_refl _, Nat.le_refl _, Nat.le_refl _, Nat.le_refl _, Nat.le_refl _,
    Nat.le_refl _⟩) .nil)⟩
  all_goals first
    | (intro i j; fin_cases i <;> fin_cases j <;> rfl)
    | (intro i; fin_cases i <;> rfl)

theorem cloneLarge_psd : cloneLarge.Psd := by
  have d1 : ∀ a : ℝ, 0 < a → (!![a] : Matrix (Fin 1) (Fin 1) ℝ).PosDef := by
    intro a ha
    rw [show (!![a] : Matrix (Fin 1) (Fin 1) ℝ) = Matrix.diagonal fun _ => a by
      ext i j; fin_cases i; fin_cases j; rfl]
    exact Matrix.PosDef.diagonal fun _ => ha
  refine ⟨?_, ?_, by simp [cloneLarge], ?_⟩
  · have := Matrix.posSemidef_self_mul_conjTranspose (!![1; 1] : Matrix (Fin 2) (Fin 1) ℝ)
    convert this using 1
    ext i j; fin_cases i <;> fin_cases j <;> simp [cloneLarge, Matrix.mul_apply]
  · rw [show cloneLarge.Q = Matrix.diagonal ![1, 0] by
      ext i j; fin_cases i <;> fin_cases j <;> rfl]
    refine Matrix.PosSemidef.diagonal fun i => ?_
    fin_cases i <;> simp
  · simp only [cloneLarge, List.mem_cons, List.not_mem_nil, or_false]
    rintro o (rfl | rfl)
    · exact d1 3 (by norm_num)
    · exact d1 2 (by norm_num)

theorem cloneWalk_changed : cloneLarge.Changed (Spec.Coord.of (!![1, 0] : Matrix (Fin 1) (Fin 2) ℝ)) cloneSmall := by
  refine ⟨?_, ?_, ?_, ?_, rfl, rfl, ?_, ?_⟩
  · ext i; fin_cases i; simp [cloneSmall, cloneLarge, Spec.Coord.of]
  · ext i j; fin_cases i; fin_cases j <;> simp [cloneSmall, cloneLarge, Spec.Coord.of, Matrix.mul_apply]
  · ext i j; fin_cases i; fin_cases j
    simp [cloneSmall, cloneLarge, Spec.Coord.of, Matrix.vecMul, dotProduct, Fin.sum_univ_two, Matrix.transpose_apply]
  · ext i j; fin_cases i; fin_cases j
    simp [cloneSmall, cloneLarge, Spec.Coord.of, Matrix.vecMul, dotProduct, Fin.sum_univ_two, Matrix.transpose_apply]
  · intro i c d hc
    simp [cloneLarge] at hc
  · intro i c d hc hd
    have : ∀ z r : ℝ, Spec.ObsChanged 1 (!![1, 0] : Matrix (Fin 1) (Fin 2) ℝ) (fun _ => 1)
        ⟨1, !![1, 0], ![z], !![r]⟩ ⟨1, !![1], ![z], !![r]⟩ := by
      intro z r
      refine .mk ?_ ?_ ?_
      · ext i j; fin_cases i; fin_cases j <;> simp [Matrix.mul_apply]
      · simp
      · simp
    match i with
    | 0 => cases hc; cases hd; exact this 5 3
    | 1 => cases hc; cases hd; exact this 4 2
    | i + 2 => simp [cloneLarge] at hc

end Ex

/-- The hypotheses of `C117_copy` are met: after two steps of the random walk and a measurement in between, the measurement of the
former position is processed. -/
example : (Ex.cloneWalk ℝ).Reps Ex.cloneSmall ∧ (Ex.cloneLargeWorld ℝ).Reps Ex.cloneLarge ∧
    Ex.cloneLarge.Changed (Spec.Coord.of (!![1, 0] : Matrix (Fin 1) (Fin 2) ℝ)) Ex.cloneSmall ∧
    Ex.cloneLarge.Psd ∧
    (!![0, 1] : Matrix (Fin 1) (Fin 2) ℝ) *ᵥ Ex.cloneLarge.x =
      (!![1, 0] : Matrix (Fin 1) (Fin 2) ℝ) *ᵥ Ex.cloneLarge.x ∧
    (!![0, 1] : Matrix (Fin 1) (Fin 2) ℝ) * Ex.cloneLarge.P = (!![1, 0] : Matrix (Fin 1) (Fin 2) ℝ) * Ex.cloneLarge.P ∧
    Ex.cloneSmall.obs[0]? = some ⟨1, !![1], ![5], !![3]⟩ ∧
    (∀ ξ, (!![0, 1] : Matrix (Fin 1) (Fin 2) ℝ) *ᵥ Ex.cloneLarge.evolved [.predict, .correct 1, .predict] ξ =
      !![0, 1] *ᵥ ξ) ∧
    Ex.cloneLarge.Unaffected (!![0, 1] : Matrix (Fin 1) (Fin 2) ℝ) [.predict, .correct 1, .predict] ∧
    (Spec.matOf [0, 1] : Matrix (Fin 1) (Fin 2) ℝ) =
      (!![1] : Matrix (Fin 1) (Fin 1) ℝ) * (!![0, 1] : Matrix (Fin 1) (Fin 2) ℝ) ∧ (Spec.vecOf [5] : Fin 1 → ℝ) = ![5] ∧
    List.Forall₂ (Spec.OpChanged (Spec.Coord.of (!![1, 0] : Matrix (Fin 1) (Fin 2) ℝ))
      (Ex.cloneLarge.ctl.map Sigma.fst) (Ex.cloneLarge.obs.map Sigma.fst))
      [.predict, .correct 1, .predict] [.predict, .correct 1, .predict] ∧
    (∀ op ∈ ([.predict, .correct 1, .predict] : List (Op ℝ)), op.LeavesOut 0 ∧ op.WellFormed (Ex.cloneLargeWorld ℝ) ∧
      op.WellFormed (Ex.cloneWalk ℝ) ∧ Ex.cloneLarge.PsdData op) ∧
    (Op.setH 0 [0, 1] : Op ℝ).WellFormed (Ex.cloneLargeWorld ℝ) ∧ (Op.setZ 0 [5] : Op ℝ).WellFormed (Ex.cloneLargeWorld ℝ) := by
  have hA : ∀ v : Fin 2 → ℝ, (!![1, 0; 0, 1] : Matrix (Fin 2) (Fin 2) ℝ) *ᵥ v = v := by
    intro v; ext i; fin_cases i <;> simp [Matrix.vecHead, Matrix.vecTail]
  refine ⟨Ex.cloneWalk_reps, Ex.cloneLarge_reps, Ex.cloneWalk_changed, Ex.cloneLarge_psd, ?_, ?_, rfl, ?_, ?_, ?_, ?_,
    .cons .predict (.cons (.correct 1) (.cons .predict .nil)), ?_, rfl, rfl⟩
  · ext i; fin_cases i; simp [Ex.cloneLarge]
  · ext i j; fin_cases i; fin_cases j <;> simp [Ex.cloneLarge, Matrix.mul_apply, Fin.sum_univ_two]
  · intro ξ
    simp only [Ex.cloneLarge, Spec.State.evolved, Spec.State.evolve, Spec.State.step, List.getElem?_cons_succ,
      List.getElem?_cons_zero, Option.map_some, hA]
  · simp only [Ex.cloneLarge, Spec.State.Unaffected, Spec.State.evolved, Spec.State.evolve, Spec.State.step,
      Spec.State.Displaces, List.getElem?_cons_succ, List.getElem?_cons_zero, Option.map_some, Option.some.injEq,
      forall_eq', false_imp_iff, implies_true, and_true, true_and, forall_exists_index, hA]
    refine ⟨?_, ?_⟩ <;> rintro d v rfl ξ <;> ext i <;> fin_cases i <;> simp [Matrix.vecHead, Matrix.vecTail]
  · ext i j; fin_cases i; fin_cases j <;> simp [Spec.matOf, Matrix.mul_apply, Fin.sum_univ_two]
  · ext i; fin_cases i; rfl
  · simp only [List.mem_cons, List.not_mem_nil, or_false, forall_eq_or_imp, forall_eq]
    exact ⟨⟨trivial, trivial, trivial, trivial⟩, ⟨Nat.one_ne_zero, Nat.one_lt_two, Nat.one_lt_two, trivial⟩,
      trivial, trivial, trivial, trivial⟩

/-- The two programs on rational numbers, with two steps in between. -/
example : Ex.outcome ((Ex.cloneWalk ℚ).run ⟨true, false⟩ [.correct 0, .predict, .predict]) = .ok ([2], [11 / 4]) ∧
    Ex.outcome ((Ex.cloneLargeWorld ℚ).run ⟨true, false⟩
      [.predict, .predict, .setH 0 [0, 1], .setZ 0 [5], .correct 0]) =
        .ok ([2, 2], [11 / 4, 3 / 4, 3 / 4, 3 / 4]) :=
  ⟨by decide +kernel, by decide +kernel⟩

end Minikalman
