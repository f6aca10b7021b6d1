import Verif.Proofs.Apart
import Verif.Props.History

/-!
# Property C83: independent subsystems do not disturb each other

One filter may be used for several systems at once, with block-diagonal matrices. In exact arithmetic whatever happens to one of
them (other estimates, models, controls, measurements, sensors that are missing or come additionally) has no influence on the
others, and no correlation between them is ever reported.
-/

namespace Minikalman

open Matrix

variable {n : Nat}

/-- C83: two filters that agree on a part of the state that is not coupled to the rest, and two histories with the same calls
concerning this part: at the end the estimates, variances and covariances of the part are the same, and it is not correlated with
the rest. No call panics. -/
theorem C83_noninterference [MDT ℝ] [ExactReal] (bld bld' : Build) (p : Fin n → Bool) (g : Spec.Owner) {w w' : World n ℝ}
    {s s' : Spec.State n ℝ} (h : w.Reps s) (h' : w'.Reps s') (hs : s.Psd) (hs' : s'.Psd) (ha : s.Agree p g s')
    {ops ops' : List (Op ℝ)} (hops : ∀ op ∈ ops, op.WellFormed w) (hops' : ∀ op ∈ ops', op.WellFormed w')
    (hl : ∀ op ∈ ops, op.NonzeroLambda) (hl' : ∀ op ∈ ops', op.NonzeroLambda) (hd : ∀ op ∈ ops, s.PsdData op)
    (hd' : ∀ op ∈ ops', s'.PsdData op)
    (ho : Spec.OpsAgree p g (s.ctl.map Sigma.fst) (s.obs.map Sigma.fst) (s'.ctl.map Sigma.fst) (s'.obs.map Sigma.fst) ops ops') :
    ∃ w1 w1' x x' P P', w.run bld ops = .ok w1 ∧ w'.run bld' ops' = .ok w1' ∧ w1.kf.x.RepsV x ∧ w1'.kf.x.RepsV x' ∧
      w1.kf.P.Reps P ∧ w1'.kf.P.Reps P' ∧ (∀ i, p i = true → x i = x' i) ∧
      (∀ i j, p i = true → p j = true → P i j = P' i j) ∧ ∀ i j, p i ≠ p j → P i j = 0 ∧ P' i j = 0 := by
  obtain ⟨w1, s1, h1, h2, h3, _⟩ := run_refines bld h hops (psd_regularRun hs hl hd)
  obtain ⟨w1', s1', h1', h2', h3', _⟩ := run_refines bld' h' hops' (psd_regularRun hs' hl' hd')
  have hf := Spec.run_agree ha ho h2 h2'
  exact ⟨w1, w1', s1.x, s1'.x, s1.P, s1'.P, h1, h1', h3.kf.x, h3'.kf.x, h3.kf.P, h3'.kf.P, hf.x, hf.P.same,
    fun i j hij => ⟨hf.P.left i j hij, hf.P.right i j hij⟩⟩

/-- C83: a single correction does not touch the state variables that are not correlated with the measured quantity. -/
theorem C83_uncorrelated [MDT ℝ] [ExactReal] (bld : Build) {m : Nat} {f : RegularKalman n ℝ} {o : RegularObservation n m ℝ}
    {x : Fin n → ℝ} {A P Q : Matrix (Fin n) (Fin n) ℝ} {H : Matrix (Fin m) (Fin n) ℝ} {z : Fin m → ℝ}
    {R : Matrix (Fin m) (Fin m) ℝ} (hn : 0 < n) (hm : 0 < m) (hf : f.Reps x A P Q) (ho : o.Reps H z R)
    (hpd : (H * P * Hᵀ + R).PosDef) (i : Fin n) (hi : ∀ k, (P * Hᵀ) i k = 0) :
    ∃ f' o' x' P', f.correct bld o = .ok (f', o') ∧ f'.Reps x' A P' Q ∧ x' i = x i ∧ ∀ j, P' i j = P i j := by
  obtain ⟨f', o', h1, h2, _⟩ := kcorrect_exact bld hn hm hf ho hpd
  have hK : ∀ k, Spec.gain H P R i k = 0 := by
    intro k
    rw [Spec.gain, Matrix.mul_apply]
    exact Finset.sum_eq_zero fun j _ => by rw [hi j, zero_mul]
  refine ⟨f', o', _, _, h1, h2, ?_, fun j => ?_⟩
  · rw [Spec.corrX, Pi.add_apply, Matrix.mulVec, dotProduct, Finset.sum_eq_zero fun k _ => by rw [hK k, zero_mul], add_zero]
  · rw [Spec.corrP, Matrix.mul_assoc, Matrix.sub_apply, Matrix.mul_apply,
      Finset.sum_eq_zero fun k _ => by rw [hK k, zero_mul], sub_zero]

/-! ## Non-vacuity -/

namespace Ex

/-- Two uncoupled systems of one state each; control 0 and sensor 0 belong to the first, sensor 1 to the second. -/
def apart : Fin 2 → Bool := ![true, false]

def owner : Spec.Owner := ⟨fun _ => true, fun i => i == 0⟩

noncomputable def worldApart (x1 p1 z1 : ℝ) : World 2 ℝ :=
  ⟨{ filter ℝ with x := ⟨[1, x1, 77]⟩, A := ⟨[2, 0, 0, 3]⟩, P := ⟨[1, 0, 0, p1]⟩ }, [⟨1, { control ℝ with B := ⟨[1, 0]⟩ }⟩],
    [⟨1, obs ℝ⟩, ⟨1, { obs2 ℝ with z := ⟨[z1]⟩ }⟩]⟩

noncomputable def stateApart (x1 p1 z1 : ℝ) : Spec.State 2 ℝ :=
  ⟨![1, x1], !![2, 0; 0, 3], !![1, 0; 0, p1], !![1, 0; 0, 2], [⟨1, !![1; 0], ![3], !![1]⟩],
    [⟨1, !![1, 0], ![5], !![3]⟩, ⟨1, !![0, 1], ![z1], !![8]⟩]⟩

theorem worldApart_reps (x1 p1 z1 : ℝ) : (worldApart x1 p1 z1).Reps (stateApart x1 p1 z1) := by
  obtain ⟨_, _, _, _, h1, h2⟩ := filter_reps ℝ
  obtain ⟨_, hu, hQ, hv⟩ := control_reps ℝ
  obtain ⟨hH, _, hR, a1, a2, a3, a4, a5, a6, a7⟩ := obs2_reps ℝ
  refine ⟨by decide, ⟨?_, ?_, ?_, (filter_reps ℝ).Q, h1, h2⟩, .cons (.mk ⟨?_, hu, hQ, hv⟩) .nil,
    .cons (.mk (by decide) (obs_reps ℝ)) (.cons (.mk (by decide) ⟨hH, ?_, hR, a1, a2, a3, a4, a5, a6, a7⟩) .nil)⟩
  · intro i; fin_cases i <;> rfl
  · intro i j; fin_cases i <;> fin_cases j <;> rfl
  · intro i j; fin_cases i <;> fin_cases j <;> rfl
  · intro i j; fin_cases i <;> fin_cases j <;> rfl
  · intro i; fin_cases i; rfl

theorem stateApart_psd (x1 z1 : ℝ) {p1 : ℝ} (h : 0 ≤ p1) : (stateApart x1 p1 z1).Psd := by
  obtain ⟨_, hQ, hc, ho⟩ := state_psd
  refine ⟨?_, hQ, ?_, ?_⟩
  · show (!![1, 0; 0, p1] : Matrix (Fin 2) (Fin 2) ℝ).PosSemidef
    rw [show (!![1, 0; 0, p1] : Matrix (Fin 2) (Fin 2) ℝ) = Matrix.diagonal ![1, p1] by
      ext i j; fin_cases i <;> fin_cases j <;> rfl]
    exact Matrix.PosSemidef.diagonal fun i => by fin_cases i <;> simp [h]
  · intro c hcm
    simp only [stateApart, List.mem_singleton] at hcm
    subst hcm
    exact hc ⟨1, !![1; 2], ![3], !![1]⟩ (by simp [state])
  · intro o hom
    simp only [stateApart, List.mem_cons, List.not_mem_nil, or_false] at hom
    rcases hom with rfl | rfl
    · exact ho ⟨1, !![1, 0], ![5], !![3]⟩ (by simp [state])
    · exact ho ⟨1, !![0, 1], ![4], !![8]⟩ (by simp [state])

theorem stateApart_agree (x1 p1 z1 x2 p2 z2 : ℝ) : (stateApart x1 p1 z1).Agree apart owner (stateApart x2 p2 z2) := by
  have hd : ∀ a b b' : ℝ, Spec.SameBlock apart (!![a, 0; 0, b] : Matrix (Fin 2) (Fin 2) ℝ) !![a, 0; 0, b'] := by
    intro a b b'
    refine ⟨?_, ?_, ?_⟩
    · intro i j hij; fin_cases i <;> fin_cases j <;> first | rfl | exact absurd rfl hij
    · intro i j hij; fin_cases i <;> fin_cases j <;> first | rfl | exact absurd rfl hij
    · intro i j hi hj; fin_cases i <;> fin_cases j <;> first | rfl | cases hi
  have hc : ∀ i c, (stateApart x1 p1 z1).ctl[i]? = some c → Spec.ActsOn apart (owner.ctl i) c.2.B := by
    intro i c hi
    match i with
    | 0 =>
      cases hi
      intro r k hr; fin_cases r <;> fin_cases k <;> first | rfl | exact absurd rfl hr
    | i + 1 => cases hi
  have ho : ∀ z i c, (stateApart x1 p1 z).obs[i]? = some c → Spec.Sees apart (owner.obs i) c.2.H := by
    intro z i c hi
    match i with
    | 0 =>
      cases hi
      intro k r hr; fin_cases r <;> fin_cases k <;> first | rfl | exact absurd rfl hr
    | 1 =>
      cases hi
      intro k r hr; fin_cases r <;> fin_cases k <;> first | rfl | exact absurd rfl hr
    | i + 2 => cases hi
  refine ⟨?_, hd _ _ _, hd _ _ _, hd _ _ _, fun _ _ => rfl, ?_, hc, hc, ho z1, ho z2⟩
  · intro i hi; fin_cases i <;> first | rfl | cases hi
  · intro i hi
    match i with
    | 0 => rfl
    | i + 1 => cases hi

/-- The second history measures the second system more often, with other noise. -/
noncomputable def opsApart : List (Op ℝ) := [.predict, .correct 0, .correct 1, .control 0, .setZ 1 [7]]

noncomputable def opsApart' : List (Op ℝ) := [.correct 1, .predict, .correct 0, .control 0, .correct 1, .correct 1]

example : (∀ x1 p1 z1, (worldApart x1 p1 z1).Reps (stateApart x1 p1 z1)) ∧
    (stateApart 2 1 4).Agree apart owner (stateApart (-9) 50 0) ∧ (stateApart 2 1 4).Psd ∧ (stateApart (-9) 50 0).Psd ∧
    (∀ op ∈ opsApart, op.WellFormed (worldApart 2 1 4) ∧ op.NonzeroLambda ∧ (stateApart 2 1 4).PsdData op) ∧
    (∀ op ∈ opsApart', op.WellFormed (worldApart (-9) 50 0) ∧ op.NonzeroLambda ∧ (stateApart (-9) 50 0).PsdData op) ∧
    Spec.OpsAgree apart owner [1] [1, 1] [1] [1, 1] opsApart opsApart' := by
  refine ⟨worldApart_reps, stateApart_agree _ _ _ _ _ _, stateApart_psd _ _ (by norm_num), stateApart_psd _ _ (by norm_num),
    ?_, ?_, .right rfl (.both .predict (.inside rfl (.left rfl (.inside rfl (.left rfl (.right rfl (.right rfl .nil)))))))⟩
  · simp only [opsApart, List.mem_cons, List.not_mem_nil, or_false, forall_eq_or_imp, forall_eq]
    exact ⟨⟨trivial, trivial, trivial⟩, ⟨Nat.zero_lt_two, trivial, trivial⟩, ⟨Nat.one_lt_two, trivial, trivial⟩,
      ⟨Nat.zero_lt_one, trivial, trivial⟩, ⟨rfl, trivial, trivial⟩⟩
  · simp only [opsApart', List.mem_cons, List.not_mem_nil, or_false, forall_eq_or_imp, forall_eq]
    exact ⟨⟨Nat.one_lt_two, trivial, trivial⟩, ⟨trivial, trivial, trivial⟩, ⟨Nat.zero_lt_two, trivial, trivial⟩,
      ⟨Nat.zero_lt_one, trivial, trivial⟩, ⟨Nat.one_lt_two, trivial, trivial⟩, ⟨Nat.one_lt_two, trivial, trivial⟩⟩

end Ex
end Minikalman
