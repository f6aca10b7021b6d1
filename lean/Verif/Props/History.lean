import Verif.Proofs.HistoryRel
import Verif.Spec.Examples
import Verif.Props.Decomposition

/-!
# Properties C28, C29, C35, C36, C40, C51: whole histories of calls

A program holds one filter and any number of controls and observations (`World`) and performs an arbitrary list of API
calls on them (`Op`), including overwriting any user supplied buffer between steps.
-/

set_option linter.unusedSectionVars false

namespace Minikalman

open Matrix

variable {T : Type} {n : Nat}

/-! ## Example program -/

namespace Ex

/-- One filter, one control, two sensors. -/
def world (T : Type) [Field T] : World 2 T :=
  ⟨filter T, [⟨1, control T⟩], [⟨1, obs T⟩, ⟨1, obs2 T⟩]⟩

/-- The textbook filter it holds. -/
def state (T : Type) [Field T] : Spec.State 2 T :=
  ⟨![1, 2], !![1, 1; 0, 1], !![1, 0; 0, 1], !![1, 0; 0, 2], [⟨1, !![1; 2], ![3], !![1]⟩],
    [⟨1, !![1, 0], ![5], !![3]⟩, ⟨1, !![0, 1], ![4], !![8]⟩]⟩

/-- A history using every kind of step; the slice for the state has the surplus cell of the oversized buffer. -/
def ops (T : Type) [Field T] : List (Op T) :=
  [.predict, .control 0, .correct 0, .setZ 1 [7], .correct 1, .setU 0 [-1], .control 0, .predictTuned 2,
    .setR 0 [4], .setX [0, 0, 13], .setA [1, 2, 0, 1], .correct 0]


theorem world_reps (T : Type) [Field T] : (world T).Reps (state T) :=
  ⟨by decide, filter_reps T, .cons (.mk (control_reps T)) .nil,
    .cons (.mk (by decide) (obs_reps T)) (.cons (.mk (by decide) (obs2_reps T)) .nil)⟩

theorem ops_wellFormed (T : Type) [Field T] : ∀ op ∈ ops T, op.WellFormed (world T) := by
  simp only [ops, List.mem_cons, List.not_mem_nil, or_false, forall_eq_or_imp, forall_eq]
  exact ⟨trivial, Nat.zero_lt_one, Nat.zero_lt_two, rfl, Nat.one_lt_two, rfl, Nat.zero_lt_one, trivial, rfl, rfl, rfl,
    Nat.zero_lt_two⟩

theorem state_psd : (state ℝ).Psd := by
  have d1 : ∀ a : ℝ, 0 < a → (!![a] : Matrix (Fin 1) (Fin 1) ℝ).PosDef := by
    intro a ha
    rw [show (!![a] : Matrix (Fin 1) (Fin 1) ℝ) = Matrix.diagonal fun _ => a by
      ext i j; fin_cases i; fin_cases j; rfl]
    exact Matrix.PosDef.diagonal fun _ => ha
  have d2 : ∀ a b : ℝ, 0 < a → 0 < b → (!![a, 0; 0, b] : Matrix (Fin 2) (Fin 2) ℝ).PosSemidef := by
    intro a b ha hb
    rw [show (!![a, 0; 0, b] : Matrix (Fin 2) (Fin 2) ℝ) = Matrix.diagonal ![a, b] by
      ext i j; fin_cases i <;> fin_cases j <;> rfl]
    refine (Matrix.PosDef.diagonal fun i => ?_).posSemidef
    fin_cases i
    · exact ha
    · exact hb
  refine ⟨d2 1 1 (by norm_num) (by norm_num), d2 1 2 (by norm_num) (by norm_num), ?_, ?_⟩
  · simp only [state, List.mem_singleton]
    rintro c rfl
    exact (d1 1 (by norm_num)).posSemidef
  · simp only [state, List.mem_cons, List.not_mem_nil, or_false]
    rintro o (rfl | rfl)
    · exact d1 3 (by norm_num)
    · exact d1 8 (by norm_num)

theorem ops_psdData : ∀ op ∈ ops ℝ, (state ℝ).PsdData op ∧ op.NonzeroLambda := by
  have hR : (Spec.matOf [4] : Matrix (Fin 1) (Fin 1) ℝ).PosDef := by
    rw [show (Spec.matOf [4] : Matrix (Fin 1) (Fin 1) ℝ) = Matrix.diagonal fun _ => 4 by
      ext i j; fin_cases i; fin_cases j; rfl]
    exact Matrix.PosDef.diagonal fun _ => by norm_num
  simp only [ops, List.mem_cons, List.not_mem_nil, or_false, forall_eq_or_imp, forall_eq, Op.NonzeroLambda,
    Spec.State.CovData, and_self, true_and, and_true]
  refine ⟨by norm_num, ?_⟩
  intro m hm
  simp [state] at hm
  subst hm
  exact hR

end Ex

/-! ## C40 -/

/-- C40, histories: any list of well formed calls on valid objects (at least one state, every observation at least one
measurement) runs to the end without panic, whatever the contents, if the element type has total `recip` and
`square_root`; afterwards all objects are still valid and all buffers have their old lengths, so the same holds for
any continuation. -/
theorem C40_history_never_panics [Zero T] [One T] [Add T] [Sub T] [Mul T] [Neg T] [MDT T] [TotalScalar T] (bld : Build)
    {w : World n T} (hw : w.Valid) {ops : List (Op T)} (hops : ∀ op ∈ ops, op.WellFormed w) :
    ∃ w', w.run bld ops = .ok w' ∧ w'.Valid ∧ w.SameShape w' :=
  (run_safe bld hw hops).holds not_scalarPanic

/-- C40 for element types whose `recip` or `square_root` may panic (fixed point): no other panic is possible. -/
theorem C40_history_only_scalar_panics [Zero T] [One T] [Add T] [Sub T] [Mul T] [Neg T] [MDT T] (bld : Build)
    {w : World n T} (hw : w.Valid) {ops : List (Op T)} (hops : ∀ op ∈ ops, op.WellFormed w) {e : Panic}
    (he : w.run bld ops = .error e) : ScalarPanic T e := by
  rcases run_safe bld hw hops with ⟨e', h1, h2⟩ | ⟨w', h1, _⟩
  · rw [he] at h1; cases h1; exact h2
  · rw [he] at h1; cases h1

example : (Ex.world ℚ).Valid ∧ ∀ op ∈ Ex.ops ℚ, op.WellFormed (Ex.world ℚ) :=
  ⟨(Ex.world_reps ℚ).valid, Ex.ops_wellFormed ℚ⟩

/-! ## C51 -/

/-- C51: in exact real arithmetic the program refines the textbook filter over whole histories: if every correction met
on the way has a positive definite innovation covariance and `predict_tuned(0)` is not called, then the run does
not panic and ends in objects that hold exactly what the textbook filter computes. -/
theorem C51_refines_textbook [MDT ℝ] [ExactReal] (bld : Build) {w : World n ℝ} {s : Spec.State n ℝ} (h : w.Reps s)
    {ops : List (Op ℝ)} (hops : ∀ op ∈ ops, op.WellFormed w) (hr : s.RegularRun ops) :
    ∃ w' s', w.run bld ops = .ok w' ∧ s.run ops = some s' ∧ w'.Reps s' := by
  obtain ⟨w', s', h1, h2, h3, _⟩ := run_refines bld h hops hr
  exact ⟨w', s', h1, h2, h3⟩

example : (Ex.world ℝ).Reps (Ex.state ℝ) ∧ (∀ op ∈ Ex.ops ℝ, op.WellFormed (Ex.world ℝ)) ∧
    (Ex.state ℝ).RegularRun (Ex.ops ℝ) :=
  ⟨Ex.world_reps ℝ, Ex.ops_wellFormed ℝ,
    psd_regularRun Ex.state_psd (fun op h => (Ex.ops_psdData op h).2) (fun op h => (Ex.ops_psdData op h).1)⟩

/-! ## C28 -/

/-- C28: symmetric covariances stay symmetric over every history whose corrections have positive definite innovation
covariances. -/
theorem C28_covariance_symmetric [MDT ℝ] [ExactReal] (bld : Build) {w : World n ℝ} {s : Spec.State n ℝ} (h : w.Reps s)
    (hs : s.Symm) {ops : List (Op ℝ)} (hops : ∀ op ∈ ops, op.WellFormed w) (hd : ∀ op ∈ ops, s.SymmData op)
    (hr : s.RegularRun ops) :
    ∃ w' P', w.run bld ops = .ok w' ∧ w'.kf.P.Reps P' ∧ P'ᵀ = P' := by
  obtain ⟨w', s', h1, h2, h3, _⟩ := run_refines bld h hops hr
  exact ⟨w', s'.P, h1, h3.kf.P, (run_cov_inv symm_closed h2 hs hd hr).P⟩

/-! ## C29 -/

/-- C29: with positive semi-definite `P`, `Q`, control noises and positive definite measurement noises (initially and in
all assignments) no history panics, the covariance is positive semi-definite at the end, and every innovation covariance
met on the way is positive definite (`RegularRun`). -/
theorem C29_covariance_psd [MDT ℝ] [ExactReal] (bld : Build) {w : World n ℝ} {s : Spec.State n ℝ} (h : w.Reps s)
    (hs : s.Psd) {ops : List (Op ℝ)} (hops : ∀ op ∈ ops, op.WellFormed w) (hd : ∀ op ∈ ops, s.PsdData op)
    (hl : ∀ op ∈ ops, op.NonzeroLambda) :
    s.RegularRun ops ∧ ∃ w' s', w.run bld ops = .ok w' ∧ s.run ops = some s' ∧ w'.Reps s' ∧ s'.P.PosSemidef := by
  have hr := psd_regularRun hs hl hd
  obtain ⟨w', s', h1, h2, h3, _⟩ := run_refines bld h hops hr
  exact ⟨hr, w', s', h1, h2, h3, (run_cov_inv psd_closed h2 hs hd hr).P⟩

/-- C29, continued: at any point of such a history, the Cholesky decomposition inside a correction succeeds: the buffer
holds a lower triangular factor of the innovation covariance afterwards. -/
theorem C29_every_cholesky_succeeds [MDT ℝ] [ExactReal] (bld : Build) {w : World n ℝ} {s : Spec.State n ℝ}
    (h : w.Reps s) (hs : s.Psd) {ops : List (Op ℝ)} (hops : ∀ op ∈ ops, op.WellFormed w)
    (hd : ∀ op ∈ ops, s.PsdData op) (hl : ∀ op ∈ ops, op.NonzeroLambda) :
    ∃ w' s', w.run bld ops = .ok w' ∧ w'.Reps s' ∧ ∀ o ∈ s'.obs, ∀ S : Mat o.1 o.1 ℝ,
      S.RepsUpper (o.2.H * s'.P * o.2.Hᵀ + o.2.R) → ∃ S', S.choleskyDecomposeLower bld = .ok (S', true) := by
  have hr := psd_regularRun hs hl hd
  obtain ⟨w', s', h1, h2, h3, _⟩ := run_refines bld h hops hr
  have hp := run_cov_inv psd_closed h2 hs hd hr
  refine ⟨w', s', h1, h3, fun o ho S hS => ?_⟩
  have hpd := innovCov_pd (H := o.2.H) hp.P (hp.obs o ho)
  obtain ⟨i, hi⟩ := List.mem_iff_getElem?.mp ho
  obtain ⟨o', _, hoo⟩ := forall₂_get h3.obs.flip hi
  cases hoo with | mk hm _ =>
  obtain ⟨S', b, k1, _, k2⟩ := C15_cholesky_true_iff_posDef bld hm (pd_symm hpd) hS
  rw [k2.mpr hpd] at k1
  exact ⟨S', k1⟩

example : (Ex.world ℝ).Reps (Ex.state ℝ) ∧ (Ex.state ℝ).Psd ∧ (∀ op ∈ Ex.ops ℝ, op.WellFormed (Ex.world ℝ)) ∧
    (∀ op ∈ Ex.ops ℝ, (Ex.state ℝ).PsdData op) ∧ ∀ op ∈ Ex.ops ℝ, op.NonzeroLambda :=
  ⟨Ex.world_reps ℝ, Ex.state_psd, Ex.ops_wellFormed ℝ, fun op h => (Ex.ops_psdData op h).1,
    fun op h => (Ex.ops_psdData op h).2⟩

/-! ## C35 -/

/-- C35: two histories that differ only in the data (state, measurements, control inputs, and the garbage in
temporaries) either panic alike or end with the same covariance, in any arithmetic. -/
theorem C35_covariance_independent_of_data [Zero T] [One T] [Add T] [Sub T] [Mul T] [Neg T] [MDT T] (bld : Build)
    {w w' : World n T} (hw : w.Valid) (hw' : w'.Valid) (h : w.CovEq w') {ops ops' : List (Op T)}
    (hs : List.Forall₂ Op.SameUpToData ops ops') (hops : ∀ op ∈ ops, op.WellFormed w)
    (hops' : ∀ op ∈ ops', op.WellFormed w') :
    (∃ e, w.run bld ops = .error e ∧ w'.run bld ops' = .error e) ∨
    ∃ v v', w.run bld ops = .ok v ∧ w'.run bld ops' = .ok v' ∧ v.CovEq v' :=
  run_cov bld hw hw' h hs hops hops'

/-- C35 for gains: in two worlds with the same matrices, the same correction uses the same gain. -/
theorem C35_gain_independent_of_data [Zero T] [One T] [Add T] [Sub T] [Mul T] [Neg T] [MDT T] (bld : Build) {m : Nat}
    {f g : RegularKalman n T} {o p : RegularObservation n m T} (hn : 0 < n) (hm : 0 < m) (hf : f.Valid) (hg : g.Valid)
    (ho : o.Valid) (hp : p.Valid) (hH : o.H.Agree p.H) (hR : o.R.Agree p.R) (hP : f.P.Agree g.P) :
    (∃ e, f.correct bld o = .error e ∧ g.correct bld p = .error e) ∨
    ∃ f' o' g' p', f.correct bld o = .ok (f', o') ∧ g.correct bld p = .ok (g', p') ∧ f'.P.Agree g'.P ∧
      o'.K.Agree p'.K ∧ o'.S.Agree p'.S := by
  rcases kcorrect_cov bld hn hm hf hg ho hp hH hR hP with h | ⟨⟨f', o'⟩, ⟨g', p'⟩, h1, h2, _, _, _, _, h3, h4, h5⟩
  · exact Or.inl h
  · exact Or.inr ⟨f', o', g', p', h1, h2, h3, h4, h5⟩

/-- Two worlds with the same covariances and different data, and two histories with different data. -/
example : (Ex.world ℚ).CovEq { Ex.world ℚ with kf := { (Ex.world ℚ).kf with x := ⟨[3, 4]⟩ } } ∧
    List.Forall₂ Op.SameUpToData (Ex.ops ℚ) ((Ex.ops ℚ).set 3 (.setZ 1 [100])) :=
  ⟨⟨.refl _, .refl _, .refl _, .cons (.mk (.refl _) (.refl _)) .nil,
    .cons (.mk (.refl _) (.refl _)) (.cons (.mk (.refl _) (.refl _)) .nil)⟩,
    .cons (.same _) (.cons (.same _) (.cons (.same _) (.cons (.setZ 1 _ _) (.cons (.same _) (.cons (.same _)
      (.cons (.same _) (.cons (.same _) (.cons (.same _) (.cons (.same _) (.cons (.same _) (.cons (.same _) .nil)))))))))))⟩

/-! ## C36 -/

/-- C36: superposition. Three histories with the same matrices, where the data (initial state, control inputs,
measurements, and all data assigned on the way) of the third is the combination `p * first + q * second`, either
panic alike or end with a state that is the combination of the states. In any commutative ring, whatever `recip`,
`square_root` and comparison do. -/
theorem C36_superposition [CommRing T] [MDT T] (bld : Build) {p q : T} {w₁ w₂ w₃ : World n T} (h₁ : w₁.Valid)
    (h₂ : w₂.Valid) (h₃ : w₃.Valid) (c₁ : w₃.CovEq w₁) (c₂ : w₃.CovEq w₂) (h : World.Comb p q w₁ w₂ w₃)
    {ops₁ ops₂ ops₃ : List (Op T)} (hs : Forall₃ (Op.Comb p q) ops₁ ops₂ ops₃)
    (g₁ : ∀ op ∈ ops₁, op.WellFormed w₁) (g₂ : ∀ op ∈ ops₂, op.WellFormed w₂) (g₃ : ∀ op ∈ ops₃, op.WellFormed w₃) :
    (∃ e, w₁.run bld ops₁ = .error e ∧ w₂.run bld ops₂ = .error e ∧ w₃.run bld ops₃ = .error e) ∨
    ∃ v₁ v₂ v₃ x₁ x₂ x₃, w₁.run bld ops₁ = .ok v₁ ∧ w₂.run bld ops₂ = .ok v₂ ∧ w₃.run bld ops₃ = .ok v₃ ∧
      v₁.kf.x.RepsV x₁ ∧ v₂.kf.x.RepsV x₂ ∧ v₃.kf.x.RepsV x₃ ∧ x₃ = p • x₁ + q • x₂ := by
  rcases run_comb bld h₁ h₂ h₃ c₁ c₂ h hs g₁ g₂ g₃ with h | ⟨v₁, v₂, v₃, e1, e2, e3, hc⟩
  · exact Or.inl h
  · obtain ⟨x₁, x₂, k1, k2, k3⟩ := hc.x
    exact Or.inr ⟨v₁, v₂, v₃, x₁, x₂, _, e1, e2, e3, k1, k2, k3, rfl⟩

/-- The example program with other data. -/
def Ex.worldData (a b u z₁ z₂ : ℚ) : World 2 ℚ :=
  ⟨{ Ex.filter ℚ with x := ⟨[a, b, 77]⟩ }, [⟨1, { Ex.control ℚ with u := ⟨[u]⟩ }⟩],
    [⟨1, { Ex.obs ℚ with z := ⟨[z₁]⟩ }⟩, ⟨1, { Ex.obs2 ℚ with z := ⟨[z₂]⟩ }⟩]⟩

/-- Worlds and histories meeting the hypotheses of `C36_superposition` with `p = 3`, `q = -1`. -/
example : World.Comb 3 (-1) (Ex.worldData 1 2 3 4 5) (Ex.worldData 6 7 8 9 10) (Ex.worldData (-3) (-1) 1 3 5) ∧
    (Ex.worldData (-3) (-1) 1 3 5).CovEq (Ex.worldData 1 2 3 4 5) ∧
    (Ex.worldData (-3) (-1) 1 3 5).CovEq (Ex.worldData 6 7 8 9 10) ∧
    Forall₃ (Op.Comb (3 : ℚ) (-1)) [.predict, .setZ 1 [1], .correct 1, .control 0] [.predict, .setZ 1 [2], .correct 1, .control 0]
      [.predict, .setZ 1 [1], .correct 1, .control 0] := by
  have hv : ∀ a b c : ℚ, 3 * a + -1 * b = c → Mat.Comb (3 : ℚ) (-1) (⟨[a]⟩ : Mat 1 1 ℚ) ⟨[b]⟩ ⟨[c]⟩ := by
    rintro a b c rfl
    refine ⟨![a], ![b], fun i => ?_, fun i => ?_, fun i => ?_⟩ <;> fin_cases i <;> simp
  refine ⟨⟨⟨![1, 2], ![6, 7], fun i => ?_, fun i => ?_, fun i => ?_⟩, .cons (.mk (hv _ _ _ ?_)) .nil,
      .cons (.mk (hv _ _ _ ?_)) (.cons (.mk (hv _ _ _ ?_)) .nil)⟩, ?_, ?_, ?_⟩
  · fin_cases i <;> rfl
  · fin_cases i <;> rfl
  · fin_cases i
    · simp [Ex.worldData]; norm_num
    · simp [Ex.worldData]; norm_num
  · norm_num
  · norm_num
  · norm_num
  · exact ⟨.refl _, .refl _, .refl _, .cons (.mk (.refl _) (.refl _)) .nil,
      .cons (.mk (.refl _) (.refl _)) (.cons (.mk (.refl _) (.refl _)) .nil)⟩
  · exact ⟨.refl _, .refl _, .refl _, .cons (.mk (.refl _) (.refl _)) .nil,
      .cons (.mk (.refl _) (.refl _)) (.cons (.mk (.refl _) (.refl _)) .nil)⟩
  · have h := Op.Comb.setZ (p := (3 : ℚ)) (q := -1) 1 [1] [2]
    have e : List.zipWith (fun a b : ℚ => 3 * a + -1 * b) [1] [2] = [1] := by norm_num
    rw [e] at h
    exact .cons .predict (.cons h (.cons (.correct 1) (.cons (.control 0) .nil)))

end Minikalman
