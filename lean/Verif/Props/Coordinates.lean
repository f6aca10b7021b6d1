import Verif.Proofs.Coordinates
import Verif.Props.History

/-!
# Property C68: the choice of coordinates does not matter

Running the filter in other units, in another basis, or on a part of the state that evolves on its own gives the same
estimates, seen through the change of coordinates, after any history of calls.
-/

namespace Minikalman

open Matrix

variable {n n' : Nat}

/-- C68: let two programs hold the same filter in different coordinates (`x' = T x`, `A' T = T A`, `P' = c T P Tᵀ`, …;
`T` need not be invertible or square, the maps `M` of the measurements must be invertible, the scale `c` of all
covariances must be positive) and make the same calls, with
assigned data in the respective coordinates. In exact arithmetic, if every correction of the first program meets a
positive definite innovation covariance, then neither program panics, and at the end the second one holds `T x` and
`c T P Tᵀ` where the first one holds `x` and `P`; in fact everything they hold is again the same filter in the two
coordinates. -/
theorem C68_coordinates [MDT ℝ] [ExactReal] (bld : Build) {g : Spec.Coord n n'} (hg : 0 < g.c) (hM : ∀ i m, IsUnit (g.M i m).det)
    {w : World n ℝ} {w' : World n' ℝ} {s : Spec.State n ℝ} {s' : Spec.State n' ℝ} (hw : w.Reps s) (hw' : w'.Reps s')
    (hs : s.Changed g s') {ops ops' : List (Op ℝ)} (hops : ∀ op ∈ ops, op.WellFormed w)
    (hops' : ∀ op ∈ ops', op.WellFormed w')
    (ho : List.Forall₂ (Spec.OpChanged g (s.ctl.map Sigma.fst) (s.obs.map Sigma.fst)) ops ops')
    (hr : s.RegularRun ops) :
    ∃ w1 w1' s1 s1', w.run bld ops = .ok w1 ∧ w'.run bld ops' = .ok w1' ∧ w1.Reps s1 ∧ w1'.Reps s1' ∧
      s1.Changed g s1' ∧ w1'.kf.x.RepsV (g.T *ᵥ s1.x) ∧ w1'.kf.P.Reps (g.c • (g.T * s1.P * g.Tᵀ)) := by
  obtain ⟨w1, s1, h1, h2, h3, _⟩ := run_refines bld hw hops hr
  obtain ⟨hr', s1', e1, c1⟩ := Spec.run_changed hg hM hs ho hr h2
  obtain ⟨w1', t, k1, k2, k3, _⟩ := run_refines bld hw' hops' hr'
  rw [e1] at k2
  cases k2
  refine ⟨w1, w1', s1, s1', h1, k1, h3, k3, c1, ?_, ?_⟩
  · rw [← c1.x]; exact k3.kf.x
  · rw [← c1.P]; exact k3.kf.P

namespace Spec

/-- The part of the state that consists of its first `n'` entries. -/
def part (n n' : Nat) : Matrix (Fin n') (Fin n) ℝ := Matrix.of fun i j => if (i : Nat) = (j : Nat) then 1 else 0

/-- Leave out the entries after the first `n'` and change nothing else. -/
def Coord.part (n n' : Nat) : Coord n n' := ⟨1, Spec.part n n', fun _ _ => 1, fun _ _ => 1⟩

theorem part_mulVec (h : n' ≤ n) (v : Fin n → ℝ) (i : Fin n') : (part n n' *ᵥ v) i = v (i.castLE h) := by
  show ∑ j, part n n' i j * v j = _
  rw [Finset.sum_eq_single (i.castLE h)]
  · simp [part]
  · intro j _ hj
    have : ¬ (i : Nat) = (j : Nat) := fun e => hj (Fin.ext e.symm)
    simp [part, this]
  · simp

theorem part_mul (h : n' ≤ n) {k : Nat} (X : Matrix (Fin n) (Fin k) ℝ) (i : Fin n') (j : Fin k) :
    (part n n' * X) i j = X (i.castLE h) j := part_mulVec h (fun r => X r j) i

theorem mul_part_transpose (h : n' ≤ n) {k : Nat} (X : Matrix (Fin k) (Fin n) ℝ) (i : Fin k) (j : Fin n') :
    (X * (part n n')ᵀ) i j = X i (j.castLE h) := by
  have : X * (part n n')ᵀ = (part n n' * Xᵀ)ᵀ := by rw [Matrix.transpose_mul, Matrix.transpose_transpose]
  rw [this, Matrix.transpose_apply, part_mul h]
  rfl

end Spec

/-- C68, parts of the state: suppose the first `n'` states evolve on their own and all sensors look at them only
(`T = part`: the first rows of `A` are `[A' 0]`, the sensor matrices are `[H' 0]`). Then a filter for these states
alone, given the corresponding parts of all data, produces exactly the first `n'` entries of the estimate and the
upper left part of the covariance of the full filter. -/
theorem C68_part [MDT ℝ] [ExactReal] (bld : Build) (hn : n' ≤ n) {w : World n ℝ} {w' : World n' ℝ} {s : Spec.State n ℝ}
    {s' : Spec.State n' ℝ} (hw : w.Reps s) (hw' : w'.Reps s') (hs : s.Changed (Spec.Coord.part n n') s')
    {ops ops' : List (Op ℝ)} (hops : ∀ op ∈ ops, op.WellFormed w) (hops' : ∀ op ∈ ops', op.WellFormed w')
    (ho : List.Forall₂ (Spec.OpChanged (Spec.Coord.part n n') (s.ctl.map Sigma.fst) (s.obs.map Sigma.fst)) ops ops')
    (hr : s.RegularRun ops) :
    ∃ w1 w1' x P, w.run bld ops = .ok w1 ∧ w'.run bld ops' = .ok w1' ∧ w1.kf.x.RepsV x ∧ w1.kf.P.Reps P ∧
      w1'.kf.x.RepsV (fun i => x (i.castLE hn)) ∧ w1'.kf.P.Reps (P.submatrix (Fin.castLE hn) (Fin.castLE hn)) := by
  obtain ⟨w1, w1', s1, s1', h1, h2, h3, h4, h5, h6, h7⟩ :=
    C68_coordinates bld (g := Spec.Coord.part n n') one_pos (fun _ m => by simp [Spec.Coord.part]) hw hw' hs hops hops' ho hr
  refine ⟨w1, w1', s1.x, s1.P, h1, h2, h3.kf.x, h3.kf.P, ?_, ?_⟩
  · have e : (fun i => s1.x (i.castLE hn)) = (Spec.Coord.part n n').T *ᵥ s1.x := by
      funext i; exact (Spec.part_mulVec hn _ i).symm
    rw [e]; exact h6
  · have e : s1.P.submatrix (Fin.castLE hn) (Fin.castLE hn)
        = (Spec.Coord.part n n').T * s1.P * (Spec.Coord.part n n').Tᵀ := by
      ext i j
      have := Spec.mul_part_transpose hn (Spec.part n n' * s1.P) i j
      rw [Spec.part_mul hn] at this
      exact this.symm
    rw [e]
    have h8 : (Spec.Coord.part n n').c = 1 := rfl
    rw [h8, one_smul] at h7
    exact h7

/-- C68, scale of the covariances: multiplying all covariances (`P`, `Q`, the noises of controls and measurements) by
the same `c > 0` changes no estimate; the reported covariance is multiplied by `c`. -/
theorem C68_covariance_scale [MDT ℝ] [ExactReal] (bld : Build) {c : ℝ} (hc : 0 < c) {w w' : World n ℝ}
    {s s' : Spec.State n ℝ} (hw : w.Reps s) (hw' : w'.Reps s')
    (hs : s.Changed ⟨c, 1, fun _ _ => 1, fun _ _ => 1⟩ s') {ops ops' : List (Op ℝ)}
    (hops : ∀ op ∈ ops, op.WellFormed w) (hops' : ∀ op ∈ ops', op.WellFormed w')
    (ho : List.Forall₂ (Spec.OpChanged (⟨c, 1, fun _ _ => 1, fun _ _ => 1⟩ : Spec.Coord n n) (s.ctl.map Sigma.fst)
      (s.obs.map Sigma.fst)) ops ops') (hr : s.RegularRun ops) :
    ∃ w1 w1' x P, w.run bld ops = .ok w1 ∧ w'.run bld ops' = .ok w1' ∧ w1.kf.x.RepsV x ∧ w1.kf.P.Reps P ∧
      w1'.kf.x.RepsV x ∧ w1'.kf.P.Reps (c • P) := by
  obtain ⟨w1, w1', s1, s1', h1, h2, h3, h4, h5, h6, h7⟩ :=
    C68_coordinates bld (g := ⟨c, 1, fun _ _ => 1, fun _ _ => 1⟩) hc (fun _ m => by simp) hw hw' hs hops hops' ho hr
  refine ⟨w1, w1', s1.x, s1.P, h1, h2, h3.kf.x, h3.kf.P, ?_, ?_⟩
  · simpa using h6
  · simpa using h7

/-! ## Examples -/

namespace Ex

/-- Position in centimetres instead of metres, velocity in decimetres per second, control input in half units, first
sensor in millimetres, second sensor with opposite sign; all covariances halved. -/
noncomputable def units : Spec.Coord 2 2 where
  c := 1 / 2
  T := !![100, 0; 0, 10]
  W := fun _ _ => Matrix.diagonal fun _ => 2
  M := fun i _ => Matrix.diagonal fun _ => if i = 0 then 1000 else -1

/-- `world` in these units. -/
noncomputable def worldUnits : World 2 ℝ where
  kf := ⟨⟨[100, 20]⟩, ⟨[1, 10, 0, 1]⟩, ⟨[5000, 0, 0, 50]⟩, ⟨[5000, 0, 0, 100]⟩, ⟨[0, 0]⟩, ⟨[0, 0, 0, 0]⟩⟩
  ctl := [⟨1, ⟨⟨[50, 10]⟩, ⟨[6]⟩, ⟨[2]⟩, ⟨[0, 0]⟩⟩⟩]
  obs := [⟨1, ⟨⟨[10, 0]⟩, ⟨[5000]⟩, ⟨[1500000]⟩, ⟨[0]⟩, ⟨[0]⟩, ⟨[0, 0]⟩, ⟨[0]⟩, ⟨[0, 0]⟩, ⟨[0, 0]⟩, ⟨[0, 0, 0, 0]⟩⟩⟩,
    ⟨1, ⟨⟨[0, -1 / 10]⟩, ⟨[-4]⟩, ⟨[4]⟩, ⟨[0]⟩, ⟨[0]⟩, ⟨[0, 0]⟩, ⟨[0]⟩, ⟨[0, 0]⟩, ⟨[0, 0]⟩, ⟨[0, 0, 0, 0]⟩⟩⟩]

/-- `state` in these units. -/
noncomputable def stateUnits : Spec.State 2 ℝ :=
  ⟨![100, 20], !![1, 10; 0, 1], !![5000, 0; 0, 50], !![5000, 0; 0, 100], [⟨1, !![50; 10], ![6], !![2]⟩],
    [⟨1, !![10, 0], ![5000], !![1500000]⟩, ⟨1, !![0, -1 / 10], ![-4], !![4]⟩]⟩

/-- `ops` in these units. -/
noncomputable def opsUnits : List (Op ℝ) :=
  [.predict, .control 0, .correct 0, .setZ 1 [-7], .correct 1, .setU 0 [-2], .control 0, .predictTuned 2,
    .setR 0 [2000000], .setX [0, 0], .setA [1, 20, 0, 1], .correct 0]

/-- Closes equations between small literal matrices and vectors. -/
local macro "lit" : tactic => `(tactic|
  (first
    | (ext i j; fin_cases i <;> fin_cases j <;>
        simp [Matrix.mul_apply, Matrix.vecMul, dotProduct, Fin.sum_univ_two, Matrix.diagonal, Spec.matOf, Spec.part, Spec.Coord.part] <;> norm_num)
    | (ext i; fin_cases i <;>
        simp [Matrix.mulVec, dotProduct, Fin.sum_univ_two, Matrix.diagonal, Spec.vecOf, Spec.part, Spec.Coord.part] <;>
        norm_num)))

theorem worldUnits_reps : worldUnits.Reps stateUnits := by
  refine ⟨by decide, ⟨?_, ?_, ?_, ?_, Nat.le_refl _, Nat.le_refl _⟩, .cons (.mk ⟨?_, ?_, ?_, Nat.le_refl _⟩) .nil,
    .cons (.mk (by decide) ⟨?_, ?_, ?_, Nat.le_refl _, Nat.le_refl _, Nat.le_refl _, Nat.le_refl _, Nat.le_refl _,
      Nat.le_refl _, Nat.le_refl _⟩)
    (.cons (.mk (by decide) ⟨?_, ?_, ?_, Nat.le_refl _, Nat.le_refl _, Nat.le_refl _, Nat.le_refl _, Nat.le_refl _,
      Nat.le_refl _, Nat.le_refl _⟩) .nil)⟩
  all_goals first | (intro i j; fin_cases i <;> fin_cases j <;> rfl) | (intro i; fin_cases i <;> rfl)

theorem stateUnits_changed : (state ℝ).Changed units stateUnits := by
  refine ⟨?_, ?_, ?_, ?_, rfl, rfl, ?_, ?_⟩
  · show ![100, 20] = !![100, 0; 0, 10] *ᵥ ![(1 : ℝ), 2]
    lit
  · show !![1, 10; 0, 1] * !![100, 0; 0, 10] = !![100, 0; 0, 10] * (!![1, 1; 0, 1] : Matrix (Fin 2) (Fin 2) ℝ)
    lit
  · show !![5000, 0; 0, 50] = (1 / 2 : ℝ) • (!![100, 0; 0, 10] * !![1, 0; 0, 1] *
      (!![100, 0; 0, 10] : Matrix (Fin 2) (Fin 2) ℝ)ᵀ)
    lit
  · show !![5000, 0; 0, 100] = (1 / 2 : ℝ) • (!![100, 0; 0, 10] * !![1, 0; 0, 2] *
      (!![100, 0; 0, 10] : Matrix (Fin 2) (Fin 2) ℝ)ᵀ)
    lit
  · rintro (_ | i) c d hc hd
    · cases hc
      cases hd
      refine .mk ?_ ?_ ?_
      · show !![50; 10] * Matrix.diagonal (fun _ => 2) = !![100, 0; 0, 10] * (!![1; 2] : Matrix (Fin 2) (Fin 1) ℝ)
        lit
      · show ![6] = Matrix.diagonal (fun _ => 2) *ᵥ ![(3 : ℝ)]
        lit
      · show !![2] = (1 / 2 : ℝ) • (Matrix.diagonal (fun _ => 2) * !![1] * (Matrix.diagonal fun _ => (2 : ℝ))ᵀ)
        lit
    · cases hc
  · rintro (_ | _ | i) c d hc hd
    · cases hc
      cases hd
      refine .mk ?_ ?_ ?_
      · show !![10, 0] * !![100, 0; 0, 10]
          = (Matrix.diagonal fun _ => if 0 = 0 then 1000 else -1) * (!![1, 0] : Matrix (Fin 1) (Fin 2) ℝ)
        lit
      · show ![5000] = (Matrix.diagonal fun _ => if 0 = 0 then 1000 else -1) *ᵥ ![(5 : ℝ)]
        lit
      · show !![1500000] = (1 / 2 : ℝ) • ((Matrix.diagonal fun _ => if 0 = 0 then 1000 else -1) * !![3]
          * (Matrix.diagonal fun _ => if 0 = 0 then (1000 : ℝ) else -1)ᵀ)
        lit
    · cases hc
      cases hd
      refine .mk ?_ ?_ ?_
      · show (!![0, -1 / 10] : Matrix (Fin 1) (Fin 2) ℝ) * (!![100, 0; 0, 10] : Matrix (Fin 2) (Fin 2) ℝ)
          = (Matrix.diagonal fun _ : Fin 1 => if 1 = 0 then (1000 : ℝ) else -1) * (!![0, 1] : Matrix (Fin 1) (Fin 2) ℝ)
        lit
      · show ![-4] = (Matrix.diagonal fun _ => if 1 = 0 then 1000 else -1) *ᵥ ![(4 : ℝ)]
        lit
      · show (!![4] : Matrix (Fin 1) (Fin 1) ℝ) = (1 / 2 : ℝ) • ((Matrix.diagonal fun _ => if 1 = 0 then 1000 else -1) * !![8]
          * (Matrix.diagonal fun _ => if 1 = 0 then (1000 : ℝ) else -1)ᵀ)
        lit
    · cases hc

theorem opsUnits_changed :
    List.Forall₂ (Spec.OpChanged units ((state ℝ).ctl.map Sigma.fst) ((state ℝ).obs.map Sigma.fst)) (ops ℝ)
      opsUnits := by
  refine .cons .predict (.cons (.control 0) (.cons (.correct 0) (.cons (.setZ _ _ _ ?_) (.cons (.correct 1)
    (.cons (.setU _ _ _ ?_) (.cons (.control 0) (.cons (.predictTuned 2) (.cons (.setR _ _ _ ?_)
    (.cons (.setX _ _ ?_) (.cons (.setA _ _ ?_) (.cons (.correct 0) .nil)))))))))))
  · rintro m ⟨⟩
    show (Spec.vecOf [-7] : Fin 1 → ℝ) = (Matrix.diagonal fun _ => if 1 = 0 then 1000 else -1) *ᵥ Spec.vecOf [7]
    lit
  · rintro m ⟨⟩
    show (Spec.vecOf [-2] : Fin 1 → ℝ) = (Matrix.diagonal fun _ => 2) *ᵥ Spec.vecOf [-1]
    lit
  · rintro m ⟨⟩
    show (Spec.matOf [2000000] : Matrix (Fin 1) (Fin 1) ℝ) = (1 / 2 : ℝ) • ((Matrix.diagonal fun _ =>
      if 0 = 0 then 1000 else -1) * Spec.matOf [4] * (Matrix.diagonal fun _ => if 0 = 0 then (1000 : ℝ) else -1)ᵀ)
    lit
  · show (Spec.vecOf [0, 0] : Fin 2 → ℝ) = !![100, 0; 0, 10] *ᵥ Spec.vecOf [0, 0, 13]
    lit
  · show (Spec.matOf [1, 20, 0, 1] : Matrix (Fin 2) (Fin 2) ℝ) * !![100, 0; 0, 10]
      = !![100, 0; 0, 10] * Spec.matOf [1, 2, 0, 1]
    lit

theorem opsUnits_wellFormed : ∀ op ∈ opsUnits, op.WellFormed worldUnits := by
  simp only [opsUnits, List.mem_cons, List.not_mem_nil, or_false, forall_eq_or_imp, forall_eq]
  exact ⟨trivial, Nat.zero_lt_one, Nat.zero_lt_two, rfl, Nat.one_lt_two, rfl, Nat.zero_lt_one, trivial, rfl, rfl, rfl,
    Nat.zero_lt_two⟩

/-- A filter with two states, the first of which drives the second and is measured; its first state alone. -/
def stateBig : Spec.State 2 ℝ :=
  ⟨![1, 2], !![3, 0; 5, 7], !![2, 1; 1, 2], !![1, 1; 1, 1], [], [⟨1, !![2, 0], ![5], !![3]⟩]⟩

/-- The first state alone. -/
def statePart : Spec.State 1 ℝ := ⟨![1], !![3], !![2], !![1], [], [⟨1, !![2], ![5], !![3]⟩]⟩

theorem statePart_changed : stateBig.Changed (Spec.Coord.part 2 1) statePart := by
  refine ⟨?_, ?_, ?_, ?_, rfl, rfl, ?_, ?_⟩
  · show ![1] = Spec.part 2 1 *ᵥ ![(1 : ℝ), 2]
    lit
  · show !![3] * Spec.part 2 1 = Spec.part 2 1 * !![3, 0; 5, 7]
    lit
  · show !![2] = (1 : ℝ) • (Spec.part 2 1 * !![2, 1; 1, 2] * (Spec.part 2 1)ᵀ)
    lit
  · show !![1] = (1 : ℝ) • (Spec.part 2 1 * !![1, 1; 1, 1] * (Spec.part 2 1)ᵀ)
    lit
  · intro i c d hc
    exact absurd (List.mem_of_getElem? hc) List.not_mem_nil
  · rintro (_ | i) c d hc hd
    · cases hc
      cases hd
      refine .mk ?_ ?_ ?_
      · show !![2] * Spec.part 2 1 = (1 : Matrix (Fin 1) (Fin 1) ℝ) * !![2, 0]
        lit
      · show ![5] = (1 : Matrix (Fin 1) (Fin 1) ℝ) *ᵥ ![(5 : ℝ)]
        rw [Matrix.one_mulVec]
      · show !![3] = (1 : ℝ) • ((1 : Matrix (Fin 1) (Fin 1) ℝ) * !![3] * (1 : Matrix (Fin 1) (Fin 1) ℝ)ᵀ)
        lit
    · cases hc

/-- A program that holds `stateBig`. -/
def worldBig : World 2 ℝ where
  kf := ⟨⟨[1, 2]⟩, ⟨[3, 0, 5, 7]⟩, ⟨[2, 1, 1, 2]⟩, ⟨[1, 1, 1, 1]⟩, ⟨[0, 0]⟩, ⟨[0, 0, 0, 0]⟩⟩
  ctl := []
  obs := [⟨1, ⟨⟨[2, 0]⟩, ⟨[5]⟩, ⟨[3]⟩, ⟨[0]⟩, ⟨[0]⟩, ⟨[0, 0]⟩, ⟨[0]⟩, ⟨[0, 0]⟩, ⟨[0, 0]⟩, ⟨[0, 0, 0, 0]⟩⟩⟩]

/-- A program that holds `statePart`. -/
def worldPart : World 1 ℝ where
  kf := ⟨⟨[1]⟩, ⟨[3]⟩, ⟨[2]⟩, ⟨[1]⟩, ⟨[0]⟩, ⟨[0]⟩⟩
  ctl := []
  obs := [⟨1, ⟨⟨[2]⟩, ⟨[5]⟩, ⟨[3]⟩, ⟨[0]⟩, ⟨[0]⟩, ⟨[0]⟩, ⟨[0]⟩, ⟨[0]⟩, ⟨[0]⟩, ⟨[0]⟩⟩⟩]

theorem worldBig_reps : worldBig.Reps stateBig := by
  refine ⟨by decide, ⟨?_, ?_, ?_, ?_, Nat.le_refl _, Nat.le_refl _⟩, .nil,
    .cons (.mk (by decide) ⟨?_, ?_, ?_, Nat.le_refl _, Nat.le_refl _, Nat.le_refl _, Nat.le_refl _, Nat.le_refl _,
      Nat.le_refl _, Nat.le_refl _⟩) .nil⟩
  all_goals first | (intro i j; fin_cases i <;> fin_cases j <;> rfl) | (intro i; fin_cases i <;> rfl)

theorem worldPart_reps : worldPart.Reps statePart := by
  refine ⟨by decide, ⟨?_, ?_, ?_, ?_, Nat.le_refl _, Nat.le_refl _⟩, .nil,
    .cons (.mk (by decide) ⟨?_, ?_, ?_, Nat.le_refl _, Nat.le_refl _, Nat.le_refl _, Nat.le_refl _, Nat.le_refl _,
      Nat.le_refl _, Nat.le_refl _⟩) .nil⟩
  all_goals first | (intro i j; fin_cases i; fin_cases j; rfl) | (intro i; fin_cases i; rfl)

theorem stateBig_regular : stateBig.RegularRun [.predict, .correct 0] := by
  refine ⟨trivial, ?_⟩
  rintro s' ⟨⟩
  refine ⟨?_, fun _ _ => trivial⟩
  rintro o ⟨⟩
  have key : (!![2, 0] : Matrix (Fin 1) (Fin 2) ℝ) *
      Spec.predP (!![3, 0; 5, 7] : Matrix (Fin 2) (Fin 2) ℝ) !![2, 1; 1, 2] !![1, 1; 1, 1] *
      (!![2, 0] : Matrix (Fin 1) (Fin 2) ℝ)ᵀ + !![3] = Matrix.diagonal fun _ => 79 := by
    ext i j
    fin_cases i; fin_cases j
    simp only [Spec.predP, Matrix.mul_apply, Matrix.add_apply, Matrix.transpose_apply, Fin.sum_univ_two]
    simp
    norm_num
  have hpd : (Matrix.diagonal fun _ => 79 : Matrix (Fin 1) (Fin 1) ℝ).PosDef :=
    Matrix.PosDef.diagonal fun _ => by norm_num
  rw [← key] at hpd
  exact hpd

end Ex

/-- The hypotheses of `C68_coordinates` are met by the example program run in other units. -/
example : 0 < Ex.units.c ∧ (∀ i m, IsUnit (Ex.units.M i m).det) ∧ (Ex.world ℝ).Reps (Ex.state ℝ) ∧ Ex.worldUnits.Reps Ex.stateUnits ∧
    (Ex.state ℝ).Changed Ex.units Ex.stateUnits ∧ (∀ op ∈ Ex.ops ℝ, op.WellFormed (Ex.world ℝ)) ∧
    (∀ op ∈ Ex.opsUnits, op.WellFormed Ex.worldUnits) ∧
    List.Forall₂ (Spec.OpChanged Ex.units ((Ex.state ℝ).ctl.map Sigma.fst) ((Ex.state ℝ).obs.map Sigma.fst)) (Ex.ops ℝ)
      Ex.opsUnits ∧ (Ex.state ℝ).RegularRun (Ex.ops ℝ) := by
  refine ⟨by norm_num [Ex.units], ?_, Ex.world_reps ℝ, Ex.worldUnits_reps, Ex.stateUnits_changed, Ex.ops_wellFormed ℝ, Ex.opsUnits_wellFormed,
    Ex.opsUnits_changed,
    psd_regularRun Ex.state_psd (fun op h => (Ex.ops_psdData op h).2) (fun op h => (Ex.ops_psdData op h).1)⟩
  intro i m
  show IsUnit (Matrix.diagonal fun _ : Fin m => if i = 0 then (1000 : ℝ) else -1).det
  rw [Matrix.det_diagonal, isUnit_iff_ne_zero]
  exact Finset.prod_ne_zero_iff.2 fun _ _ => by split <;> norm_num

/-- The hypotheses of `C68_part` are met by a two state filter and its first state: predict, then correct. -/
example : Ex.worldBig.Reps Ex.stateBig ∧ Ex.worldPart.Reps Ex.statePart ∧
    Ex.stateBig.Changed (Spec.Coord.part 2 1) Ex.statePart ∧
    (∀ op ∈ [Op.predict, .correct 0], op.WellFormed Ex.worldBig) ∧
    (∀ op ∈ [Op.predict, .correct 0], op.WellFormed Ex.worldPart) ∧
    List.Forall₂ (Spec.OpChanged (Spec.Coord.part 2 1) (Ex.stateBig.ctl.map Sigma.fst)
      (Ex.stateBig.obs.map Sigma.fst)) [.predict, .correct 0] [.predict, .correct 0] ∧
    Ex.stateBig.RegularRun [.predict, .correct 0] := by
  refine ⟨Ex.worldBig_reps, Ex.worldPart_reps, Ex.statePart_changed, ?_, ?_, .cons .predict (.cons (.correct 0) .nil),
    Ex.stateBig_regular⟩
  all_goals
    simp only [List.mem_cons, List.not_mem_nil, or_false, forall_eq_or_imp, forall_eq]
    exact ⟨trivial, Nat.zero_lt_one⟩

end Minikalman
