import Verif.Proofs.CertificateFloat

/-! # Runs of certified programs: helper lemmas -/

set_option linter.unusedSectionVars false

namespace Minikalman

variable {T : Type} {n : Nat}

namespace Cert

/-- Bounds of the final state. -/
def between (n : Nat) (t : Tol) (x0 : List ℚ) (ls : List Lin) (lo hi : List ℚ) : Bool := allTo n fun i =>
  let b := bound n t x0 (unit n i) ls
  decide (cell lo i ≤ b.1 - (b.2.1 + b.2.2)) && decide (b.1 + (b.2.1 + b.2.2) ≤ cell hi i)

/-- Record the nominal program, check that no operation exceeds the tolerated magnitude, and that the final state is between
`lo` and `hi`. -/
def check [Zero T] [One T] [Add T] [Sub T] [Mul T] [Neg T] [MDT T] (rat : T → Option ℚ) (t : Tol) (bld : Build) (w : World n T)
    (ops : List (Op T)) (lo hi : List ℚ) : Bool :=
  match w.record bld ops with
  | .error _ => false
  | .ok gains =>
    match rats rat w.kf.x.data, (w.ctl.map fun c => c.2.u.data).mapM (rats rat), (w.obs.map fun o => o.2.z.data).mapM (rats rat) with
    | some x0, some us, some zs =>
      match compile rat us zs (gains.zip ops) with
      | some ls => certify n t x0 [] ls && between n t x0 ls.reverse lo hi
      | none => false
    | _, _, _ => false

end Cert

theorem World.CovEq.refl (w : World n T) : w.CovEq w :=
  ⟨.refl _, .refl _, .refl _, List.forall₂_same.2 fun _ _ => .mk (.refl _) (.refl _),
    List.forall₂_same.2 fun _ _ => .mk (.refl _) (.refl _)⟩

namespace Near

open Cert

section
variable [Zero T] [Add T] [Sub T] [Mul T] (N : Near T)

theorem rats_close {r : ℚ} (hr : 0 ≤ r) {v : List T} {c : List ℚ} (h : rats N.rat v = some c) : N.Close r v c := fun i => by
  obtain ⟨h1, h2⟩ := N.rats_cell h i
  refine ⟨h1, ?_⟩
  rw [h2, sub_self, abs_zero]
  exact_mod_cast hr

theorem rats_allClose {r : ℚ} (hr : 0 ≤ r) {vs : List (List T)} {cs : List (List ℚ)} (h : vs.mapM (rats N.rat) = some cs) :
    N.AllClose r vs cs := by
  induction vs generalizing cs with
  | nil => cases h; exact .nil
  | cons v vs ih =>
    rw [List.mapM_cons] at h
    cases hv : rats N.rat v with
    | none => rw [hv] at h; cases h
    | some c =>
      cases hvs : vs.mapM (rats N.rat) with
      | none => rw [hv, hvs] at h; cases h
      | some cs' =>
        rw [hv, hvs] at h
        cases h
        exact .cons (N.rats_close hr hv) (ih hvs)

theorem within_start {r s : ℚ} {x : List T} {x0 : List ℚ} (h : rats N.rat x = some x0) :
    N.Within r s x0 [] (Spec.vecOf x : Fin n → T) := by
  refine ⟨fun i => (N.rats_cell h i).1, fun l => ?_⟩
  simp only [bound, Rat.cast_zero, add_zero]
  have : N.at' l (Spec.vecOf x : Fin n → T) = (dot n l x0 : ℚ) := by
    unfold at' dot
    rw [sumTo_eq]
    push_cast
    exact Finset.sum_congr rfl fun i _ => by rw [show N.val (Spec.vecOf x i) = cell x0 i from (N.rats_cell h i).2]
  rw [this]
  simp

theorem within_between {r s : ℚ} {x0 : List ℚ} {h : List Lin} {x : Fin n → T} (hw : N.Within r s x0 h x) {lo hi : List ℚ}
    (hb : between n (N.tol r s) x0 h lo hi = true) (i : Fin n) :
    N.ok (x i) ∧ (cell lo i : ℝ) ≤ N.val (x i) ∧ N.val (x i) ≤ cell hi i := by
  have h1 := hw.2 (unit n i)
  have h2 : N.at' (unit n i) x = N.val (x i) := by
    unfold at'
    rw [Finset.sum_eq_single i]
    · rw [unit, cell_tab i.2]; simp
    · intro j _ hj
      rw [unit, cell_tab j.2, if_neg (fun h => hj (Fin.ext h))]; simp
    · simp
  rw [h2] at h1
  simp only [between, allTo_iff, Bool.and_eq_true, decide_eq_true_eq] at hb
  obtain ⟨b1, b2⟩ := hb i
  have b1' := (Rat.cast_le (K := ℝ)).2 b1
  have b2' := (Rat.cast_le (K := ℝ)).2 b2
  push_cast at b1' b2'
  rw [abs_le] at h1
  exact ⟨hw.1 i, by linarith [h1.1], by linarith [h1.2]⟩

theorem OpClose.sameUpToData {r s : ℚ} {op op' : Op T} (h : N.OpClose r s op op') : op.SameUpToData op' := by
  cases h with
  | same => exact .same _
  | setZ i v v' => exact .setZ i v v'
  | setU i v v' => exact .setU i v v'

end

variable [Zero T] [One T] [Add T] [Sub T] [Mul T] [Neg T] [MDT T] (N : Near T)

theorem check_run {r s : ℚ} (hr : 0 ≤ r) (hs : 0 ≤ s) (bld : Build) {w : World n T} (hw : w.Valid) {ops ops' : List (Op T)}
    (hc : List.Forall₂ (N.OpClose r s) ops ops') (hops : ∀ op ∈ ops, op.WellFormed w) (hops' : ∀ op ∈ ops', op.WellFormed w)
    {lo hi : List ℚ} (h : check N.rat (N.tol r s) bld w ops lo hi = true) :
    ∃ v x, w.run bld ops' = .ok v ∧ v.kf.x.RepsV x ∧ ∀ i : Fin n, N.ok (x i) ∧ (cell lo i : ℝ) ≤ N.val (x i) ∧
      N.val (x i) ≤ cell hi i := by
  unfold check at h
  cases hg : w.record bld ops with
  | error e => rw [hg] at h; cases h
  | ok gains =>
    cases h1 : rats N.rat w.kf.x.data with
    | none => simp only [hg, h1] at h; cases h
    | some x0 =>
      cases h2 : (w.ctl.map fun c => c.2.u.data).mapM (rats N.rat) with
      | none => simp only [hg, h1, h2] at h; cases h
      | some us =>
        cases h3 : (w.obs.map fun o => o.2.z.data).mapM (rats N.rat) with
        | none => simp only [hg, h1, h2, h3] at h; cases h
        | some zs =>
          cases h4 : compile N.rat us zs (gains.zip ops) with
          | none => simp only [hg, h1, h2, h3, h4] at h; cases h
          | some ls =>
            simp only [hg, h1, h2, h3, h4, Bool.and_eq_true] at h
            obtain ⟨v, r1, r2⟩ := run_replay bld hw hw (.refl w) (hc.imp fun _ _ h => h.sameUpToData) hops hops' hg hw.estimated
            have key := N.replay_within hr hs hc (e := w.estimator) (N.within_start h1) (N.rats_allClose hs h2) (N.rats_allClose hr h3) h4 h.1
            rw [List.append_nil] at key
            exact ⟨v, _, r1, r2.x, N.within_between key h.2⟩

end Near
end Minikalman
