import Verif.Proofs.HistoryRel
import Verif.Spec.Forever

/-!
# The same program with all states and measurements replaced by zero

Covariances do not depend on states and measurements (C48), so they are those of this program.
-/

set_option linter.unusedSectionVars false

namespace Minikalman

variable {T : Type} {n m : Nat}

/-- All cells replaced by 0. -/
def Mat.quiet {R C : Nat} [Zero T] (a : Mat R C T) : Mat R C T := ⟨a.data.map fun _ => 0⟩

/-- States and measurements replaced by 0. -/
def World.quiet [Zero T] (w : World n T) : World n T :=
  { w with kf := { w.kf with x := w.kf.x.quiet }, obs := w.obs.map fun s => ⟨s.1, { s.2 with z := s.2.z.quiet }⟩ }

/-- States and measurements replaced by 0. -/
def Op.quiet [Zero T] : Op T → Op T
  | .setX v => .setX (v.map fun _ => 0)
  | .setZ i v => .setZ i (v.map fun _ => 0)
  | op => op

theorem quiet_mat_valid [Zero T] {R C : Nat} {a : Mat R C T} (h : a.Valid) : a.quiet.Valid := by
  show _ ≤ (a.data.map _).length
  rw [List.length_map]
  exact h

theorem quiet_repsV [Zero T] {a : Mat n 1 T} (h : a.Valid) : a.quiet.RepsV fun _ => 0 := by
  intro i
  show (a.data.map _)[_]? = _
  have h1 : n * 1 ≤ a.data.length := h
  rw [List.getElem?_map, List.getElem?_eq_getElem (by omega)]
  rfl

theorem quiet_valid [Zero T] {w : World n T} (h : w.Valid) : w.quiet.Valid := by
  refine ⟨h.states, ⟨quiet_mat_valid h.kf.x, h.kf.A, h.kf.P, h.kf.Q, h.kf.predictedX, h.kf.tempP⟩, h.ctl, ?_⟩
  intro o ho
  obtain ⟨o, hm, rfl⟩ := List.mem_map.1 ho
  obtain ⟨h0, this⟩ := h.obs o hm
  exact ⟨h0, this.H, quiet_mat_valid this.z, this.R, this.y, this.S, this.K, this.tempSInv, this.tempHP, this.tempPHt, this.tempKHP⟩

theorem quiet_covEq [Zero T] (w : World n T) : w.CovEq w.quiet := by
  refine ⟨.refl _, .refl _, .refl _, ?_, ?_⟩
  · show List.Forall₂ _ w.ctl w.ctl
    generalize w.ctl = l
    induction l with
    | nil => exact .nil
    | cons s l ih => exact .cons (.mk (.refl _) (.refl _)) ih
  show List.Forall₂ _ w.obs (w.obs.map _)
  generalize w.obs = l
  induction l with
  | nil => exact .nil
  | cons s l ih => exact .cons (.mk (.refl _) (.refl _)) ih

theorem quiet_same [Zero T] (ops : List (Op T)) : List.Forall₂ Op.SameUpToData ops (ops.map Op.quiet) := by
  induction ops with
  | nil => exact .nil
  | cons op ops ih =>
    refine .cons ?_ ih
    cases op with
    | setX v => exact .setX _ _
    | setZ i v => exact .setZ _ _ _
    | _ => exact .same _

theorem quiet_wellFormed [Zero T] {w : World n T} {op : Op T} (h : op.WellFormed w) : op.quiet.WellFormed w.quiet := by
  cases op <;> first | trivial | skip
  all_goals
    simpa [Op.quiet, Op.WellFormed, World.quiet, Mat.quiet, Function.comp_def] using h

theorem quiet_paced [Zero T] {N c : Nat} {ops : List (Op T)} (h : Spec.Paced N c ops) : Spec.Paced N c (ops.map Op.quiet) := by
  induction ops generalizing c with
  | nil => exact trivial
  | cons op ops ih =>
    cases op with
    | predict => exact ⟨h.1, ih h.2⟩
    | _ => exact ih h

end Minikalman
