import Verif.Model.Checked

/-! # With operators that never panic, the model with panicking operators is the other one -/

set_option linter.unusedSectionVars false

namespace Minikalman
namespace Chk

variable {T σ : Type} [Zero T] [One T] [Add T] [Sub T] [Mul T] [Neg T] [MDT T] {s : T} {R C U N n l m : Nat}

theorem sumMap_total (hs : ∀ l : List T, MDT.isum l = l.foldl (· + ·) s) (lo hi : Nat) (f : Nat → Res T) :
    sumMap (.total T s) lo hi f = (do let l ← Mat.collect lo hi f; pure (MDT.isum l)) := by
  have key : ∀ (N lo : Nat) (l : List T), forCount N lo (fun k acc => do
      let v ← f k
      (Ops.total T s).add acc v) (l.foldl (· + ·) s) = (do
        let l ← forCount N lo (fun k l => do
          let v ← f k
          pure (l ++ [v])) l
        pure (l.foldl (· + ·) s)) := by
    intro N
    induction N with
    | zero => intro lo l; rfl
    | succ N ih =>
      intro lo l
      unfold forCount
      cases hf : f lo with
      | error e => simp only [hf]; rfl
      | ok v =>
        have := ih (lo + 1) (l ++ [v])
        rw [List.foldl_append] at this
        simp only [hf]
        exact this
  unfold sumMap Mat.collect forUp
  simp only [hs]
  exact key (hi - lo) lo []

theorem invert_total' (hs : ∀ l : List T, MDT.isum l = l.foldl (· + ·) s) (a b : Mat N N T) :
    invertLCholesky (.total T s) a b = a.invertLCholesky b := by
  unfold invertLCholesky Mat.invertLCholesky
  simp only [sumMap_total hs, bind_assoc, pure_bind]
  rfl

theorem chol_total' (bld : Build) (a : Mat R C T) : choleskyDecomposeLower (.total T s) bld a = a.choleskyDecomposeLower bld := rfl

theorem update_total (hs : ∀ l : List T, MDT.isum l = l.foldl (· + ·) s) (bld : Build) (b : RegularObservation n m T) (x : Mat n 1 T)
    (P : Mat n n T) : updateWithInnovation (.total T s) bld b x P = b.updateWithInnovation bld x P := by
  unfold updateWithInnovation RegularObservation.updateWithInnovation
  simp only [invert_total' hs]
  rfl

theorem xupdate_total (hs : ∀ l : List T, MDT.isum l = l.foldl (· + ·) s) (bld : Build) (b : ExtendedObservation n m T) (x : Mat n 1 T)
    (P : Mat n n T) : xupdateWithInnovation (.total T s) bld b x P = b.updateWithInnovation bld x P := by
  unfold xupdateWithInnovation ExtendedObservation.updateWithInnovation
  simp only [invert_total' hs]
  rfl

theorem correct_total (hs : ∀ l : List T, MDT.isum l = l.foldl (· + ·) s) (bld : Build) (f : RegularKalman n T)
    (b : RegularObservation n m T) : correct (.total T s) bld f b = f.correct bld b := by
  unfold correct RegularKalman.correct RegularObservation.correct
  simp only [update_total hs, bind_assoc]
  rfl

theorem correctNonlinear_total (hs : ∀ l : List T, MDT.isum l = l.foldl (· + ·) s) (bld : Build) (f : ExtendedKalman n T)
    (b : ExtendedObservation n m T) (g : σ → Mat n 1 T → Mat m 1 T → Res (σ × Mat m 1 T)) (st : σ) :
    correctNonlinear (.total T s) bld f b g st = f.correctNonlinear bld b g st := by
  unfold correctNonlinear ExtendedKalman.correctNonlinear ExtendedObservation.correctNonlinear
  simp only [xupdate_total hs, bind_assoc, pure_bind]
  rfl

theorem predictNonlinear_total (f : ExtendedKalman n T) (g : σ → Mat n 1 T → Mat n 1 T → Res (σ × Mat n 1 T)) (st : σ) :
    predictNonlinear (.total T s) f g st = f.predictNonlinear g st := by
  unfold predictNonlinear ExtendedKalman.predictNonlinear predictXNonlinear ExtendedKalman.predictXNonlinear ExtendedKalman.predictP
  simp only [bind_assoc, pure_bind]
  rfl

theorem predictTunedNonlinear_total (f : ExtendedKalman n T) (lambda : T) (g : σ → Mat n 1 T → Mat n 1 T → Res (σ × Mat n 1 T)) (st : σ) :
    predictTunedNonlinear (.total T s) f lambda g st = f.predictTunedNonlinear lambda g st := by
  unfold predictTunedNonlinear ExtendedKalman.predictTunedNonlinear predictXNonlinear ExtendedKalman.predictXNonlinear
    ExtendedKalman.predictPTuned
  simp only [bind_assoc, pure_bind]
  rfl

theorem step_total (hs : ∀ l : List T, MDT.isum l = l.foldl (· + ·) s) (bld : Build) (w : World n T) (op : Op T) :
    step (.total T s) bld w op = w.step bld op := by
  cases op with
  | correct i => unfold step World.step; simp only [correct_total hs]; rfl
  | _ => rfl

theorem run_total (hs : ∀ l : List T, MDT.isum l = l.foldl (· + ·) s) (bld : Build) (w : World n T) (ops : List (Op T)) :
    run (.total T s) bld w ops = w.run bld ops := by
  induction ops generalizing w with
  | nil => rfl
  | cons op ops ih => unfold run World.run; simp only [step_total hs, ih]

theorem xstep_total (hs : ∀ l : List T, MDT.isum l = l.foldl (· + ·) s) (bld : Build) (w : XWorld n T σ) (op : XOp n T σ) :
    xstep (.total T s) bld w op = w.step bld op := by
  cases op with
  | correct i h => unfold xstep XWorld.step; simp only [correctNonlinear_total hs]; rfl
  | predict g => unfold xstep XWorld.step; simp only [predictNonlinear_total]
  | predictTuned a g => unfold xstep XWorld.step; simp only [predictTunedNonlinear_total]
  | assign a => rfl

theorem xrun_total (hs : ∀ l : List T, MDT.isum l = l.foldl (· + ·) s) (bld : Build) (w : XWorld n T σ) (ops : List (XOp n T σ)) :
    xrun (.total T s) bld w ops = w.run bld ops := by
  induction ops generalizing w with
  | nil => rfl
  | cons op ops ih => unfold xrun XWorld.run; simp only [xstep_total hs, ih]

end Chk
end Minikalman
