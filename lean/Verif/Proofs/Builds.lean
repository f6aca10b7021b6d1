import Verif.Proofs.Builder

/-! # Build configurations: helper lemmas -/

set_option linter.unusedSectionVars false

namespace Minikalman

variable {T σ : Type} {n m : Nat}

/-- The same result, if there is one. -/
def SameOk {α : Type} (a b : Res α) : Prop := ∀ v, a = .ok v ↔ b = .ok v

namespace SameOk
variable {α β : Type}

theorem refl (a : Res α) : SameOk a a := fun _ => Iff.rfl

theorem bind {a b : Res α} {f g : α → Res β} (h : SameOk a b) (hfg : ∀ v, SameOk (f v) (g v)) : SameOk (a >>= f) (b >>= g) := by
  intro v
  cases a with
  | error e =>
    cases b with
    | error e' => constructor <;> exact fun h => nomatch h
    | ok w => exact nomatch ((h w).2 rfl)
  | ok w =>
    have : b = .ok w := (h w).1 rfl
    subst this
    exact hfg w v

theorem of_errors {a b : Res α} (ha : ∀ v, a ≠ .ok v) (hb : ∀ v, b ≠ .ok v) : SameOk a b :=
  fun v => ⟨fun h => absurd h (ha v), fun h => absurd h (hb v)⟩

end SameOk

theorem debugAssert_true (bld : Build) : debugAssert bld true = .ok () := by
  rcases bld with ⟨_ | _, _ | _⟩ <;> rfl

section Arith
variable [Zero T] [One T] [Add T] [Sub T] [Mul T] [Neg T] [MDT T]

theorem cholesky_build (bld bld' : Build) (a : Mat m m T) (hm : 0 < m) :
    a.choleskyDecomposeLower bld = a.choleskyDecomposeLower bld' := by
  unfold Mat.choleskyDecomposeLower
  have h1 : (m == m) = true := by simp
  have h2 : decide (0 < m) = true := by simpa using hm
  simp only [h1, h2, debugAssert_true]

/-- There is no inverse of an empty matrix. -/
theorem invert_empty (a b : Mat 0 0 T) (v) : a.invertLCholesky b ≠ .ok v := fun h => nomatch h

theorem bind_not_ok {α β : Type} {a : Res α} {f : α → Res β} (h : ∀ w v, f w ≠ .ok v) (v) : (a >>= f) ≠ .ok v := by
  cases a with
  | error e => exact fun h => nomatch h
  | ok w => exact h w v

theorem bind_not_ok' {α β : Type} {a : Res α} {f : α → Res β} (h : ∀ v, a ≠ .ok v) (v) : (a >>= f) ≠ .ok v := by
  cases a with
  | error e => exact fun h => nomatch h
  | ok w => exact absurd rfl (h w)

theorem update_empty (bld : Build) (o : RegularObservation n 0 T) (x P v) : o.updateWithInnovation bld x P ≠ .ok v := by
  unfold RegularObservation.updateWithInnovation
  exact bind_not_ok (fun _ => bind_not_ok fun _ => bind_not_ok fun _ => bind_not_ok fun _ => bind_not_ok' (invert_empty _ _)) v

theorem xupdate_empty (bld : Build) (o : ExtendedObservation n 0 T) (x P v) : o.updateWithInnovation bld x P ≠ .ok v := by
  unfold ExtendedObservation.updateWithInnovation
  exact bind_not_ok (fun _ => bind_not_ok fun _ => bind_not_ok fun _ => bind_not_ok fun _ => bind_not_ok' (invert_empty _ _)) v

theorem correct_build_eq (bld bld' : Build) (o : RegularObservation n m T) (x P) (hm : 0 < m) :
    o.correct bld x P = o.correct bld' x P := by
  unfold RegularObservation.correct RegularObservation.updateWithInnovation
  simp only [cholesky_build (T := T) bld bld' _ hm]

theorem correct_build (bld bld' : Build) (o : RegularObservation n m T) (x P) :
    SameOk (o.correct bld x P) (o.correct bld' x P) := by
  cases m with
  | zero =>
    unfold RegularObservation.correct
    refine .bind (.refl _) fun _ => .bind (.refl _) fun _ => ?_
    exact .of_errors (update_empty bld _ _ _) (update_empty bld' _ _ _)
  | succ m => rw [correct_build_eq bld bld' o x P (Nat.succ_pos m)]; exact .refl _

theorem xcorrect_build_eq (bld bld' : Build) (o : ExtendedObservation n m T) (x P)
    (h : σ → Mat n 1 T → Mat m 1 T → Res (σ × Mat m 1 T)) (st : σ) (hm : 0 < m) :
    o.correctNonlinear bld x P h st = o.correctNonlinear bld' x P h st := by
  unfold ExtendedObservation.correctNonlinear ExtendedObservation.updateWithInnovation
  simp only [cholesky_build (T := T) bld bld' _ hm]

theorem xcorrect_build (bld bld' : Build) (o : ExtendedObservation n m T) (x P)
    (h : σ → Mat n 1 T → Mat m 1 T → Res (σ × Mat m 1 T)) (st : σ) :
    SameOk (o.correctNonlinear bld x P h st) (o.correctNonlinear bld' x P h st) := by
  cases m with
  | zero =>
    unfold ExtendedObservation.correctNonlinear
    refine .bind (.refl _) fun _ => .bind (.refl _) fun _ => .bind ?_ fun _ => .refl _
    exact .of_errors (xupdate_empty bld _ _ _) (xupdate_empty bld' _ _ _)
  | succ m => rw [xcorrect_build_eq bld bld' o x P h st (Nat.succ_pos m)]; exact .refl _

theorem step_build (bld bld' : Build) (w : World n T) (op : Op T) : SameOk (w.step bld op) (w.step bld' op) := by
  cases op with
  | correct i =>
    unfold World.step
    dsimp only
    cases w.obs[i]? with
    | none => exact .refl _
    | some o =>
      obtain ⟨m, o⟩ := o
      refine .bind ?_ fun _ => .refl _
      exact .bind (correct_build bld bld' o _ _) fun _ => .refl _
  | _ => exact .refl _

theorem run_build (bld bld' : Build) (w : World n T) (ops : List (Op T)) : SameOk (w.run bld ops) (w.run bld' ops) := by
  induction ops generalizing w with
  | nil => exact .refl _
  | cons op ops ih => exact .bind (step_build bld bld' w op) fun w' => ih w'

theorem xstep_build (bld bld' : Build) (w : XWorld n T σ) (op : XOp n T σ) : SameOk (w.step bld op) (w.step bld' op) := by
  cases op with
  | correct i h =>
    unfold XWorld.step
    dsimp only
    cases w.obs[i]? with
    | none => exact .refl _
    | some o =>
      obtain ⟨m, o⟩ := o
      refine .bind ?_ fun _ => .refl _
      exact .bind (xcorrect_build bld bld' o _ _ _ _) fun _ => .refl _
  | _ => exact .refl _

theorem xrun_build (bld bld' : Build) (w : XWorld n T σ) (ops : List (XOp n T σ)) : SameOk (w.run bld ops) (w.run bld' ops) := by
  induction ops generalizing w with
  | nil => exact .refl _
  | cons op ops ih => exact .bind (xstep_build bld bld' w op) fun w' => ih w'

theorem step_build_eq (bld bld' : Build) {w : World n T} (hw : ∀ o ∈ w.obs, 0 < o.1) (op : Op T) :
    w.step bld op = w.step bld' op := by
  cases op with
  | correct i =>
    unfold World.step
    dsimp only
    cases ho : w.obs[i]? with
    | none => rfl
    | some o =>
      have := hw o (List.mem_of_getElem? ho)
      obtain ⟨m, o⟩ := o
      simp only [RegularKalman.correct, correct_build_eq bld bld' o _ _ this]
  | _ => rfl

theorem step_sizes {bld : Build} {w w' : World n T} {op : Op T} (h : w.step bld op = .ok w') :
    w'.obs.map Sigma.fst = w.obs.map Sigma.fst := by
  have hset : ∀ {i : Nat} {m : Nat} {o o' : RegularObservation n m T}, w.obs[i]? = some ⟨m, o⟩ →
      (w.obs.set i ⟨m, o'⟩).map Sigma.fst = w.obs.map Sigma.fst := by
    intro i m o o' hi
    rw [List.map_set]
    refine List.ext_getElem? fun j => ?_
    by_cases hj : i = j
    · subst hj
      have hlt : i < w.obs.length := (List.getElem?_eq_some_iff.1 hi).1
      rw [List.getElem?_set_self (by simpa using hlt), List.getElem?_map, hi]; rfl
    · rw [List.getElem?_set_ne hj]
  have hwith : ∀ {i : Nat} {g : (m : Nat) → RegularObservation n m T → Res (RegularObservation n m T)},
      w.withObs i g = .ok w' → w'.obs.map Sigma.fst = w.obs.map Sigma.fst := by
    intro i g h
    unfold World.withObs at h
    cases hi : w.obs[i]? with
    | none => rw [hi] at h; cases h
    | some o =>
      obtain ⟨m, o⟩ := o
      rw [hi] at h
      obtain ⟨o', _, h⟩ := bind_ok h
      cases h
      exact hset hi
  have hwithc : ∀ {i : Nat} {g : (l : Nat) → Control n l T → Res (Control n l T)},
      w.withCtl i g = .ok w' → w'.obs.map Sigma.fst = w.obs.map Sigma.fst := by
    intro i g h
    unfold World.withCtl at h
    cases hi : w.ctl[i]? with
    | none => rw [hi] at h; cases h
    | some o =>
      obtain ⟨m, o⟩ := o
      rw [hi] at h
      obtain ⟨o', _, h⟩ := bind_ok h
      cases h
      rfl
  cases op with
  | correct i =>
    unfold World.step at h
    dsimp only at h
    cases hi : w.obs[i]? with
    | none => rw [hi] at h; cases h
    | some o =>
      obtain ⟨m, o⟩ := o
      rw [hi] at h
      obtain ⟨⟨f, o'⟩, _, h⟩ := bind_ok h
      cases h
      exact hset hi
  | control i =>
    unfold World.step at h
    dsimp only at h
    cases hi : w.ctl[i]? with
    | none => rw [hi] at h; cases h
    | some o =>
      obtain ⟨m, o⟩ := o
      rw [hi] at h
      obtain ⟨⟨f, o'⟩, _, h⟩ := bind_ok h
      cases h
      rfl
  | setZ i v | setH i v | setR i v => exact hwith h
  | setU i v | setB i v | setQc i v => exact hwithc h
  | predict | predictTuned _ | setX _ | setA _ | setP _ | setQ _ =>
    obtain ⟨_, _, h⟩ := bind_ok h
    cases h
    rfl

theorem sizes_pos {w w' : World n T} (h : w'.obs.map Sigma.fst = w.obs.map Sigma.fst) (hw : ∀ o ∈ w.obs, 0 < o.1) :
    ∀ o ∈ w'.obs, 0 < o.1 := by
  intro o ho
  have : o.1 ∈ w.obs.map Sigma.fst := h ▸ List.mem_map_of_mem ho
  obtain ⟨p, hp, e⟩ := List.mem_map.1 this
  exact e ▸ hw p hp

theorem run_build_eq (bld bld' : Build) {w : World n T} (hw : ∀ o ∈ w.obs, 0 < o.1) (ops : List (Op T)) :
    w.run bld ops = w.run bld' ops := by
  induction ops generalizing w with
  | nil => rfl
  | cons op ops ih =>
    unfold World.run
    rw [step_build_eq bld bld' hw op]
    cases h : w.step bld' op with
    | error e => rfl
    | ok w' => exact ih (sizes_pos (step_sizes h) hw)

theorem xstep_build_eq (bld bld' : Build) {w : XWorld n T σ} (hw : ∀ o ∈ w.obs, 0 < o.1) (op : XOp n T σ) :
    w.step bld op = w.step bld' op := by
  cases op with
  | correct i h =>
    unfold XWorld.step
    dsimp only
    cases ho : w.obs[i]? with
    | none => rfl
    | some o =>
      have := hw o (List.mem_of_getElem? ho)
      obtain ⟨m, o⟩ := o
      simp only [ExtendedKalman.correctNonlinear, xcorrect_build_eq bld bld' o _ _ _ _ this]
  | _ => rfl

theorem xstep_sizes {bld : Build} {w w' : XWorld n T σ} {op : XOp n T σ} (h : w.step bld op = .ok w') :
    w'.obs.map Sigma.fst = w.obs.map Sigma.fst := by
  have hset : ∀ {i : Nat} {m : Nat} {o o' : ExtendedObservation n m T}, w.obs[i]? = some ⟨m, o⟩ →
      (w.obs.set i ⟨m, o'⟩).map Sigma.fst = w.obs.map Sigma.fst := by
    intro i m o o' hi
    rw [List.map_set]
    refine List.ext_getElem? fun j => ?_
    by_cases hj : i = j
    · subst hj
      have hlt : i < w.obs.length := (List.getElem?_eq_some_iff.1 hi).1
      rw [List.getElem?_set_self (by simpa using hlt), List.getElem?_map, hi]; rfl
    · rw [List.getElem?_set_ne hj]
  have hwith : ∀ {i : Nat} {g : (m : Nat) → ExtendedObservation n m T → Res (ExtendedObservation n m T)},
      w.withObs i g = .ok w' → w'.obs.map Sigma.fst = w.obs.map Sigma.fst := by
    intro i g h
    unfold XWorld.withObs at h
    cases hi : w.obs[i]? with
    | none => rw [hi] at h; cases h
    | some o =>
      obtain ⟨m, o⟩ := o
      rw [hi] at h
      obtain ⟨o', _, h⟩ := bind_ok h
      cases h
      exact hset hi
  cases op with
  | correct i h' =>
    unfold XWorld.step at h
    dsimp only at h
    cases hi : w.obs[i]? with
    | none => rw [hi] at h; cases h
    | some o =>
      obtain ⟨m, o⟩ := o
      rw [hi] at h
      obtain ⟨⟨e, f, o'⟩, _, h⟩ := bind_ok h
      cases h
      exact hset hi
  | predict g | predictTuned _ g =>
    obtain ⟨⟨_, _⟩, _, h⟩ := bind_ok h
    cases h
    rfl
  | assign a =>
    cases a with
    | z i v | H i v | R i v => exact hwith h
    | _ =>
      obtain ⟨_, _, h⟩ := bind_ok h
      cases h
      rfl

theorem xrun_build_eq (bld bld' : Build) {w : XWorld n T σ} (hw : ∀ o ∈ w.obs, 0 < o.1) (ops : List (XOp n T σ)) :
    w.run bld ops = w.run bld' ops := by
  induction ops generalizing w with
  | nil => rfl
  | cons op ops ih =>
    unfold XWorld.run
    rw [xstep_build_eq bld bld' hw op]
    cases h : w.step bld' op with
    | error e => rfl
    | ok w' =>
      refine ih fun o ho => ?_
      have : o.1 ∈ w.obs.map Sigma.fst := (xstep_sizes h) ▸ List.mem_map_of_mem ho
      obtain ⟨p, hp, e⟩ := List.mem_map.1 this
      exact e ▸ hw p hp

end Arith

section Builders
variable [Inhabited T] {l : Nat}

theorem newBoxed_build {R C : Nat} (bld bld' : Build) (init : T) :
    (newBoxed bld (List.replicate (R * C) init) : Res (Mat R C T)) = newBoxed bld' (List.replicate (R * C) init) := by
  have h : (R * C == (List.replicate (R * C) init).length) = true := by simp
  unfold newBoxed assertUnlessNoAssert
  rw [h]
  simp

theorem kalman_build (bld bld' : Build) : (buildRegularKalman bld : Res (RegularKalman n T)) = buildRegularKalman bld' := by
  simp only [buildRegularKalman, buildStateTransition, buildEstimateCovariance, buildDirectProcessNoise, buildTempP,
    newBoxed_build bld bld']

theorem xkalman_build (bld bld' : Build) : (buildExtendedKalman bld : Res (ExtendedKalman n T)) = buildExtendedKalman bld' := by
  simp only [buildExtendedKalman, buildStateTransition, buildEstimateCovariance, buildDirectProcessNoise, buildTempP,
    newBoxed_build bld bld']

theorem control_build (bld bld' : Build) : (buildControl bld : Res (Control n l T)) = buildControl bld' := by
  simp only [buildControl, buildControlMatrix, buildControlProcessNoise, buildTempBQ, newBoxed_build bld bld']

theorem observation_build (bld bld' : Build) :
    (buildRegularObservation bld : Res (RegularObservation n m T)) = buildRegularObservation bld' := by
  simp only [buildRegularObservation, buildObservationMatrix, buildMeasurementNoise, buildInnovationCovariance, buildKalmanGain,
    buildTempSInv, buildTempHP, buildTempPHt, buildTempKHP, newBoxed_build bld bld']

theorem xobservation_build (bld bld' : Build) :
    (buildExtendedObservation bld : Res (ExtendedObservation n m T)) = buildExtendedObservation bld' := by
  simp only [buildExtendedObservation, buildObservationMatrix, buildMeasurementNoise, buildInnovationCovariance, buildKalmanGain,
    buildTempSInv, buildTempHP, buildTempPHt, buildTempKHP, newBoxed_build bld bld']

theorem buildWorld_build (bld bld' : Build) (ctls obs : List Nat) :
    (buildWorld bld ctls obs : Res (World n T)) = buildWorld bld' ctls obs := by
  unfold buildWorld
  simp only [kalman_build bld bld', control_build bld bld', observation_build bld bld']

theorem buildXWorld_build (bld bld' : Build) (obs : List Nat) (env : σ) :
    (buildXWorld bld obs env : Res (XWorld n T σ)) = buildXWorld bld' obs env := by
  unfold buildXWorld
  simp only [xkalman_build bld bld', xobservation_build bld bld']

end Builders

end Minikalman
