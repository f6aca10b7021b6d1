import Verif.Proofs.Parametric
import Verif.Model.Builder

/-! # Building programs over related element types; homomorphisms -/

set_option linter.unusedSectionVars false

namespace Minikalman
namespace Param

variable {T T' σ σ' α β γ : Type} {n l m R C : Nat} {r : T → T' → Prop} {e : σ → σ' → Prop}

theorem rel2_mapM {S : β → γ → Prop} {g : α → Res β} {h : α → Res γ} (hgh : ∀ a, Rel2 (g a) (h a) S) (s : List α) :
    Rel2 (s.mapM g) (s.mapM h) (List.Forall₂ S) := by
  induction s with
  | nil => exact Rel2.ok .nil
  | cons a s ih =>
    simp only [List.mapM_cons]
    exact Rel2.bind (hgh a) fun b c hbc => Rel2.bind ih fun t u htu => Rel2.pure (.cons hbc htu)

theorem replicate_rel {a : T} {b : T'} (h : r a b) (k : Nat) : List.Forall₂ r (List.replicate k a) (List.replicate k b) := by
  induction k with
  | zero => exact .nil
  | succ k ih => exact .cons h ih

theorem newBoxed_rel (bld : Build) {a : T} {b : T'} (h : r a b) (k : Nat) :
    Rel2 (newBoxed bld (List.replicate k a) : Res (Mat R C T)) (newBoxed bld (List.replicate k b)) (Mat.Related r) := by
  unfold newBoxed
  simp only [List.length_replicate]
  exact Rel2.bind (P := fun _ _ => True) (by cases assertUnlessNoAssert bld (R * C == k) with
    | error e => exact Rel2.error _
    | ok u => exact Rel2.ok trivial) fun _ _ _ => Rel2.pure (replicate_rel h k)

section Build
variable [Inhabited T] [Inhabited T']

theorem buildRegularKalman_rel (hd : r default default) (bld : Build) :
    Rel2 (buildRegularKalman bld : Res (RegularKalman n T)) (buildRegularKalman bld : Res (RegularKalman n T'))
      (RegularKalman.Related r) := by
  unfold buildRegularKalman
  refine Rel2.bind (newBoxed_rel bld hd _) fun _ _ hA => Rel2.bind (newBoxed_rel bld hd _) fun _ _ hP => ?_
  refine Rel2.bind (newBoxed_rel bld hd _) fun _ _ hQ => Rel2.bind (newBoxed_rel bld hd _) fun _ _ ht => ?_
  exact Rel2.pure ⟨replicate_rel hd _, hA, hP, hQ, replicate_rel hd _, ht⟩

theorem buildExtendedKalman_rel (hd : r default default) (bld : Build) :
    Rel2 (buildExtendedKalman bld : Res (ExtendedKalman n T)) (buildExtendedKalman bld : Res (ExtendedKalman n T'))
      (ExtendedKalman.Related r) := by
  unfold buildExtendedKalman
  refine Rel2.bind (newBoxed_rel bld hd _) fun _ _ hA => Rel2.bind (newBoxed_rel bld hd _) fun _ _ hP => ?_
  refine Rel2.bind (newBoxed_rel bld hd _) fun _ _ hQ => Rel2.bind (newBoxed_rel bld hd _) fun _ _ ht => ?_
  exact Rel2.pure ⟨replicate_rel hd _, hA, hP, hQ, replicate_rel hd _, ht⟩

theorem buildControl_rel (hd : r default default) (bld : Build) :
    Rel2 (buildControl bld : Res (Control n l T)) (buildControl bld : Res (Control n l T')) (Control.Related r) := by
  unfold buildControl
  refine Rel2.bind (newBoxed_rel bld hd _) fun _ _ hB => Rel2.bind (newBoxed_rel bld hd _) fun _ _ hQ => ?_
  exact Rel2.bind (newBoxed_rel bld hd _) fun _ _ ht => Rel2.pure ⟨hB, replicate_rel hd _, hQ, ht⟩

theorem buildRegularObservation_rel (hd : r default default) (bld : Build) :
    Rel2 (buildRegularObservation bld : Res (RegularObservation n m T))
      (buildRegularObservation bld : Res (RegularObservation n m T')) (RegularObservation.Related r) := by
  unfold buildRegularObservation
  refine Rel2.bind (newBoxed_rel bld hd _) fun _ _ h1 => Rel2.bind (newBoxed_rel bld hd _) fun _ _ h2 => ?_
  refine Rel2.bind (newBoxed_rel bld hd _) fun _ _ h3 => Rel2.bind (newBoxed_rel bld hd _) fun _ _ h4 => ?_
  refine Rel2.bind (newBoxed_rel bld hd _) fun _ _ h5 => Rel2.bind (newBoxed_rel bld hd _) fun _ _ h6 => ?_
  refine Rel2.bind (newBoxed_rel bld hd _) fun _ _ h7 => Rel2.bind (newBoxed_rel bld hd _) fun _ _ h8 => ?_
  exact Rel2.pure ⟨h1, replicate_rel hd _, h2, replicate_rel hd _, h3, h4, h5, h6, h7, h8⟩

theorem buildExtendedObservation_rel (hd : r default default) (bld : Build) :
    Rel2 (buildExtendedObservation bld : Res (ExtendedObservation n m T))
      (buildExtendedObservation bld : Res (ExtendedObservation n m T')) (ExtendedObservation.Related r) := by
  unfold buildExtendedObservation
  refine Rel2.bind (newBoxed_rel bld hd _) fun _ _ h1 => Rel2.bind (newBoxed_rel bld hd _) fun _ _ h2 => ?_
  refine Rel2.bind (newBoxed_rel bld hd _) fun _ _ h3 => Rel2.bind (newBoxed_rel bld hd _) fun _ _ h4 => ?_
  refine Rel2.bind (newBoxed_rel bld hd _) fun _ _ h5 => Rel2.bind (newBoxed_rel bld hd _) fun _ _ h6 => ?_
  refine Rel2.bind (newBoxed_rel bld hd _) fun _ _ h7 => Rel2.bind (newBoxed_rel bld hd _) fun _ _ h8 => ?_
  exact Rel2.pure ⟨h1, replicate_rel hd _, h2, replicate_rel hd _, h3, h4, h5, h6, h7, h8⟩

theorem buildWorld_rel (hd : r default default) (bld : Build) (ctls obs : List Nat) :
    Rel2 (buildWorld bld ctls obs : Res (World n T)) (buildWorld bld ctls obs : Res (World n T')) (World.Related r) := by
  unfold buildWorld
  refine Rel2.bind (buildRegularKalman_rel hd bld) fun _ _ hk => ?_
  refine Rel2.bind (rel2_mapM (S := CtlRelated r) (fun l => ?_) ctls) fun _ _ hc => ?_
  · exact Rel2.bind (buildControl_rel hd bld) fun _ _ h => Rel2.pure ⟨h⟩
  refine Rel2.bind (rel2_mapM (S := ObsRelated r) (fun l => ?_) obs) fun _ _ ho => ?_
  · exact Rel2.bind (buildRegularObservation_rel hd bld) fun _ _ h => Rel2.pure ⟨h⟩
  exact Rel2.pure ⟨hk, hc, ho⟩

theorem buildXWorld_rel (hd : r default default) (bld : Build) (obs : List Nat) {st : σ} {st' : σ'} (hst : e st st') :
    Rel2 (buildXWorld bld obs st : Res (XWorld n T σ)) (buildXWorld bld obs st' : Res (XWorld n T' σ'))
      (XWorld.Related e r) := by
  unfold buildXWorld
  refine Rel2.bind (buildExtendedKalman_rel hd bld) fun _ _ hk => ?_
  refine Rel2.bind (rel2_mapM (S := XObsRelated r) (fun l => ?_) obs) fun _ _ ho => ?_
  · exact Rel2.bind (buildExtendedObservation_rel hd bld) fun _ _ h => Rel2.pure ⟨h⟩
  exact Rel2.pure ⟨hk, ho, hst⟩

end Build

/-! ## Homomorphisms -/

section Hom
variable {g : T → T'}

theorem forall₂_fun {s : List T} {t : List T'} : List.Forall₂ (fun a b => g a = b) s t ↔ s.map g = t := by
  constructor
  · intro h
    induction h with
    | nil => rfl
    | cons h _ ih => rw [List.map_cons, h, ih]
  · rintro rfl
    induction s with
    | nil => exact .nil
    | cons a s ih => exact .cons rfl ih

theorem mat_fun {a : Mat R C T} {b : Mat R C T'} : a.Related (fun a b => g a = b) b ↔ a.mapCells g = b := by
  unfold Mat.Related Mat.mapCells
  rw [forall₂_fun]
  cases b; simp

theorem kalman_fun {f : RegularKalman n T} {f' : RegularKalman n T'} :
    f.Related (fun a b => g a = b) f' ↔ f.mapCells g = f' := by
  cases f'
  unfold RegularKalman.mapCells
  rw [RegularKalman.mk.injEq]
  constructor
  · rintro ⟨h1, h2, h3, h4, h5, h6⟩
    exact ⟨mat_fun.1 h1, mat_fun.1 h2, mat_fun.1 h3, mat_fun.1 h4, mat_fun.1 h5, mat_fun.1 h6⟩
  · rintro ⟨h1, h2, h3, h4, h5, h6⟩
    exact ⟨mat_fun.2 h1, mat_fun.2 h2, mat_fun.2 h3, mat_fun.2 h4, mat_fun.2 h5, mat_fun.2 h6⟩

theorem control_fun {f : Control n l T} {f' : Control n l T'} : f.Related (fun a b => g a = b) f' ↔ f.mapCells g = f' := by
  cases f'
  unfold Control.mapCells
  rw [Control.mk.injEq]
  constructor
  · rintro ⟨h1, h2, h3, h4⟩
    exact ⟨mat_fun.1 h1, mat_fun.1 h2, mat_fun.1 h3, mat_fun.1 h4⟩
  · rintro ⟨h1, h2, h3, h4⟩
    exact ⟨mat_fun.2 h1, mat_fun.2 h2, mat_fun.2 h3, mat_fun.2 h4⟩

theorem obs_fun {f : RegularObservation n m T} {f' : RegularObservation n m T'} :
    f.Related (fun a b => g a = b) f' ↔ f.mapCells g = f' := by
  cases f'
  unfold RegularObservation.mapCells
  rw [RegularObservation.mk.injEq]
  constructor
  · rintro ⟨h1, h2, h3, h4, h5, h6, h7, h8, h9, h10⟩
    exact ⟨mat_fun.1 h1, mat_fun.1 h2, mat_fun.1 h3, mat_fun.1 h4, mat_fun.1 h5, mat_fun.1 h6, mat_fun.1 h7, mat_fun.1 h8,
      mat_fun.1 h9, mat_fun.1 h10⟩
  · rintro ⟨h1, h2, h3, h4, h5, h6, h7, h8, h9, h10⟩
    exact ⟨mat_fun.2 h1, mat_fun.2 h2, mat_fun.2 h3, mat_fun.2 h4, mat_fun.2 h5, mat_fun.2 h6, mat_fun.2 h7, mat_fun.2 h8,
      mat_fun.2 h9, mat_fun.2 h10⟩

theorem forall₂_map_iff {A B : Type} {S : A → B → Prop} {k : A → B} (h : ∀ a b, S a b ↔ k a = b) {s : List A} {t : List B} :
    List.Forall₂ S s t ↔ s.map k = t := by
  rw [show S = fun a b => k a = b from funext fun a => funext fun b => propext (h a b)]
  exact forall₂_fun

theorem world_fun {w : World n T} {w' : World n T'} : w.Related (fun a b => g a = b) w' ↔ w.mapCells g = w' := by
  have hc : ∀ (c : (l : Nat) × Control n l T) (d : (l : Nat) × Control n l T'),
      CtlRelated (fun a b => g a = b) c d ↔ (⟨c.1, c.2.mapCells g⟩ : (l : Nat) × Control n l T') = d := by
    intro c d
    constructor
    · rintro ⟨h⟩; rw [control_fun.1 h]
    · rintro rfl; exact ⟨control_fun.2 rfl⟩
  have ho : ∀ (c : (l : Nat) × RegularObservation n l T) (d : (l : Nat) × RegularObservation n l T'),
      ObsRelated (fun a b => g a = b) c d ↔ (⟨c.1, c.2.mapCells g⟩ : (l : Nat) × RegularObservation n l T') = d := by
    intro c d
    constructor
    · rintro ⟨h⟩; rw [obs_fun.1 h]
    · rintro rfl; exact ⟨obs_fun.2 rfl⟩
  cases w'
  unfold World.mapCells
  rw [World.mk.injEq]
  constructor
  · rintro ⟨h1, h2, h3⟩
    exact ⟨kalman_fun.1 h1, (forall₂_map_iff hc).1 h2, (forall₂_map_iff ho).1 h3⟩
  · rintro ⟨h1, h2, h3⟩
    exact ⟨kalman_fun.2 h1, (forall₂_map_iff hc).2 h2, (forall₂_map_iff ho).2 h3⟩

theorem op_fun (op : Op T) : op.Related (fun a b => g a = b) (op.mapCells g) := by
  cases op <;> constructor <;> first | rfl | exact forall₂_fun.2 rfl

theorem res_fun {A B : Type} {S : A → B → Prop} {k : A → B} (h : ∀ a b, S a b ↔ k a = b) {x : Res A} {y : Res B} :
    Res.Related S x y ↔ x.map k = y := by
  cases x <;> cases y <;> simp [Res.Related, Except.map, h]

theorem mat_map_map {T'' : Type} (h : T' → T'') (a : Mat R C T) : (a.mapCells g).mapCells h = a.mapCells (h ∘ g) := by
  simp [Mat.mapCells]

theorem mat_map_id (a : Mat R C T) : a.mapCells id = a := by simp [Mat.mapCells]

theorem world_map_map {T'' : Type} (h : T' → T'') (w : World n T) : (w.mapCells g).mapCells h = w.mapCells (h ∘ g) := by
  simp only [World.mapCells, RegularKalman.mapCells, Control.mapCells, RegularObservation.mapCells, mat_map_map, List.map_map,
    World.mk.injEq, true_and]
  constructor <;> (apply List.map_congr_left; intro a _; simp only [Function.comp, mat_map_map])

theorem world_map_id (w : World n T) : w.mapCells id = w := by
  simp only [World.mapCells, RegularKalman.mapCells, Control.mapCells, RegularObservation.mapCells, mat_map_id]
  simp

theorem op_map_map {T'' : Type} (h : T' → T'') (op : Op T) : (op.mapCells g).mapCells h = op.mapCells (h ∘ g) := by
  cases op <;> simp [Op.mapCells]

theorem op_map_id (op : Op T) : op.mapCells id = op := by
  cases op <;> simp [Op.mapCells]

end Hom
end Param
end Minikalman
