import Verif.Spec.Storage
import Verif.Proofs.Hoare
import Verif.Proofs.Bounds

/-!
# Programs over lawful storages do what programs over slices do
-/

set_option linter.unusedSectionVars false

namespace Minikalman

variable {T : Type} {R C U N n l m : Nat}

/-! ## Kernels keep the number of elements of the destination -/

/-- The result has as many elements as `k`. -/
abbrev Len (k : Nat) (r : Res (List T)) : Prop := Part r (fun d => d.length = k)

theorem len_wr {k : Nat} {s : List T} (h : s.length = k) (i : Nat) (v : T) : Len k (wr s i v) :=
  part_wr.mono fun s' hs => by rw [hs.2, List.length_set, h]

theorem len_read {α : Type} {k : Nat} {r : Res α} {f : α → Res (List T)} (h : ∀ a, Len k (f a)) : Len k (r >>= f) :=
  (Part.any r).bind fun a _ => h a

theorem part_forUp' {σ : Type} {lo hi : Nat} {body : Nat → σ → Res σ} {s : σ} (I : σ → Prop) (h0 : I s)
    (hstep : ∀ k s, I s → Part (body k s) I) : Part (forUp lo hi body s) I :=
  part_forCount (fun _ => I) h0 fun k s _ _ => hstep k s

theorem part_forDown' {σ : Type} {n : Nat} {body : Nat → σ → Res σ} {s : σ} (I : σ → Prop) (h0 : I s)
    (hstep : ∀ k s, I s → Part (body k s) I) : Part (forDown n body s) I :=
  part_forDown (fun _ => I) h0 fun k s _ => hstep k s

theorem part_forUpR' {σ ρ : Type} {lo hi : Nat} {body : Nat → σ → Res (Ctl σ ρ)} {s : σ} (I : σ → Prop) (Q : ρ → Prop)
    (h0 : I s) (hstep : ∀ k s, I s → Part (body k s) (CtlPost I Q)) : Part (forUpR lo hi body s) (CtlPost I Q) :=
  Mat.part_forCountR (fun _ => I) (Q := Q) h0 fun k s _ _ => hstep k s

variable [Zero T] [One T] [Add T] [Sub T] [Mul T] [Neg T] [MDT T]

namespace Mat

theorem mult_len (a : Mat R C T) (b : Mat C U T) (c : Mat R U T) :
    Part (a.mult b c) (fun d => d.data.length = c.data.length) := by
  unfold mult
  refine Part.bind (P := fun d : List T => d.length = c.data.length) ?_ fun d hd => Part.pure hd
  refine part_forDown' _ rfl fun j s hs => ?_
  refine Part.bind (P := fun p : List T × Nat => p.1.length = c.data.length) ?_ fun p hp => Part.pure hp
  refine part_forUp' _ hs fun i s hs => ?_
  refine (Part.any _).bind fun p _ => ?_
  exact (len_wr hs _ _).bind fun d hd => Part.pure hd

theorem multRowvector_len (a : Mat R C T) (x : Mat C 1 T) (c : Mat R 1 T) :
    Part (a.multRowvector x c) (fun d => d.data.length = c.data.length) := by
  unfold multRowvector
  refine (Part.any _).bind fun b0 _ => ?_
  refine Part.bind (P := fun p : List T × Nat => p.1.length = c.data.length) ?_ fun p hp => Part.pure hp
  refine part_forUp' _ rfl fun i s hs => ?_
  refine (Part.any _).bind fun a0 _ => (Part.any _).bind fun p _ => ?_
  exact (len_wr hs _ _).bind fun d hd => Part.pure hd

theorem multaddRowvector_len (a : Mat R C T) (x : Mat C 1 T) (c : Mat R 1 T) :
    Part (a.multaddRowvector x c) (fun d => d.data.length = c.data.length) := by
  unfold multaddRowvector
  refine (Part.any _).bind fun b0 _ => ?_
  refine Part.bind (P := fun p : List T × Nat => p.1.length = c.data.length) ?_ fun p hp => Part.pure hp
  refine part_forUp' _ rfl fun i s hs => ?_
  refine (Part.any _).bind fun a0 _ => (Part.any _).bind fun p _ => (Part.any _).bind fun cv _ => ?_
  exact (len_wr hs _ _).bind fun d hd => Part.pure hd

theorem multTransb_len (a : Mat R C T) (b : Mat U C T) (c : Mat R U T) :
    Part (a.multTransb b c) (fun d => d.data.length = c.data.length) := by
  unfold multTransb
  refine Part.bind (P := fun p : List T × Nat × Nat => p.1.length = c.data.length) ?_ fun p hp => Part.pure hp
  refine part_forUp' _ rfl fun i s hs => ?_
  refine Part.bind (P := fun p : List T × Nat × Nat => p.1.length = c.data.length) ?_ fun p hp => Part.pure hp
  refine part_forUp' _ hs fun i s hs => ?_
  refine (Part.any _).bind fun p _ => ?_
  exact (len_wr hs _ _).bind fun d hd => Part.pure hd

theorem multaddTransb_len (a : Mat R C T) (b : Mat U C T) (c : Mat R U T) :
    Part (a.multaddTransb b c) (fun d => d.data.length = c.data.length) := by
  unfold multaddTransb
  refine Part.bind (P := fun p : List T × Nat × Nat => p.1.length = c.data.length) ?_ fun p hp => Part.pure hp
  refine part_forUp' _ rfl fun i s hs => ?_
  refine Part.bind (P := fun p : List T × Nat × Nat => p.1.length = c.data.length) ?_ fun p hp => Part.pure hp
  refine part_forUp' _ hs fun i s hs => ?_
  refine (Part.any _).bind fun p _ => (Part.any _).bind fun cv _ => ?_
  exact (len_wr hs _ _).bind fun d hd => Part.pure hd

theorem multscaleTransb_len (a : Mat R C T) (b : Mat U C T) (scale : T) (c : Mat R U T) :
    Part (a.multscaleTransb b scale c) (fun d => d.data.length = c.data.length) := by
  unfold multscaleTransb
  refine Part.bind (P := fun p : List T × Nat × Nat => p.1.length = c.data.length) ?_ fun p hp => Part.pure hp
  refine part_forUp' _ rfl fun i s hs => ?_
  refine Part.bind (P := fun p : List T × Nat × Nat => p.1.length = c.data.length) ?_ fun p hp => Part.pure hp
  refine part_forUp' _ hs fun i s hs => ?_
  refine (Part.any _).bind fun p _ => ?_
  exact (len_wr hs _ _).bind fun d hd => Part.pure hd

theorem copyTo_len (a c : Mat R C T) : Part (a.copyTo c) (fun d => d.data.length = c.data.length) := by
  unfold copyTo
  refine (Part.any _).bind fun last _ => ?_
  refine Part.bind (P := fun d : List T => d.length = c.data.length) ?_ fun d hd => Part.pure hd
  exact part_forDown' _ rfl fun j s hs => len_read fun v => len_wr hs _ _

theorem addInplaceB_len (a b : Mat R C T) : Part (a.addInplaceB b) (fun d => d.data.length = b.data.length) := by
  unfold addInplaceB
  refine Part.bind (P := fun d : List T => d.length = b.data.length) ?_ fun d hd => Part.pure hd
  exact part_forDown' _ rfl fun j s hs => len_read fun v => len_read fun v => len_wr hs _ _

theorem subInplaceB_len (a b : Mat R C T) : Part (a.subInplaceB b) (fun d => d.data.length = b.data.length) := by
  unfold subInplaceB
  refine Part.bind (P := fun d : List T => d.length = b.data.length) ?_ fun d hd => Part.pure hd
  exact part_forDown' _ rfl fun j s hs => len_read fun v => len_read fun v => len_wr hs _ _

theorem addInplaceA_len (a b : Mat R C T) : Part (a.addInplaceA b) (fun d => d.data.length = a.data.length) := by
  unfold addInplaceA
  refine Part.bind (P := fun d : List T => d.length = a.data.length) ?_ fun d hd => Part.pure hd
  exact part_forDown' _ rfl fun j s hs => len_read fun v => len_read fun v => len_wr hs _ _

theorem subInplaceA_len (a b : Mat R C T) : Part (a.subInplaceA b) (fun d => d.data.length = a.data.length) := by
  unfold subInplaceA
  refine Part.bind (P := fun d : List T => d.length = a.data.length) ?_ fun d hd => Part.pure hd
  exact part_forDown' _ rfl fun j s hs => len_read fun v => len_read fun v => len_wr hs _ _

theorem choleskyDecomposeLower_len (bld : Build) (a : Mat R C T) :
    Part (a.choleskyDecomposeLower bld) (fun d => d.1.data.length = a.data.length) := by
  unfold choleskyDecomposeLower
  refine (Part.any _).bind fun _ _ => (Part.any _).bind fun _ _ => ?_
  refine Part.bind (P := CtlPost (fun s : List T × T => s.1.length = a.data.length)
    (fun t : List T => t.length = a.data.length)) ?_ fun r hr => ?_
  · refine part_forUpR' _ _ rfl fun i s hs => ?_
    refine part_forUpR' _ _ hs fun j s hs => ?_
    refine (Part.any _).bind fun sum _ => (Part.any _).bind fun p _ => ?_
    refine (len_wr hs _ _).bind fun t ht => ?_
    split
    · split
      · exact Part.pure ht
      · refine (Part.any _).bind fun e _ => (len_wr ht _ _).bind fun t ht => (Part.any _).bind fun e _ => Part.pure ht
    · exact Part.pure ht
  · cases r with
    | ret t => exact Part.pure hr
    | cont s =>
      refine Part.bind (P := fun t : List T => t.length = a.data.length) ?_ fun t ht => Part.pure ht
      refine part_forUp' _ hr fun i s hs => ?_
      exact part_forUp' _ hs fun j s hs => len_wr hs _ _

theorem invertLCholesky_len (a b : Mat N N T) : Part (a.invertLCholesky b) (fun d => d.data.length = b.data.length) := by
  unfold invertLCholesky
  refine Part.bind (P := fun t : List T => t.length = b.data.length) ?_ fun t ht => ?_
  · refine part_forUp' _ rfl fun i s hs => len_read fun e => len_read fun e => ?_
    exact part_forUp' _ hs fun j s hs => len_read fun l => len_wr hs _ _
  · refine (Part.any _).bind fun last _ => ?_
    refine Part.bind (P := fun t : List T => t.length = b.data.length) ?_ fun t ht => Part.pure ht
    refine part_forDown' _ ht fun i s hs => len_read fun e => len_read fun e => ?_
    refine part_forUp' _ hs fun j s hs => len_read fun v => len_read fun l => ?_
    exact (len_wr hs _ _).bind fun d hd => len_wr hd _ _

end Mat

/-! ## Two runs whose results are related by a function -/

theorem map_bind_eq {α β γ δ : Type} {r : Res α} {r' : Res γ} {f : α → Res β} {f' : γ → Res δ} {v : α → γ} {u : β → δ}
    (h : r.map v = r') (hf : ∀ a, (f a).map u = f' (v a)) : (r >>= f).map u = r' >>= f' := by
  subst h
  cases r with
  | error e => rfl
  | ok a => exact hf a

namespace Stored

variable {S : Nat → Nat → Type} [Storage S T]

theorem lift_view (hS : Storage.Lawful S) (c : S R C) {r : Res (Mat R C T)}
    (h : Part r (fun d => d.data.length = (Storage.asSlice c).length)) : (lift c r).map view = r := by
  cases r with
  | error e => rfl
  | ok d => exact congrArg (fun l => Except.ok (Mat.mk l)) (hS.written c d.data (h d rfl))

theorem msl_eq (hS : Storage.Lawful S) (c : S R C) : (msl c : Mat R C T) = view c := congrArg Mat.mk (hS.same c)

theorem mult_view (hS : Storage.Lawful S) (a : S R C) (b : S C U) (c : S R U) :
    (mult a b c).map view = (view a).mult (view b) (view c) := by
  unfold mult
  rw [msl_eq hS]
  exact lift_view hS c (Mat.mult_len _ _ _)

theorem multRowvector_view (hS : Storage.Lawful S) (a : S R C) (b : S C 1) (c : S R 1) :
    (multRowvector a b c).map view = (view a).multRowvector (view b) (view c) := by
  unfold multRowvector
  rw [msl_eq hS]
  exact lift_view hS c (Mat.multRowvector_len _ _ _)

theorem multaddRowvector_view (hS : Storage.Lawful S) (a : S R C) (b : S C 1) (c : S R 1) :
    (multaddRowvector a b c).map view = (view a).multaddRowvector (view b) (view c) := by
  unfold multaddRowvector
  rw [msl_eq hS]
  exact lift_view hS c (Mat.multaddRowvector_len _ _ _)

theorem multTransb_view (hS : Storage.Lawful S) (a : S R C) (b : S U C) (c : S R U) :
    (multTransb a b c).map view = (view a).multTransb (view b) (view c) := by
  unfold multTransb
  rw [msl_eq hS]
  exact lift_view hS c (Mat.multTransb_len _ _ _)

theorem multaddTransb_view (hS : Storage.Lawful S) (a : S R C) (b : S U C) (c : S R U) :
    (multaddTransb a b c).map view = (view a).multaddTransb (view b) (view c) := by
  unfold multaddTransb
  rw [msl_eq hS]
  exact lift_view hS c (Mat.multaddTransb_len _ _ _)

theorem multscaleTransb_view (hS : Storage.Lawful S) (a : S R C) (b : S U C) (scale : T) (c : S R U) :
    (multscaleTransb a b scale c).map view = (view a).multscaleTransb (view b) scale (view c) := by
  unfold multscaleTransb
  rw [msl_eq hS]
  exact lift_view hS c (Mat.multscaleTransb_len _ _ _ _)

theorem copyTo_view (hS : Storage.Lawful S) (a c : S R C) : (copyTo a c).map view = (view a).copyTo (view c) := by
  have : copyTo a c = lift c ((view a).copyTo (view c)) := by
    unfold copyTo lift Mat.copyTo Mat.len
    rw [hS.len, hS.same]
    simp only [bind_assoc]
    rfl
  rw [this]
  exact lift_view hS c (Mat.copyTo_len _ _)

theorem addInplaceB_view (hS : Storage.Lawful S) (a b : S R C) :
    (addInplaceB a b).map view = (view a).addInplaceB (view b) := by
  have : addInplaceB a b = lift b ((view a).addInplaceB (view b)) := by
    unfold addInplaceB lift Mat.addInplaceB Mat.len
    rw [hS.len, hS.same]
    simp only [bind_assoc]
    rfl
  rw [this]
  exact lift_view hS b (Mat.addInplaceB_len _ _)

theorem subInplaceB_view (hS : Storage.Lawful S) (a b : S R C) :
    (subInplaceB a b).map view = (view a).subInplaceB (view b) := by
  have : subInplaceB a b = lift b ((view a).subInplaceB (view b)) := by
    unfold subInplaceB lift Mat.subInplaceB Mat.len
    rw [hS.len, hS.same]
    simp only [bind_assoc]
    rfl
  rw [this]
  exact lift_view hS b (Mat.subInplaceB_len _ _)

theorem addInplaceA_view (hS : Storage.Lawful S) (a b : S R C) :
    (addInplaceA a b).map view = (view a).addInplaceA (view b) := by
  have : addInplaceA a b = lift a ((view a).addInplaceA (view b)) := by
    unfold addInplaceA lift Mat.addInplaceA Mat.len
    rw [hS.len, hS.same]
    simp only [bind_assoc]
    rfl
  rw [this]
  exact lift_view hS a (Mat.addInplaceA_len _ _)

theorem subInplaceA_view (hS : Storage.Lawful S) (a b : S R C) :
    (subInplaceA a b).map view = (view a).subInplaceA (view b) := by
  have : subInplaceA a b = lift a ((view a).subInplaceA (view b)) := by
    unfold subInplaceA lift Mat.subInplaceA Mat.len
    rw [hS.len, hS.same]
    simp only [bind_assoc]
    rfl
  rw [this]
  exact lift_view hS a (Mat.subInplaceA_len _ _)

theorem choleskyDecomposeLower_view (hS : Storage.Lawful S) (bld : Build) (a : S R C) :
    (choleskyDecomposeLower bld a).map (fun r => (view r.1, r.2)) = (view a).choleskyDecomposeLower bld := by
  unfold choleskyDecomposeLower
  rw [msl_eq hS]
  have h := Mat.choleskyDecomposeLower_len bld (view a)
  cases hr : (view a).choleskyDecomposeLower bld with
  | error e => rfl
  | ok d => exact congrArg (fun l => Except.ok (Mat.mk l, d.2)) (hS.written a d.1.data (h d hr))

theorem invertLCholesky_view (hS : Storage.Lawful S) (a b : S N N) :
    (invertLCholesky a b).map view = (view a).invertLCholesky (view b) := by
  unfold invertLCholesky
  rw [msl_eq hS]
  exact lift_view hS b (Mat.invertLCholesky_len _ _)

theorem copyFromSlice_view (hS : Storage.Lawful S) (a : S R C) (v : List T) :
    (copyFromSlice a v).map view = (view a).copyFromSlice v := by
  unfold copyFromSlice Mat.copyFromSlice
  rw [hS.same]
  by_cases h : v.length = (Storage.asSlice a).length
  · rw [if_pos h]
    refine Eq.trans ?_ (if_pos h).symm
    exact congrArg (fun l => Except.ok (Mat.mk l)) (hS.written a v h)
  · rw [if_neg h]
    exact (if_neg h).symm

/-! ## Steps -/

theorem applyControl_view (hS : Storage.Lawful S) (c : Control S n l) (x : S n 1) (P : S n n) :
    (c.applyControl x P).map (fun r => (r.1.view, view r.2.1, view r.2.2)) = c.view.applyControl (view x) (view P) := by
  unfold Control.applyControl Minikalman.Control.applyControl
  have he : ∀ {R C : Nat} (s : S R C), Storage.isEmpty s = (view s : Mat R C T).isEmpty := fun {R C} s =>
    Bool.eq_iff_iff.mpr ((hS.isEmpty s).trans (beq_iff_eq (a := R * C) (b := 0)).symm)
  rw [he, he]
  change Except.map _ (if ((view c.u : Mat _ _ T).isEmpty || (view c.B : Mat _ _ T).isEmpty) = true then _ else _)
    = (if ((view c.u : Mat _ _ T).isEmpty || (view c.B : Mat _ _ T).isEmpty) = true then _ else _)
  split
  · rfl
  · refine map_bind_eq (multaddRowvector_view hS _ _ _) fun x' => ?_
    refine map_bind_eq (mult_view hS _ _ _) fun t => ?_
    exact map_bind_eq (multaddTransb_view hS _ _ _) fun P' => rfl

theorem update_view (hS : Storage.Lawful S) (bld : Build) (o : Observation S n m) (x : S n 1) (P : S n n) :
    (o.updateWithInnovation bld x P).map (fun r => (r.1.view, view r.2.1, view r.2.2))
      = o.view.updateWithInnovation bld (view x) (view P) := by
  unfold Observation.updateWithInnovation RegularObservation.updateWithInnovation
  refine map_bind_eq (mult_view hS _ _ _) fun tempHP => ?_
  refine map_bind_eq (multTransb_view hS _ _ _) fun s => ?_
  refine map_bind_eq (addInplaceA_view hS _ _) fun s => ?_
  refine map_bind_eq (choleskyDecomposeLower_view hS bld _) fun s => ?_
  refine map_bind_eq (invertLCholesky_view hS _ _) fun si => ?_
  refine map_bind_eq (multTransb_view hS _ _ _) fun pht => ?_
  refine map_bind_eq (mult_view hS _ _ _) fun K => ?_
  refine map_bind_eq (multaddRowvector_view hS _ _ _) fun x' => ?_
  refine map_bind_eq (mult_view hS _ _ _) fun hp => ?_
  refine map_bind_eq (mult_view hS _ _ _) fun khp => ?_
  exact map_bind_eq (subInplaceA_view hS _ _) fun P' => rfl

theorem xupdate_view (hS : Storage.Lawful S) (bld : Build) (o : Observation S n m) (x : S n 1) (P : S n n) :
    (o.updateWithInnovation bld x P).map (fun r => (r.1.xview, view r.2.1, view r.2.2))
      = o.xview.updateWithInnovation bld (view x) (view P) := by
  unfold Observation.updateWithInnovation ExtendedObservation.updateWithInnovation
  refine map_bind_eq (mult_view hS _ _ _) fun tempHP => ?_
  refine map_bind_eq (multTransb_view hS _ _ _) fun s => ?_
  refine map_bind_eq (addInplaceA_view hS _ _) fun s => ?_
  refine map_bind_eq (choleskyDecomposeLower_view hS bld _) fun s => ?_
  refine map_bind_eq (invertLCholesky_view hS _ _) fun si => ?_
  refine map_bind_eq (multTransb_view hS _ _ _) fun pht => ?_
  refine map_bind_eq (mult_view hS _ _ _) fun K => ?_
  refine map_bind_eq (multaddRowvector_view hS _ _ _) fun x' => ?_
  refine map_bind_eq (mult_view hS _ _ _) fun hp => ?_
  refine map_bind_eq (mult_view hS _ _ _) fun khp => ?_
  exact map_bind_eq (subInplaceA_view hS _ _) fun P' => rfl

theorem correct_view (hS : Storage.Lawful S) (bld : Build) (o : Observation S n m) (x : S n 1) (P : S n n) :
    (o.correct bld x P).map (fun r => (r.1.view, view r.2.1, view r.2.2)) = o.view.correct bld (view x) (view P) := by
  unfold Observation.correct RegularObservation.correct
  refine map_bind_eq (multRowvector_view hS _ _ _) fun y => ?_
  refine map_bind_eq (subInplaceB_view hS _ _) fun y => ?_
  exact update_view hS bld { o with y := y } x P

theorem correctNonlinear_view {σ : Type} (hS : Storage.Lawful S) (bld : Build) (o : Observation S n m) (x : S n 1) (P : S n n)
    {g : σ → S n 1 → S m 1 → Res (σ × S m 1)} {g' : σ → Mat n 1 T → Mat m 1 T → Res (σ × Mat m 1 T)} (hg : Acts g g') (st : σ) :
    (o.correctNonlinear bld x P g st).map (fun r => (r.1, r.2.1.xview, view r.2.2.1, view r.2.2.2))
      = o.xview.correctNonlinear bld (view x) (view P) g' st := by
  unfold Observation.correctNonlinear ExtendedObservation.correctNonlinear
  refine map_bind_eq (hg st x o.y) fun p => ?_
  refine map_bind_eq (subInplaceB_view hS _ _) fun y => ?_
  exact map_bind_eq (xupdate_view hS bld { o with y := y } x P) fun r => rfl

theorem predictX_view (hS : Storage.Lawful S) (f : Kalman S n) : f.predictX.map Kalman.view = f.view.predictX := by
  unfold Kalman.predictX RegularKalman.predictX
  refine map_bind_eq (multRowvector_view hS _ _ _) fun px => ?_
  exact map_bind_eq (copyTo_view hS _ _) fun x => rfl

theorem predictP_view (hS : Storage.Lawful S) (f : Kalman S n) : f.predictP.map Kalman.view = f.view.predictP := by
  unfold Kalman.predictP RegularKalman.predictP
  refine map_bind_eq (mult_view hS _ _ _) fun t => ?_
  refine map_bind_eq (multTransb_view hS _ _ _) fun P => ?_
  exact map_bind_eq (addInplaceB_view hS _ _) fun x => rfl

theorem predictPTuned_view (hS : Storage.Lawful S) (f : Kalman S n) (lambda : T) :
    (f.predictPTuned lambda).map Kalman.view = f.view.predictPTuned lambda := by
  unfold Kalman.predictPTuned RegularKalman.predictPTuned
  refine map_bind_eq (v := id) (by cases MDT.recip (lambda * lambda) <;> rfl) fun q => ?_
  refine map_bind_eq (mult_view hS _ _ _) fun t => ?_
  refine map_bind_eq (multscaleTransb_view hS _ _ _ _) fun P => ?_
  exact map_bind_eq (addInplaceB_view hS _ _) fun x => rfl

theorem xpredictP_view (hS : Storage.Lawful S) (f : Kalman S n) : f.predictP.map Kalman.xview = f.xview.predictP := by
  unfold Kalman.predictP ExtendedKalman.predictP
  refine map_bind_eq (mult_view hS _ _ _) fun t => ?_
  refine map_bind_eq (multTransb_view hS _ _ _) fun P => ?_
  exact map_bind_eq (addInplaceB_view hS _ _) fun x => rfl

theorem xpredictPTuned_view (hS : Storage.Lawful S) (f : Kalman S n) (lambda : T) :
    (f.predictPTuned lambda).map Kalman.xview = f.xview.predictPTuned lambda := by
  unfold Kalman.predictPTuned ExtendedKalman.predictPTuned
  refine map_bind_eq (v := id) (by cases MDT.recip (lambda * lambda) <;> rfl) fun q => ?_
  refine map_bind_eq (mult_view hS _ _ _) fun t => ?_
  refine map_bind_eq (multscaleTransb_view hS _ _ _ _) fun P => ?_
  exact map_bind_eq (addInplaceB_view hS _ _) fun x => rfl

theorem predictXNonlinear_view {σ : Type} (hS : Storage.Lawful S) (f : Kalman S n)
    {g : σ → S n 1 → S n 1 → Res (σ × S n 1)} {g' : σ → Mat n 1 T → Mat n 1 T → Res (σ × Mat n 1 T)} (hg : Acts g g') (st : σ) :
    (f.predictXNonlinear g st).map (fun r => (r.1, r.2.xview)) = f.xview.predictXNonlinear g' st := by
  unfold Kalman.predictXNonlinear ExtendedKalman.predictXNonlinear
  refine map_bind_eq (hg st f.x f.predictedX) fun p => ?_
  exact map_bind_eq (copyTo_view hS _ _) fun x => rfl

theorem predictNonlinear_view {σ : Type} (hS : Storage.Lawful S) (f : Kalman S n)
    {g : σ → S n 1 → S n 1 → Res (σ × S n 1)} {g' : σ → Mat n 1 T → Mat n 1 T → Res (σ × Mat n 1 T)} (hg : Acts g g') (st : σ) :
    (f.predictNonlinear g st).map (fun r => (r.1, r.2.xview)) = f.xview.predictNonlinear g' st := by
  unfold Kalman.predictNonlinear ExtendedKalman.predictNonlinear
  refine map_bind_eq (predictXNonlinear_view hS f hg st) fun p => ?_
  exact map_bind_eq (xpredictP_view hS p.2) fun x => rfl

theorem predictTunedNonlinear_view {σ : Type} (hS : Storage.Lawful S) (f : Kalman S n) (lambda : T)
    {g : σ → S n 1 → S n 1 → Res (σ × S n 1)} {g' : σ → Mat n 1 T → Mat n 1 T → Res (σ × Mat n 1 T)} (hg : Acts g g') (st : σ) :
    (f.predictTunedNonlinear lambda g st).map (fun r => (r.1, r.2.xview)) = f.xview.predictTunedNonlinear lambda g' st := by
  unfold Kalman.predictTunedNonlinear ExtendedKalman.predictTunedNonlinear
  refine map_bind_eq (predictXNonlinear_view hS f hg st) fun p => ?_
  exact map_bind_eq (xpredictPTuned_view hS p.2 lambda) fun x => rfl

theorem kcorrectNonlinear_view {σ : Type} (hS : Storage.Lawful S) (bld : Build) (f : Kalman S n) (o : Observation S n m)
    {g : σ → S n 1 → S m 1 → Res (σ × S m 1)} {g' : σ → Mat n 1 T → Mat m 1 T → Res (σ × Mat m 1 T)} (hg : Acts g g') (st : σ) :
    (f.correctNonlinear bld o g st).map (fun r => (r.1, r.2.1.xview, r.2.2.xview)) = f.xview.correctNonlinear bld o.xview g' st := by
  unfold Kalman.correctNonlinear ExtendedKalman.correctNonlinear
  exact map_bind_eq (correctNonlinear_view hS bld o f.x f.P hg st) fun p => rfl

theorem predict_view (hS : Storage.Lawful S) (f : Kalman S n) : f.predict.map Kalman.view = f.view.predict := by
  unfold Kalman.predict RegularKalman.predict
  exact map_bind_eq (predictX_view hS f) fun f => predictP_view hS f

theorem predictTuned_view (hS : Storage.Lawful S) (f : Kalman S n) (lambda : T) :
    (f.predictTuned lambda).map Kalman.view = f.view.predictTuned lambda := by
  unfold Kalman.predictTuned RegularKalman.predictTuned
  exact map_bind_eq (predictX_view hS f) fun f => predictPTuned_view hS f lambda

theorem control_view (hS : Storage.Lawful S) (f : Kalman S n) (c : Control S n l) :
    (f.control c).map (fun r => (r.1.view, r.2.view)) = f.view.control c.view := by
  unfold Kalman.control RegularKalman.control
  exact map_bind_eq (applyControl_view hS c f.x f.P) fun f => rfl

theorem kcorrect_view (hS : Storage.Lawful S) (bld : Build) (f : Kalman S n) (o : Observation S n m) :
    (f.correct bld o).map (fun r => (r.1.view, r.2.view)) = f.view.correct bld o.view := by
  unfold Kalman.correct RegularKalman.correct
  exact map_bind_eq (correct_view hS bld o f.x f.P) fun f => rfl

/-! ## Programs -/

theorem withCtl_view (w : World S n) (i : Nat) {g : (l : Nat) → Control S n l → Res (Control S n l)}
    {g' : (l : Nat) → Minikalman.Control n l T → Res (Minikalman.Control n l T)}
    (h : ∀ l c, (g l c).map Control.view = g' l c.view) : (w.withCtl i g).map World.view = w.view.withCtl i g' := by
  unfold World.withCtl Minikalman.World.withCtl
  have hg : w.view.ctl[i]? = (w.ctl[i]?).map fun c => ⟨c.1, c.2.view⟩ := List.getElem?_map
  rw [hg]
  cases w.ctl[i]? with
  | none => rfl
  | some c => exact map_bind_eq (h c.1 c.2) fun c' => by simp [World.view, Except.map, pure, Except.pure, List.map_set]

theorem withObs_view (w : World S n) (i : Nat) {g : (l : Nat) → Observation S n l → Res (Observation S n l)}
    {g' : (l : Nat) → RegularObservation n l T → Res (RegularObservation n l T)}
    (h : ∀ l c, (g l c).map Observation.view = g' l c.view) : (w.withObs i g).map World.view = w.view.withObs i g' := by
  unfold World.withObs Minikalman.World.withObs
  have hg : w.view.obs[i]? = (w.obs[i]?).map fun c => ⟨c.1, c.2.view⟩ := List.getElem?_map
  rw [hg]
  cases w.obs[i]? with
  | none => rfl
  | some c => exact map_bind_eq (h c.1 c.2) fun c' => by simp [World.view, Except.map, pure, Except.pure, List.map_set]

theorem xwithObs_view {σ : Type} (w : XWorld S n σ) (i : Nat) {g : (l : Nat) → Observation S n l → Res (Observation S n l)}
    {g' : (l : Nat) → ExtendedObservation n l T → Res (ExtendedObservation n l T)}
    (h : ∀ l c, (g l c).map Observation.xview = g' l c.xview) : (w.withObs i g).map XWorld.view = w.view.withObs i g' := by
  unfold XWorld.withObs Minikalman.XWorld.withObs
  have hg : w.view.obs[i]? = (w.obs[i]?).map fun c => ⟨c.1, c.2.xview⟩ := List.getElem?_map
  rw [hg]
  cases w.obs[i]? with
  | none => rfl
  | some c => exact map_bind_eq (h c.1 c.2) fun c' => by simp [XWorld.view, Except.map, pure, Except.pure, List.map_set]

theorem step_view (hS : Storage.Lawful S) (bld : Build) (w : World S n) (op : Op T) :
    (w.step bld op).map World.view = w.view.step bld op := by
  cases op with
  | predict => exact map_bind_eq (predict_view hS w.kf) fun _ => rfl
  | predictTuned lambda => exact map_bind_eq (predictTuned_view hS w.kf lambda) fun _ => rfl
  | control i =>
    unfold World.step Minikalman.World.step
    have hg : w.view.ctl[i]? = (w.ctl[i]?).map fun c => ⟨c.1, c.2.view⟩ := List.getElem?_map
    dsimp only
    rw [hg]
    cases w.ctl[i]? with
    | none => rfl
    | some c =>
      exact map_bind_eq (control_view hS w.kf c.2) fun c' => by simp [World.view, Except.map, pure, Except.pure, List.map_set]
  | correct i =>
    unfold World.step Minikalman.World.step
    have hg : w.view.obs[i]? = (w.obs[i]?).map fun c => ⟨c.1, c.2.view⟩ := List.getElem?_map
    dsimp only
    rw [hg]
    cases w.obs[i]? with
    | none => rfl
    | some c =>
      exact map_bind_eq (kcorrect_view hS bld w.kf c.2) fun c' => by
        simp [World.view, Except.map, pure, Except.pure, List.map_set]
  | setX v => exact map_bind_eq (copyFromSlice_view hS _ v) fun _ => rfl
  | setA v => exact map_bind_eq (copyFromSlice_view hS _ v) fun _ => rfl
  | setP v => exact map_bind_eq (copyFromSlice_view hS _ v) fun _ => rfl
  | setQ v => exact map_bind_eq (copyFromSlice_view hS _ v) fun _ => rfl
  | setU i v => exact withCtl_view w i fun l c => map_bind_eq (copyFromSlice_view hS _ v) fun _ => rfl
  | setB i v => exact withCtl_view w i fun l c => map_bind_eq (copyFromSlice_view hS _ v) fun _ => rfl
  | setQc i v => exact withCtl_view w i fun l c => map_bind_eq (copyFromSlice_view hS _ v) fun _ => rfl
  | setZ i v => exact withObs_view w i fun l c => map_bind_eq (copyFromSlice_view hS _ v) fun _ => rfl
  | setH i v => exact withObs_view w i fun l c => map_bind_eq (copyFromSlice_view hS _ v) fun _ => rfl
  | setR i v => exact withObs_view w i fun l c => map_bind_eq (copyFromSlice_view hS _ v) fun _ => rfl

theorem run_view (hS : Storage.Lawful S) (bld : Build) (w : World S n) (ops : List (Op T)) :
    (w.run bld ops).map World.view = w.view.run bld ops := by
  induction ops generalizing w with
  | nil => rfl
  | cons op ops ih => exact map_bind_eq (step_view hS bld w op) fun w' => ih w'

theorem xassign_view {σ : Type} (hS : Storage.Lawful S) (w : XWorld S n σ) (a : Assign T) :
    (w.assign a).map XWorld.view = w.view.assign a := by
  cases a with
  | x v => exact map_bind_eq (copyFromSlice_view hS _ v) fun _ => rfl
  | A v => exact map_bind_eq (copyFromSlice_view hS _ v) fun _ => rfl
  | P v => exact map_bind_eq (copyFromSlice_view hS _ v) fun _ => rfl
  | Q v => exact map_bind_eq (copyFromSlice_view hS _ v) fun _ => rfl
  | z i v => exact xwithObs_view w i fun l c => map_bind_eq (copyFromSlice_view hS _ v) fun _ => rfl
  | H i v => exact xwithObs_view w i fun l c => map_bind_eq (copyFromSlice_view hS _ v) fun _ => rfl
  | R i v => exact xwithObs_view w i fun l c => map_bind_eq (copyFromSlice_view hS _ v) fun _ => rfl

theorem xstep_view {σ : Type} (hS : Storage.Lawful S) (bld : Build) (w : XWorld S n σ) {op : XOp S T n σ}
    {op' : Minikalman.XOp n T σ} (h : op.Acts op') : (w.step bld op).map XWorld.view = w.view.step bld op' := by
  cases h with
  | predict hg => exact map_bind_eq (predictNonlinear_view hS w.kf hg w.env) fun _ => rfl
  | predictTuned lambda hg => exact map_bind_eq (predictTunedNonlinear_view hS w.kf lambda hg w.env) fun _ => rfl
  | correct i hg =>
    unfold XWorld.step Minikalman.XWorld.step
    have hg' : w.view.obs[i]? = (w.obs[i]?).map fun c => ⟨c.1, c.2.xview⟩ := List.getElem?_map
    dsimp only
    rw [hg']
    cases w.obs[i]? with
    | none => rfl
    | some c =>
      exact map_bind_eq (kcorrectNonlinear_view hS bld w.kf c.2 (hg c.1) w.env) fun c' => by
        simp [XWorld.view, Except.map, pure, Except.pure, List.map_set]
  | assign a => exact xassign_view hS w a

theorem xrun_view {σ : Type} (hS : Storage.Lawful S) (bld : Build) (w : XWorld S n σ) {ops : List (XOp S T n σ)}
    {ops' : List (Minikalman.XOp n T σ)} (h : List.Forall₂ XOp.Acts ops ops') :
    (w.run bld ops).map XWorld.view = w.view.run bld ops' := by
  induction h generalizing w with
  | nil => rfl
  | cons h _ ih => exact map_bind_eq (xstep_view hS bld w h) fun w' => ih w'

end Stored

/-! ## The storages of the crate are lawful -/

section
variable {T : Type} {S : Nat → Nat → Type} [Storage S T]

theorem setAt_default (same : ∀ {R C : Nat} (s : S R C), Storage.asMutSlice s = Storage.asSlice s)
    (written : ∀ {R C : Nat} (s : S R C) (d : List T), d.length = (Storage.asSlice s).length →
      Storage.asSlice (Storage.update s d) = d) (s : S R C) (k : Nat) (v : T) :
    (do let d ← wr (Storage.asMutSlice s) k v; pure (Storage.update s d) : Res (S R C)).map Storage.asSlice
      = wr (Storage.asSlice s) k v := by
  rw [same]
  unfold wr
  split
  · exact congrArg Except.ok (written s _ (List.length_set ..))
  · rfl

theorem lawful_mat : Storage.Lawful (fun R C => Mat R C T) where
  same _ := rfl
  written _ _ _ := rfl
  len _ := rfl
  isEmpty _ := by simp [Storage.isEmpty]
  getAt _ _ _ := rfl
  setAt s i j v := setAt_default (S := fun R C => Mat R C T) (fun _ => rfl) (fun _ _ _ => rfl) s _ v

theorem lawful_crate : Storage.Lawful (CrateStorage T) where
  same _ := rfl
  written s d _ := by cases s <;> rfl
  len _ := rfl
  isEmpty _ := by simp [Storage.isEmpty]
  getAt _ _ _ := rfl
  setAt s i j v := setAt_default (S := CrateStorage T) (fun _ => rfl) (fun s d _ => by cases s <;> rfl) s _ v

theorem lawful_rowMajor (hS : Storage.Lawful S) : Storage.Lawful (RowMajor S) where
  same s := hS.same s.inner
  written s d h := hS.written s.inner d h
  len _ := rfl
  isEmpty _ := by simp [Storage.isEmpty]
  getAt s i j := hS.getAt s.inner i j
  setAt s i j v := by
    have := hS.setAt s.inner i j v
    rw [← show _ = wr (Storage.asSlice s) _ v from this]
    change Except.map _ (Storage.setAt s.inner i j v >>= _) = _
    cases Storage.setAt s.inner i j v <;> rfl

theorem lawful_typed (hS : Storage.Lawful S) : Storage.Lawful (TypedBuffer S) where
  same s := hS.same s.inner
  written s d h := hS.written s.inner d h
  len _ := rfl
  isEmpty _ := by simp [Storage.isEmpty]
  getAt _ _ _ := rfl
  setAt s i j v := setAt_default (S := TypedBuffer S) (fun s => hS.same s.inner) (fun s d h => hS.written s.inner d h) s _ v

theorem lawful_mixed {ι : Type} {F : ι → Nat → Nat → Type} [∀ i, Storage (F i) T] (hF : ∀ i, Storage.Lawful (F i)) :
    Storage.Lawful (Mixed F) where
  same s := (hF s.kind).same s.inner
  written s d h := (hF s.kind).written s.inner d h
  len s := (hF s.kind).len s.inner
  isEmpty s := (hF s.kind).isEmpty s.inner
  getAt s i j := (hF s.kind).getAt s.inner i j
  setAt s i j v := by
    have := (hF s.kind).setAt s.inner i j v
    rw [← show _ = wr (Storage.asSlice s) _ v from this]
    change Except.map _ (Storage.setAt s.inner i j v >>= _) = _
    cases Storage.setAt s.inner i j v <;> rfl

end
end Minikalman
