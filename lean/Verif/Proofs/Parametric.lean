import Verif.Spec.Parametric
import Verif.Proofs.Hoare

/-! # Programs over related element types do related things -/

set_option linter.unusedSectionVars false

namespace Minikalman

namespace Param

variable {T T' σ σ' α β : Type} {n l m R C U N : Nat}

theorem related_iff {S : α → β → Prop} {a : Res α} {b : Res β} : Res.Related S a b ↔ Rel2 a b S := by
  cases a <;> cases b <;> simp [Res.Related, Rel2, eq_comm]

theorem Rel2.error {S : α → β → Prop} (e : Panic) : Rel2 (.error e : Res α) (.error e : Res β) S := Or.inl ⟨e, rfl, rfl⟩

theorem rel2_up {σ τ : Type} {S : σ → τ → Prop} {lo hi : Nat} {b₁ : Nat → σ → Res σ} {b₂ : Nat → τ → Res τ} {s₁ : σ} {s₂ : τ}
    (h0 : S s₁ s₂) (hstep : ∀ k s t, S s t → Rel2 (b₁ k s) (b₂ k t) S) : Rel2 (forUp lo hi b₁ s₁) (forUp lo hi b₂ s₂) S :=
  rel2_forCount (fun _ => S) h0 fun k s t _ _ h => hstep k s t h

theorem rel2_down {σ τ : Type} {S : σ → τ → Prop} {n : Nat} {b₁ : Nat → σ → Res σ} {b₂ : Nat → τ → Res τ} {s₁ : σ} {s₂ : τ}
    (h0 : S s₁ s₂) (hstep : ∀ k s t, S s t → Rel2 (b₁ k s) (b₂ k t) S) : Rel2 (forDown n b₁ s₁) (forDown n b₂ s₂) S :=
  rel2_forDown (fun _ => S) h0 fun k s t _ h => hstep k s t h

theorem rel2_upR {σ τ ρ ρ' : Type} {S : σ → τ → Prop} {Q : ρ → ρ' → Prop} {lo hi : Nat} {b₁ : Nat → σ → Res (Ctl σ ρ)}
    {b₂ : Nat → τ → Res (Ctl τ ρ')} {s₁ : σ} {s₂ : τ} (h0 : S s₁ s₂)
    (hstep : ∀ k s t, S s t → Rel2 (b₁ k s) (b₂ k t) (CtlRel S Q)) :
    Rel2 (forUpR lo hi b₁ s₁) (forUpR lo hi b₂ s₂) (CtlRel S Q) :=
  rel2_forCountR (fun _ => S) Q h0 fun k s t _ _ h => hstep k s t h

section Cells
variable {r : T → T' → Prop}

theorem rel2_rd {s : List T} {t : List T'} (h : List.Forall₂ r s t) (i : Nat) : Rel2 (rd s i) (rd t i) r := by
  induction h generalizing i with
  | nil => exact Rel2.error _
  | cons hab _ ih =>
    cases i with
    | zero => exact Rel2.ok hab
    | succ i => exact ih i

theorem forall₂_set' {s : List T} {t : List T'} (h : List.Forall₂ r s t) (i : Nat) {a b} (hab : r a b) :
    List.Forall₂ r (s.set i a) (t.set i b) := by
  induction h generalizing i with
  | nil => exact .nil
  | cons h0 h1 ih =>
    cases i with
    | zero => exact .cons hab h1
    | succ i => exact .cons h0 (ih i)

theorem rel2_wr {s : List T} {t : List T'} (h : List.Forall₂ r s t) (i : Nat) {a b} (hab : r a b) :
    Rel2 (wr s i a) (wr t i b) (List.Forall₂ r) := by
  unfold wr
  rw [h.length_eq]
  split
  · exact Rel2.ok (forall₂_set' h i hab)
  · exact Rel2.error _

theorem rel2_usub (a b : Nat) : Rel2 (usub a b) (usub a b) (· = ·) := Rel2.refl _

theorem rel2_debugAssert (bld : Build) (b : Bool) : Rel2 (debugAssert bld b) (debugAssert bld b) (· = ·) := Rel2.refl _

end Cells

variable {r : T → T' → Prop}

theorem copyTo_rel {a : Mat R C T} {b : Mat R C T} {a' b' : Mat R C T'} (ha : a.Related r a') (hb : b.Related r b') :
    Rel2 (a.copyTo b) (a'.copyTo b') (Mat.Related r) := by
  unfold Mat.copyTo
  refine Rel2.bind (rel2_usub _ _) fun _ _ h => ?_
  subst h
  refine Rel2.bind (rel2_down (S := List.Forall₂ r) hb fun k s t h => ?_) fun _ _ h => Rel2.pure h
  exact Rel2.bind (rel2_rd ha k) fun _ _ hv => rel2_wr h k hv

theorem copyFromSlice_rel {a : Mat R C T} {a' : Mat R C T'} (ha : a.Related r a') {v w} (h : List.Forall₂ r v w) :
    Rel2 (a.copyFromSlice v) (a'.copyFromSlice w) (Mat.Related r) := by
  unfold Mat.copyFromSlice
  rw [h.length_eq, ha.length_eq]
  split
  · exact Rel2.ok h
  · exact Rel2.error _

variable [Zero T] [One T] [Add T] [Sub T] [Mul T] [Neg T] [MDT T]
variable [Zero T'] [One T'] [Add T'] [Sub T'] [Mul T'] [Neg T'] [MDT T']

section Kernels
variable (hr : ScalarRel r)
include hr

theorem mult_rel {a : Mat R C T} {b : Mat C U T} {c : Mat R U T} {a' : Mat R C T'} {b' : Mat C U T'} {c' : Mat R U T'}
    (ha : a.Related r a') (hb : b.Related r b') (hc : c.Related r c') :
    Rel2 (a.mult b c) (a'.mult b' c') (Mat.Related r) := by
  unfold Mat.mult
  refine Rel2.bind (rel2_down (S := List.Forall₂ r) hc fun j s t h => ?_) fun _ _ h => Rel2.pure h
  refine Rel2.bind (P := fun (p : List T × Nat) (q : List T' × Nat) => List.Forall₂ r p.1 q.1 ∧ p.2 = q.2) (rel2_up ⟨h, rfl⟩ ?_)
    fun p q h => Rel2.pure h.1
  rintro i ⟨s, ia⟩ ⟨t, _⟩ ⟨h, rfl⟩
  refine Rel2.bind (P := fun (p : T × Nat) (q : T' × Nat) => r p.1 q.1 ∧ p.2 = q.2) (rel2_up ⟨hr.zero, rfl⟩ ?_) ?_
  · rintro k ⟨s, ia⟩ ⟨t, _⟩ ⟨h, rfl⟩
    exact Rel2.bind (rel2_rd ha _) fun _ _ hv => Rel2.bind (rel2_rd hb _) fun _ _ hw =>
      Rel2.pure ⟨hr.add h (hr.mul hv hw), rfl⟩
  · rintro ⟨v, ia⟩ ⟨v', _⟩ ⟨hv, rfl⟩
    exact Rel2.bind (rel2_wr h _ hv) fun _ _ h => Rel2.pure ⟨h, rfl⟩

theorem multRowvector_rel {a : Mat R C T} {x : Mat C 1 T} {c : Mat R 1 T} {a' : Mat R C T'} {x' : Mat C 1 T'}
    {c' : Mat R 1 T'} (ha : a.Related r a') (hx : x.Related r x') (hc : c.Related r c') :
    Rel2 (a.multRowvector x c) (a'.multRowvector x' c') (Mat.Related r) := by
  unfold Mat.multRowvector
  refine Rel2.bind (rel2_rd hx 0) fun b0 b0' hb0 => ?_
  refine Rel2.bind (P := fun (p : List T × Nat) (q : List T' × Nat) => List.Forall₂ r p.1 q.1 ∧ p.2 = q.2)
    (rel2_up ⟨hc, rfl⟩ ?_) fun p q h => Rel2.pure h.1
  rintro i ⟨s, ia⟩ ⟨t, _⟩ ⟨h, rfl⟩
  refine Rel2.bind (rel2_rd ha _) fun a0 a0' ha0 => ?_
  refine Rel2.bind (P := fun (p : T × Nat) (q : T' × Nat) => r p.1 q.1 ∧ p.2 = q.2) (rel2_up ⟨hr.mul ha0 hb0, rfl⟩ ?_) ?_
  · rintro k ⟨s, ia⟩ ⟨t, _⟩ ⟨h, rfl⟩
    exact Rel2.bind (rel2_rd ha _) fun _ _ hv => Rel2.bind (rel2_rd hx _) fun _ _ hw =>
      Rel2.pure ⟨hr.add h (hr.mul hv hw), rfl⟩
  · rintro ⟨v, ia⟩ ⟨v', _⟩ ⟨hv, rfl⟩
    exact Rel2.bind (rel2_wr h _ hv) fun _ _ h => Rel2.pure ⟨h, rfl⟩

theorem multaddRowvector_rel {a : Mat R C T} {x : Mat C 1 T} {c : Mat R 1 T} {a' : Mat R C T'} {x' : Mat C 1 T'}
    {c' : Mat R 1 T'} (ha : a.Related r a') (hx : x.Related r x') (hc : c.Related r c') :
    Rel2 (a.multaddRowvector x c) (a'.multaddRowvector x' c') (Mat.Related r) := by
  unfold Mat.multaddRowvector
  refine Rel2.bind (rel2_rd hx 0) fun b0 b0' hb0 => ?_
  refine Rel2.bind (P := fun (p : List T × Nat) (q : List T' × Nat) => List.Forall₂ r p.1 q.1 ∧ p.2 = q.2)
    (rel2_up ⟨hc, rfl⟩ ?_) fun p q h => Rel2.pure h.1
  rintro i ⟨s, ia⟩ ⟨t, _⟩ ⟨h, rfl⟩
  refine Rel2.bind (rel2_rd ha _) fun a0 a0' ha0 => ?_
  refine Rel2.bind (P := fun (p : T × Nat) (q : T' × Nat) => r p.1 q.1 ∧ p.2 = q.2) (rel2_up ⟨hr.mul ha0 hb0, rfl⟩ ?_) ?_
  · rintro k ⟨s, ia⟩ ⟨t, _⟩ ⟨h, rfl⟩
    exact Rel2.bind (rel2_rd ha _) fun _ _ hv => Rel2.bind (rel2_rd hx _) fun _ _ hw =>
      Rel2.pure ⟨hr.add h (hr.mul hv hw), rfl⟩
  · rintro ⟨v, ia⟩ ⟨v', _⟩ ⟨hv, rfl⟩
    exact Rel2.bind (rel2_rd h _) fun _ _ hcv => Rel2.bind (rel2_wr h _ (hr.add hcv hv)) fun _ _ h => Rel2.pure ⟨h, rfl⟩

theorem multTransb_rel {a : Mat R C T} {b : Mat U C T} {c : Mat R U T} {a' : Mat R C T'} {b' : Mat U C T'}
    {c' : Mat R U T'} (ha : a.Related r a') (hb : b.Related r b') (hc : c.Related r c') :
    Rel2 (a.multTransb b c) (a'.multTransb b' c') (Mat.Related r) := by
  unfold Mat.multTransb
  refine Rel2.bind (P := fun (p : List T × Nat × Nat) (q : List T' × Nat × Nat) => List.Forall₂ r p.1 q.1 ∧ p.2 = q.2)
    (rel2_up ⟨hc, rfl⟩ ?_) fun p q h => Rel2.pure h.1
  rintro i ⟨s, ci, ia⟩ ⟨t, _, _⟩ ⟨h, hh⟩
  cases hh
  refine Rel2.bind (P := fun (p : List T × Nat × Nat) (q : List T' × Nat × Nat) => List.Forall₂ r p.1 q.1 ∧ p.2 = q.2)
    (rel2_up ⟨h, rfl⟩ ?_) ?_
  · rintro j ⟨s, ci, ib⟩ ⟨t, _, _⟩ ⟨h, hh⟩
    cases hh
    refine Rel2.bind (P := fun (p : T × Nat) (q : T' × Nat) => r p.1 q.1 ∧ p.2 = q.2) (rel2_up ⟨hr.zero, rfl⟩ ?_) ?_
    · rintro k ⟨s, ia⟩ ⟨t, _⟩ ⟨h, rfl⟩
      exact Rel2.bind (rel2_rd ha _) fun _ _ hv => Rel2.bind (rel2_rd hb _) fun _ _ hw =>
        Rel2.pure ⟨hr.add h (hr.mul hv hw), rfl⟩
    · rintro ⟨v, ia⟩ ⟨v', _⟩ ⟨hv, rfl⟩
      exact Rel2.bind (rel2_wr h _ hv) fun _ _ h => Rel2.pure ⟨h, rfl⟩
  · rintro ⟨s, ci, ib⟩ ⟨t, _, _⟩ ⟨h, hh⟩
    cases hh
    exact Rel2.pure ⟨h, rfl⟩

theorem multaddTransb_rel {a : Mat R C T} {b : Mat U C T} {c : Mat R U T} {a' : Mat R C T'} {b' : Mat U C T'}
    {c' : Mat R U T'} (ha : a.Related r a') (hb : b.Related r b') (hc : c.Related r c') :
    Rel2 (a.multaddTransb b c) (a'.multaddTransb b' c') (Mat.Related r) := by
  unfold Mat.multaddTransb
  refine Rel2.bind (P := fun (p : List T × Nat × Nat) (q : List T' × Nat × Nat) => List.Forall₂ r p.1 q.1 ∧ p.2 = q.2)
    (rel2_up ⟨hc, rfl⟩ ?_) fun p q h => Rel2.pure h.1
  rintro i ⟨s, ci, ia⟩ ⟨t, _, _⟩ ⟨h, hh⟩
  cases hh
  refine Rel2.bind (P := fun (p : List T × Nat × Nat) (q : List T' × Nat × Nat) => List.Forall₂ r p.1 q.1 ∧ p.2 = q.2)
    (rel2_up ⟨h, rfl⟩ ?_) ?_
  · rintro j ⟨s, ci, ib⟩ ⟨t, _, _⟩ ⟨h, hh⟩
    cases hh
    refine Rel2.bind (P := fun (p : T × Nat) (q : T' × Nat) => r p.1 q.1 ∧ p.2 = q.2) (rel2_up ⟨hr.zero, rfl⟩ ?_) ?_
    · rintro k ⟨s, ia⟩ ⟨t, _⟩ ⟨h, rfl⟩
      exact Rel2.bind (rel2_rd ha _) fun _ _ hv => Rel2.bind (rel2_rd hb _) fun _ _ hw =>
        Rel2.pure ⟨hr.add h (hr.mul hv hw), rfl⟩
    · rintro ⟨v, ia⟩ ⟨v', _⟩ ⟨hv, rfl⟩
      exact Rel2.bind (rel2_rd h _) fun _ _ hcv => Rel2.bind (rel2_wr h _ (hr.add hcv hv)) fun _ _ h => Rel2.pure ⟨h, rfl⟩
  · rintro ⟨s, ci, ib⟩ ⟨t, _, _⟩ ⟨h, hh⟩
    cases hh
    exact Rel2.pure ⟨h, rfl⟩

theorem multscaleTransb_rel {a : Mat R C T} {b : Mat U C T} {c : Mat R U T} {a' : Mat R C T'} {b' : Mat U C T'}
    {c' : Mat R U T'} {q q'} (ha : a.Related r a') (hb : b.Related r b') (hq : r q q') (hc : c.Related r c') :
    Rel2 (a.multscaleTransb b q c) (a'.multscaleTransb b' q' c') (Mat.Related r) := by
  unfold Mat.multscaleTransb
  refine Rel2.bind (P := fun (p : List T × Nat × Nat) (q : List T' × Nat × Nat) => List.Forall₂ r p.1 q.1 ∧ p.2 = q.2)
    (rel2_up ⟨hc, rfl⟩ ?_) fun p q h => Rel2.pure h.1
  rintro i ⟨s, ci, ia⟩ ⟨t, _, _⟩ ⟨h, hh⟩
  cases hh
  refine Rel2.bind (P := fun (p : List T × Nat × Nat) (q : List T' × Nat × Nat) => List.Forall₂ r p.1 q.1 ∧ p.2 = q.2)
    (rel2_up ⟨h, rfl⟩ ?_) ?_
  · rintro j ⟨s, ci, ib⟩ ⟨t, _, _⟩ ⟨h, hh⟩
    cases hh
    refine Rel2.bind (P := fun (p : T × Nat) (q : T' × Nat) => r p.1 q.1 ∧ p.2 = q.2) (rel2_up ⟨hr.zero, rfl⟩ ?_) ?_
    · rintro k ⟨s, ia⟩ ⟨t, _⟩ ⟨h, rfl⟩
      exact Rel2.bind (rel2_rd ha _) fun _ _ hv => Rel2.bind (rel2_rd hb _) fun _ _ hw =>
        Rel2.pure ⟨hr.add h (hr.mul hv hw), rfl⟩
    · rintro ⟨v, ia⟩ ⟨v', _⟩ ⟨hv, rfl⟩
      exact Rel2.bind (rel2_wr h _ (hr.mul hv hq)) fun _ _ h => Rel2.pure ⟨h, rfl⟩
  · rintro ⟨s, ci, ib⟩ ⟨t, _, _⟩ ⟨h, hh⟩
    cases hh
    exact Rel2.pure ⟨h, rfl⟩

theorem addInplaceB_rel {a b : Mat R C T} {a' b' : Mat R C T'} (ha : a.Related r a') (hb : b.Related r b') :
    Rel2 (a.addInplaceB b) (a'.addInplaceB b') (Mat.Related r) := by
  unfold Mat.addInplaceB
  refine Rel2.bind (rel2_down (S := List.Forall₂ r) hb fun k s t h => ?_) fun _ _ h => Rel2.pure h
  exact Rel2.bind (rel2_rd h k) fun _ _ hv => Rel2.bind (rel2_rd ha k) fun _ _ hw => rel2_wr h k (hr.add hv hw)

theorem subInplaceB_rel {a b : Mat R C T} {a' b' : Mat R C T'} (ha : a.Related r a') (hb : b.Related r b') :
    Rel2 (a.subInplaceB b) (a'.subInplaceB b') (Mat.Related r) := by
  unfold Mat.subInplaceB
  refine Rel2.bind (rel2_down (S := List.Forall₂ r) hb fun k s t h => ?_) fun _ _ h => Rel2.pure h
  exact Rel2.bind (rel2_rd ha k) fun _ _ hv => Rel2.bind (rel2_rd h k) fun _ _ hw => rel2_wr h k (hr.sub hv hw)

theorem addInplaceA_rel {a b : Mat R C T} {a' b' : Mat R C T'} (ha : a.Related r a') (hb : b.Related r b') :
    Rel2 (a.addInplaceA b) (a'.addInplaceA b') (Mat.Related r) := by
  unfold Mat.addInplaceA
  refine Rel2.bind (rel2_down (S := List.Forall₂ r) ha fun k s t h => ?_) fun _ _ h => Rel2.pure h
  exact Rel2.bind (rel2_rd h k) fun _ _ hv => Rel2.bind (rel2_rd hb k) fun _ _ hw => rel2_wr h k (hr.add hv hw)

theorem subInplaceA_rel {a b : Mat R C T} {a' b' : Mat R C T'} (ha : a.Related r a') (hb : b.Related r b') :
    Rel2 (a.subInplaceA b) (a'.subInplaceA b') (Mat.Related r) := by
  unfold Mat.subInplaceA
  refine Rel2.bind (rel2_down (S := List.Forall₂ r) ha fun k s t h => ?_) fun _ _ h => Rel2.pure h
  exact Rel2.bind (rel2_rd h k) fun _ _ hv => Rel2.bind (rel2_rd hb k) fun _ _ hw => rel2_wr h k (hr.sub hv hw)

theorem chol_rel (bld : Build) {a : Mat R C T} {a' : Mat R C T'} (ha : a.Related r a') :
    Rel2 (a.choleskyDecomposeLower bld) (a'.choleskyDecomposeLower bld) (fun p q => p.1.Related r q.1 ∧ p.2 = q.2) := by
  unfold Mat.choleskyDecomposeLower
  refine Rel2.bind (rel2_debugAssert _ _) fun _ _ _ => Rel2.bind (rel2_debugAssert _ _) fun _ _ _ => ?_
  refine Rel2.bind (P := CtlRel (fun (p : List T × T) (q : List T' × T') => List.Forall₂ r p.1 q.1 ∧ r p.2 q.2)
    (List.Forall₂ r)) (rel2_upR ⟨ha, hr.zero⟩ ?_) ?_
  · rintro i s t h
    refine rel2_upR h ?_
    rintro j ⟨s, d⟩ ⟨t, d'⟩ ⟨h, hd⟩
    refine Rel2.bind (rel2_rd h _) fun v v' hv => ?_
    refine Rel2.bind (P := fun (p : T × Nat) (q : T' × Nat) => r p.1 q.1 ∧ p.2 = q.2) (rel2_up ⟨hv, rfl⟩ ?_) ?_
    · rintro k ⟨s, ia⟩ ⟨t, _⟩ ⟨h', rfl⟩
      exact Rel2.bind (rel2_rd h _) fun _ _ hv => Rel2.bind (rel2_rd h _) fun _ _ hw =>
        Rel2.pure ⟨hr.sub h' (hr.mul hv hw), rfl⟩
    · rintro ⟨v, ia⟩ ⟨v', _⟩ ⟨hv, rfl⟩
      refine Rel2.bind (rel2_wr h _ (hr.mul hv hd)) fun s t h => ?_
      split
      · rw [hr.le hv hr.zero]
        split
        · exact Rel2.pure h
        · refine Rel2.bind (related_iff.1 (hr.squareRoot hv)) fun e e' he => ?_
          refine Rel2.bind (rel2_wr h _ he) fun s t h => ?_
          exact Rel2.bind (related_iff.1 (hr.recip he)) fun _ _ hd => Rel2.pure ⟨h, hd⟩
      · exact Rel2.pure ⟨h, hd⟩
  · rintro (⟨s, d⟩ | s) (⟨t, d'⟩ | t) h
    · refine Rel2.bind (rel2_up (S := List.Forall₂ r) h.1 fun i s t h => ?_) fun _ _ h => Rel2.pure ⟨h, rfl⟩
      exact rel2_up h fun j s t h => rel2_wr h _ hr.zero
    · exact h.elim
    · exact h.elim
    · exact Rel2.pure ⟨h, rfl⟩

theorem collect_rel {lo hi : Nat} {f : Nat → Res T} {g : Nat → Res T'} (h : ∀ k, Rel2 (f k) (g k) r) :
    Rel2 (Mat.collect lo hi f) (Mat.collect lo hi g) (List.Forall₂ r) := by
  unfold Mat.collect
  refine rel2_up .nil fun k s t hst => ?_
  exact Rel2.bind (h k) fun a b hab => Rel2.pure (List.rel_append hst (.cons hab .nil))

theorem invert_rel {a b : Mat N N T} {a' b' : Mat N N T'} (ha : a.Related r a') (hb : b.Related r b') :
    Rel2 (a.invertLCholesky b) (a'.invertLCholesky b') (Mat.Related r) := by
  unfold Mat.invertLCholesky
  refine Rel2.bind (P := List.Forall₂ r) (rel2_up hb fun i s t h => ?_) fun s t h => ?_
  · refine Rel2.bind (rel2_rd ha _) fun e e' he => Rel2.bind (related_iff.1 (hr.recip he)) fun d d' hd => ?_
    refine rel2_up h fun j s t h => ?_
    refine Rel2.bind (collect_rel hr fun k => ?_) fun ts ts' hts => ?_
    · exact Rel2.bind (rel2_rd ha _) fun _ _ hv => Rel2.bind (rel2_rd h _) fun _ _ hw => Rel2.pure (hr.mul (hr.neg hv) hw)
    · refine rel2_wr h _ (hr.mul (hr.add ?_ (hr.isum hts)) hd)
      split
      · exact hr.one
      · exact hr.zero
  · refine Rel2.bind (rel2_usub _ _) fun _ _ e => ?_
    subst e
    refine Rel2.bind (P := List.Forall₂ r) (rel2_down h fun i s t h => ?_) fun s t h => Rel2.pure h
    refine Rel2.bind (rel2_rd ha _) fun e e' he => Rel2.bind (related_iff.1 (hr.recip he)) fun d d' hd => ?_
    refine rel2_up h fun j s t h => ?_
    refine Rel2.bind (rel2_rd h _) fun v v' hv => ?_
    refine Rel2.bind (collect_rel hr fun k => ?_) fun ts ts' hts => ?_
    · exact Rel2.bind (rel2_rd ha _) fun _ _ hv => Rel2.bind (rel2_rd h _) fun _ _ hw => Rel2.pure (hr.mul (hr.neg hv) hw)
    · have h1 : r ((if i < j then 0 else v) + MDT.isum ts) ((if i < j then 0 else v') + MDT.isum ts') := by
        refine hr.add ?_ (hr.isum hts)
        split
        · exact hr.zero
        · exact hv
      exact Rel2.bind (rel2_wr h _ (hr.mul h1 hd)) fun _ _ h => rel2_wr h _ (hr.mul h1 hd)

/-! ## Steps -/

theorem applyControl_rel {c : Control n l T} {x : Mat n 1 T} {P : Mat n n T} {c' : Control n l T'} {x' : Mat n 1 T'}
    {P' : Mat n n T'} (hc : c.Related r c') (hx : x.Related r x') (hP : P.Related r P') :
    Rel2 (c.applyControl x P) (c'.applyControl x' P')
      (fun a b => a.1.Related r b.1 ∧ a.2.1.Related r b.2.1 ∧ a.2.2.Related r b.2.2) := by
  unfold Control.applyControl
  have e : (c.u.isEmpty || c.B.isEmpty) = (c'.u.isEmpty || c'.B.isEmpty) := rfl
  rw [e]
  split
  · exact Rel2.pure ⟨hc, hx, hP⟩
  · refine Rel2.bind (multaddRowvector_rel hr hc.B hc.u hx) fun x x' hx => ?_
    refine Rel2.bind (mult_rel hr hc.B hc.Q hc.tempBQ) fun t t' ht => ?_
    exact Rel2.bind (multaddTransb_rel hr ht hc.B hP) fun P P' hP => Rel2.pure ⟨⟨hc.B, hc.u, hc.Q, ht⟩, hx, hP⟩

theorem updateWithInnovation_rel (bld : Build) {o : RegularObservation n m T} {x : Mat n 1 T} {P : Mat n n T}
    {o' : RegularObservation n m T'} {x' : Mat n 1 T'} {P' : Mat n n T'} (ho : o.Related r o') (hx : x.Related r x')
    (hP : P.Related r P') : Rel2 (o.updateWithInnovation bld x P) (o'.updateWithInnovation bld x' P')
      (fun a b => a.1.Related r b.1 ∧ a.2.1.Related r b.2.1 ∧ a.2.2.Related r b.2.2) := by
  unfold RegularObservation.updateWithInnovation
  refine Rel2.bind (mult_rel hr ho.H hP ho.tempHP) fun _ _ hHP => ?_
  refine Rel2.bind (multTransb_rel hr hHP ho.H ho.S) fun _ _ hS => ?_
  refine Rel2.bind (addInplaceA_rel hr hS ho.R) fun _ _ hS => ?_
  refine Rel2.bind (chol_rel hr bld hS) ?_
  rintro ⟨S, b⟩ ⟨S', _⟩ ⟨hS, rfl⟩
  refine Rel2.bind (invert_rel hr hS ho.tempSInv) fun _ _ hI => ?_
  refine Rel2.bind (multTransb_rel hr hP ho.H ho.tempPHt) fun _ _ hPHt => ?_
  refine Rel2.bind (mult_rel hr hPHt hI ho.K) fun _ _ hK => ?_
  refine Rel2.bind (multaddRowvector_rel hr hK ho.y hx) fun _ _ hx => ?_
  refine Rel2.bind (mult_rel hr ho.H hP hHP) fun _ _ hHP => ?_
  refine Rel2.bind (mult_rel hr hK hHP ho.tempKHP) fun _ _ hKHP => ?_
  refine Rel2.bind (subInplaceA_rel hr hP hKHP) fun _ _ hP => ?_
  exact Rel2.pure ⟨⟨ho.H, ho.z, ho.R, ho.y, hS, hK, hI, hHP, hPHt, hKHP⟩, hx, hP⟩

theorem xupdateWithInnovation_rel (bld : Build) {o : ExtendedObservation n m T} {x : Mat n 1 T} {P : Mat n n T}
    {o' : ExtendedObservation n m T'} {x' : Mat n 1 T'} {P' : Mat n n T'} (ho : o.Related r o') (hx : x.Related r x')
    (hP : P.Related r P') : Rel2 (o.updateWithInnovation bld x P) (o'.updateWithInnovation bld x' P')
      (fun a b => a.1.Related r b.1 ∧ a.2.1.Related r b.2.1 ∧ a.2.2.Related r b.2.2) := by
  unfold ExtendedObservation.updateWithInnovation
  refine Rel2.bind (mult_rel hr ho.H hP ho.tempHP) fun _ _ hHP => ?_
  refine Rel2.bind (multTransb_rel hr hHP ho.H ho.S) fun _ _ hS => ?_
  refine Rel2.bind (addInplaceA_rel hr hS ho.R) fun _ _ hS => ?_
  refine Rel2.bind (chol_rel hr bld hS) ?_
  rintro ⟨S, b⟩ ⟨S', _⟩ ⟨hS, rfl⟩
  refine Rel2.bind (invert_rel hr hS ho.tempSInv) fun _ _ hI => ?_
  refine Rel2.bind (multTransb_rel hr hP ho.H ho.tempPHt) fun _ _ hPHt => ?_
  refine Rel2.bind (mult_rel hr hPHt hI ho.K) fun _ _ hK => ?_
  refine Rel2.bind (multaddRowvector_rel hr hK ho.y hx) fun _ _ hx => ?_
  refine Rel2.bind (mult_rel hr ho.H hP hHP) fun _ _ hHP => ?_
  refine Rel2.bind (mult_rel hr hK hHP ho.tempKHP) fun _ _ hKHP => ?_
  refine Rel2.bind (subInplaceA_rel hr hP hKHP) fun _ _ hP => ?_
  exact Rel2.pure ⟨⟨ho.H, ho.z, ho.R, ho.y, hS, hK, hI, hHP, hPHt, hKHP⟩, hx, hP⟩

theorem predictX_rel {f : RegularKalman n T} {g : RegularKalman n T'} (h : f.Related r g) :
    Rel2 f.predictX g.predictX (RegularKalman.Related r) := by
  unfold RegularKalman.predictX
  refine Rel2.bind (multRowvector_rel hr h.A h.x h.predictedX) fun _ _ hp => ?_
  exact Rel2.bind (copyTo_rel hp h.x) fun _ _ hx => Rel2.pure ⟨hx, h.A, h.P, h.Q, hp, h.tempP⟩

theorem predict_rel {f : RegularKalman n T} {g : RegularKalman n T'} (h : f.Related r g) :
    Rel2 f.predict g.predict (RegularKalman.Related r) := by
  unfold RegularKalman.predict
  refine Rel2.bind (predictX_rel hr h) fun f g h => ?_
  unfold RegularKalman.predictP
  refine Rel2.bind (mult_rel hr h.A h.P h.tempP) fun _ _ ht => ?_
  refine Rel2.bind (multTransb_rel hr ht h.A h.P) fun _ _ hP => ?_
  exact Rel2.bind (addInplaceB_rel hr h.Q hP) fun _ _ hP => Rel2.pure ⟨h.x, h.A, hP, h.Q, h.predictedX, ht⟩

theorem predictTuned_rel {f : RegularKalman n T} {g : RegularKalman n T'} (h : f.Related r g) {a b} (hab : r a b) :
    Rel2 (f.predictTuned a) (g.predictTuned b) (RegularKalman.Related r) := by
  unfold RegularKalman.predictTuned
  refine Rel2.bind (predictX_rel hr h) fun f g h => ?_
  unfold RegularKalman.predictPTuned
  refine Rel2.bind (related_iff.1 (hr.recip (hr.mul hab hab))) fun q q' hq => ?_
  refine Rel2.bind (mult_rel hr h.A h.P h.tempP) fun _ _ ht => ?_
  refine Rel2.bind (multscaleTransb_rel hr ht h.A hq h.P) fun _ _ hP => ?_
  exact Rel2.bind (addInplaceB_rel hr h.Q hP) fun _ _ hP => Rel2.pure ⟨h.x, h.A, hP, h.Q, h.predictedX, ht⟩

theorem control_rel {f : RegularKalman n T} {g : RegularKalman n T'} (h : f.Related r g) {c : Control n l T}
    {d : Control n l T'} (hc : c.Related r d) :
    Rel2 (f.control c) (g.control d) (fun a b => a.1.Related r b.1 ∧ a.2.Related r b.2) := by
  unfold RegularKalman.control
  refine Rel2.bind (applyControl_rel hr hc h.x h.P) ?_
  rintro ⟨c, x, P⟩ ⟨d, y, S⟩ ⟨hc, hx, hP⟩
  exact Rel2.pure ⟨⟨hx, h.A, hP, h.Q, h.predictedX, h.tempP⟩, hc⟩

theorem kcorrect_rel (bld : Build) {f : RegularKalman n T} {g : RegularKalman n T'} (h : f.Related r g)
    {o : RegularObservation n m T} {p : RegularObservation n m T'} (ho : o.Related r p) :
    Rel2 (f.correct bld o) (g.correct bld p) (fun a b => a.1.Related r b.1 ∧ a.2.Related r b.2) := by
  unfold RegularKalman.correct RegularObservation.correct
  refine Rel2.bind (P := fun a b => a.1.Related r b.1 ∧ a.2.1.Related r b.2.1 ∧ a.2.2.Related r b.2.2) ?_ ?_
  · refine Rel2.bind (multRowvector_rel hr ho.H h.x ho.y) fun _ _ hy => ?_
    refine Rel2.bind (subInplaceB_rel hr ho.z hy) fun _ _ hy => ?_
    exact updateWithInnovation_rel hr bld ⟨ho.H, ho.z, ho.R, hy, ho.S, ho.K, ho.tempSInv, ho.tempHP, ho.tempPHt, ho.tempKHP⟩
      h.x h.P
  · rintro ⟨c, x, P⟩ ⟨d, y, S⟩ ⟨hc, hx, hP⟩
    exact Rel2.pure ⟨⟨hx, h.A, hP, h.Q, h.predictedX, h.tempP⟩, hc⟩

/-! ## Programs -/

omit hr in
theorem withCtl_rel {w : World n T} {w' : World n T'} (h : w.Related r w') (i : Nat)
    {g : (l : Nat) → Control n l T → Res (Control n l T)} {g' : (l : Nat) → Control n l T' → Res (Control n l T')}
    (hg : ∀ {l : Nat} {c : Control n l T} {d : Control n l T'}, c.Related r d → Rel2 (g l c) (g' l d) (Control.Related r)) :
    Rel2 (w.withCtl i g) (w'.withCtl i g') (World.Related r) := by
  unfold World.withCtl
  have hi := rel2_rd h.ctl i
  unfold rd at hi
  revert hi
  cases w.ctl[i]? with
  | none => cases w'.ctl[i]? with
    | none => intro _; exact Rel2.error _
    | some d => rintro (⟨e, _, h2⟩ | ⟨a, b, h1, _⟩) <;> contradiction
  | some c => cases w'.ctl[i]? with
    | none => rintro (⟨e, h1, h2⟩ | ⟨a, b, h1, h2, _⟩) <;> contradiction
    | some d =>
      rintro (⟨e, h1, _⟩ | ⟨a, b, h1, h2, h3⟩)
      · contradiction
      · cases h1; cases h2
        cases h3 with
        | mk hc => exact Rel2.bind (hg hc) fun c d hc => Rel2.pure ⟨h.kf, forall₂_set' h.ctl i (.mk hc), h.obs⟩

omit hr in
theorem withObs_rel {w : World n T} {w' : World n T'} (h : w.Related r w') (i : Nat)
    {g : (m : Nat) → RegularObservation n m T → Res (RegularObservation n m T)}
    {g' : (m : Nat) → RegularObservation n m T' → Res (RegularObservation n m T')}
    (hg : ∀ {m : Nat} {c : RegularObservation n m T} {d : RegularObservation n m T'}, c.Related r d →
      Rel2 (g m c) (g' m d) (RegularObservation.Related r)) :
    Rel2 (w.withObs i g) (w'.withObs i g') (World.Related r) := by
  unfold World.withObs
  have hi := rel2_rd h.obs i
  unfold rd at hi
  revert hi
  cases w.obs[i]? with
  | none => cases w'.obs[i]? with
    | none => intro _; exact Rel2.error _
    | some d => rintro (⟨e, _, h2⟩ | ⟨a, b, h1, _⟩) <;> contradiction
  | some c => cases w'.obs[i]? with
    | none => rintro (⟨e, h1, h2⟩ | ⟨a, b, h1, h2, _⟩) <;> contradiction
    | some d =>
      rintro (⟨e, h1, _⟩ | ⟨a, b, h1, h2, h3⟩)
      · contradiction
      · cases h1; cases h2
        cases h3 with
        | mk hc => exact Rel2.bind (hg hc) fun c d hc => Rel2.pure ⟨h.kf, h.ctl, forall₂_set' h.obs i (.mk hc)⟩

theorem step_rel (bld : Build) {w : World n T} {w' : World n T'} (h : w.Related r w') {op : Op T} {op' : Op T'}
    (hop : op.Related r op') : Rel2 (w.step bld op) (w'.step bld op') (World.Related r) := by
  cases hop with
  | predict => exact Rel2.bind (predict_rel hr h.kf) fun _ _ hk => Rel2.pure ⟨hk, h.ctl, h.obs⟩
  | predictTuned hab => exact Rel2.bind (predictTuned_rel hr h.kf hab) fun _ _ hk => Rel2.pure ⟨hk, h.ctl, h.obs⟩
  | control i =>
    unfold World.step
    dsimp only
    have hi := rel2_rd h.ctl i
    unfold rd at hi
    revert hi
    cases w.ctl[i]? with
    | none => cases w'.ctl[i]? with
      | none => intro _; exact Rel2.error _
      | some d => rintro (⟨e, _, h2⟩ | ⟨a, b, h1, _⟩) <;> contradiction
    | some c => cases w'.ctl[i]? with
      | none => rintro (⟨e, h1, h2⟩ | ⟨a, b, h1, h2, _⟩) <;> contradiction
      | some d =>
        rintro (⟨e, h1, _⟩ | ⟨a, b, h1, h2, h3⟩)
        · contradiction
        · cases h1; cases h2
          cases h3 with
          | mk hc =>
            refine Rel2.bind (control_rel hr h.kf hc) ?_
            rintro ⟨f, c⟩ ⟨g, d⟩ ⟨hf, hc⟩
            exact Rel2.pure ⟨hf, forall₂_set' h.ctl i (.mk hc), h.obs⟩
  | correct i =>
    unfold World.step
    dsimp only
    have hi := rel2_rd h.obs i
    unfold rd at hi
    revert hi
    cases w.obs[i]? with
    | none => cases w'.obs[i]? with
      | none => intro _; exact Rel2.error _
      | some d => rintro (⟨e, _, h2⟩ | ⟨a, b, h1, _⟩) <;> contradiction
    | some c => cases w'.obs[i]? with
      | none => rintro (⟨e, h1, h2⟩ | ⟨a, b, h1, h2, _⟩) <;> contradiction
      | some d =>
        rintro (⟨e, h1, _⟩ | ⟨a, b, h1, h2, h3⟩)
        · contradiction
        · cases h1; cases h2
          cases h3 with
          | mk hc =>
            refine Rel2.bind (kcorrect_rel hr bld h.kf hc) ?_
            rintro ⟨f, c⟩ ⟨g, d⟩ ⟨hf, hc⟩
            exact Rel2.pure ⟨hf, h.ctl, forall₂_set' h.obs i (.mk hc)⟩
  | setX hv => exact Rel2.bind (copyFromSlice_rel h.kf.x hv) fun _ _ k =>
      Rel2.pure ⟨⟨k, h.kf.A, h.kf.P, h.kf.Q, h.kf.predictedX, h.kf.tempP⟩, h.ctl, h.obs⟩
  | setA hv => exact Rel2.bind (copyFromSlice_rel h.kf.A hv) fun _ _ k =>
      Rel2.pure ⟨⟨h.kf.x, k, h.kf.P, h.kf.Q, h.kf.predictedX, h.kf.tempP⟩, h.ctl, h.obs⟩
  | setP hv => exact Rel2.bind (copyFromSlice_rel h.kf.P hv) fun _ _ k =>
      Rel2.pure ⟨⟨h.kf.x, h.kf.A, k, h.kf.Q, h.kf.predictedX, h.kf.tempP⟩, h.ctl, h.obs⟩
  | setQ hv => exact Rel2.bind (copyFromSlice_rel h.kf.Q hv) fun _ _ k =>
      Rel2.pure ⟨⟨h.kf.x, h.kf.A, h.kf.P, k, h.kf.predictedX, h.kf.tempP⟩, h.ctl, h.obs⟩
  | setU i hv => exact withCtl_rel h i fun hc => (Rel2.bind (copyFromSlice_rel hc.u hv) fun _ _ k =>
      Rel2.pure (.mk hc.B k hc.Q hc.tempBQ))
  | setB i hv => exact withCtl_rel h i fun hc => (Rel2.bind (copyFromSlice_rel hc.B hv) fun _ _ k =>
      Rel2.pure (.mk k hc.u hc.Q hc.tempBQ))
  | setQc i hv => exact withCtl_rel h i fun hc => (Rel2.bind (copyFromSlice_rel hc.Q hv) fun _ _ k =>
      Rel2.pure (.mk hc.B hc.u k hc.tempBQ))
  | setZ i hv => exact withObs_rel h i fun ho => (Rel2.bind (copyFromSlice_rel ho.z hv) fun _ _ k =>
      Rel2.pure (.mk ho.H k ho.R ho.y ho.S ho.K ho.tempSInv ho.tempHP ho.tempPHt ho.tempKHP))
  | setH i hv => exact withObs_rel h i fun ho => (Rel2.bind (copyFromSlice_rel ho.H hv) fun _ _ k =>
      Rel2.pure (.mk k ho.z ho.R ho.y ho.S ho.K ho.tempSInv ho.tempHP ho.tempPHt ho.tempKHP))
  | setR i hv => exact withObs_rel h i fun ho => (Rel2.bind (copyFromSlice_rel ho.R hv) fun _ _ k =>
      Rel2.pure (.mk ho.H ho.z k ho.y ho.S ho.K ho.tempSInv ho.tempHP ho.tempPHt ho.tempKHP))

theorem run_rel (bld : Build) {w : World n T} {w' : World n T'} (h : w.Related r w') {ops : List (Op T)}
    {ops' : List (Op T')} (hops : List.Forall₂ (Op.Related r) ops ops') :
    Rel2 (w.run bld ops) (w'.run bld ops') (World.Related r) := by
  induction hops generalizing w w' with
  | nil => exact Rel2.ok h
  | cons ho _ ih => exact Rel2.bind (step_rel hr bld h ho) fun _ _ h => ih h

/-! ## Extended filter -/

variable {e : σ → σ' → Prop}

theorem xpredictX_rel {f : ExtendedKalman n T} {g : ExtendedKalman n T'} (h : f.Related r g)
    {t : σ → Mat n 1 T → Mat n 1 T → Res (σ × Mat n 1 T)} {t' : σ' → Mat n 1 T' → Mat n 1 T' → Res (σ' × Mat n 1 T')}
    (ht : ClosureRelated e r t t') {st : σ} {st' : σ'} (hst : e st st') :
    Rel2 (f.predictXNonlinear t st) (g.predictXNonlinear t' st') (fun a b => e a.1 b.1 ∧ a.2.Related r b.2) := by
  unfold ExtendedKalman.predictXNonlinear
  refine Rel2.bind (related_iff.1 (ht _ _ _ _ _ _ hst h.x h.predictedX)) ?_
  rintro ⟨st, p⟩ ⟨st', p'⟩ ⟨hst, hp⟩
  exact Rel2.bind (copyTo_rel hp h.x) fun _ _ hx => Rel2.pure ⟨hst, hx, h.A, h.P, h.Q, hp, h.tempP⟩

theorem xpredict_rel {f : ExtendedKalman n T} {g : ExtendedKalman n T'} (h : f.Related r g)
    {t : σ → Mat n 1 T → Mat n 1 T → Res (σ × Mat n 1 T)} {t' : σ' → Mat n 1 T' → Mat n 1 T' → Res (σ' × Mat n 1 T')}
    (ht : ClosureRelated e r t t') {st : σ} {st' : σ'} (hst : e st st') :
    Rel2 (f.predictNonlinear t st) (g.predictNonlinear t' st') (fun a b => e a.1 b.1 ∧ a.2.Related r b.2) := by
  unfold ExtendedKalman.predictNonlinear
  refine Rel2.bind (xpredictX_rel hr h ht hst) ?_
  rintro ⟨st, f⟩ ⟨st', g⟩ ⟨hst, h⟩
  refine Rel2.bind (P := ExtendedKalman.Related r) ?_ fun _ _ h => Rel2.pure ⟨hst, h⟩
  unfold ExtendedKalman.predictP
  refine Rel2.bind (mult_rel hr h.A h.P h.tempP) fun _ _ ht => ?_
  refine Rel2.bind (multTransb_rel hr ht h.A h.P) fun _ _ hP => ?_
  exact Rel2.bind (addInplaceB_rel hr h.Q hP) fun _ _ hP => Rel2.pure ⟨h.x, h.A, hP, h.Q, h.predictedX, ht⟩

theorem xpredictTuned_rel {f : ExtendedKalman n T} {g : ExtendedKalman n T'} (h : f.Related r g) {a b} (hab : r a b)
    {t : σ → Mat n 1 T → Mat n 1 T → Res (σ × Mat n 1 T)} {t' : σ' → Mat n 1 T' → Mat n 1 T' → Res (σ' × Mat n 1 T')}
    (ht : ClosureRelated e r t t') {st : σ} {st' : σ'} (hst : e st st') :
    Rel2 (f.predictTunedNonlinear a t st) (g.predictTunedNonlinear b t' st') (fun a b => e a.1 b.1 ∧ a.2.Related r b.2) := by
  unfold ExtendedKalman.predictTunedNonlinear
  refine Rel2.bind (xpredictX_rel hr h ht hst) ?_
  rintro ⟨st, f⟩ ⟨st', g⟩ ⟨hst, h⟩
  refine Rel2.bind (P := ExtendedKalman.Related r) ?_ fun _ _ h => Rel2.pure ⟨hst, h⟩
  unfold ExtendedKalman.predictPTuned
  refine Rel2.bind (related_iff.1 (hr.recip (hr.mul hab hab))) fun q q' hq => ?_
  refine Rel2.bind (mult_rel hr h.A h.P h.tempP) fun _ _ ht => ?_
  refine Rel2.bind (multscaleTransb_rel hr ht h.A hq h.P) fun _ _ hP => ?_
  exact Rel2.bind (addInplaceB_rel hr h.Q hP) fun _ _ hP => Rel2.pure ⟨h.x, h.A, hP, h.Q, h.predictedX, ht⟩

theorem xcorrect_rel (bld : Build) {f : ExtendedKalman n T} {g : ExtendedKalman n T'} (h : f.Related r g)
    {o : ExtendedObservation n m T} {p : ExtendedObservation n m T'} (ho : o.Related r p)
    {t : σ → Mat n 1 T → Mat m 1 T → Res (σ × Mat m 1 T)} {t' : σ' → Mat n 1 T' → Mat m 1 T' → Res (σ' × Mat m 1 T')}
    (ht : ClosureRelated e r t t') {st : σ} {st' : σ'} (hst : e st st') :
    Rel2 (f.correctNonlinear bld o t st) (g.correctNonlinear bld p t' st')
      (fun a b => e a.1 b.1 ∧ a.2.1.Related r b.2.1 ∧ a.2.2.Related r b.2.2) := by
  unfold ExtendedKalman.correctNonlinear ExtendedObservation.correctNonlinear
  refine Rel2.bind (P := fun a b => e a.1 b.1 ∧ a.2.1.Related r b.2.1 ∧ a.2.2.1.Related r b.2.2.1 ∧
    a.2.2.2.Related r b.2.2.2) ?_ ?_
  · refine Rel2.bind (related_iff.1 (ht _ _ _ _ _ _ hst h.x ho.y)) ?_
    rintro ⟨st, y⟩ ⟨st', y'⟩ ⟨hst, hy⟩
    refine Rel2.bind (subInplaceB_rel hr ho.z hy) fun _ _ hy => ?_
    exact Rel2.bind (xupdateWithInnovation_rel hr bld
      ⟨ho.H, ho.z, ho.R, hy, ho.S, ho.K, ho.tempSInv, ho.tempHP, ho.tempPHt, ho.tempKHP⟩ h.x h.P)
      fun _ _ h => Rel2.pure ⟨hst, h⟩
  · rintro ⟨st, c, x, P⟩ ⟨st', d, y, S⟩ ⟨hst, hc, hx, hP⟩
    exact Rel2.pure ⟨hst, ⟨hx, h.A, hP, h.Q, h.predictedX, h.tempP⟩, hc⟩

omit hr in
theorem xwithObs_rel {w : XWorld n T σ} {w' : XWorld n T' σ'} (h : w.Related e r w') (i : Nat)
    {g : (m : Nat) → ExtendedObservation n m T → Res (ExtendedObservation n m T)}
    {g' : (m : Nat) → ExtendedObservation n m T' → Res (ExtendedObservation n m T')}
    (hg : ∀ {m : Nat} {c : ExtendedObservation n m T} {d : ExtendedObservation n m T'}, c.Related r d →
      Rel2 (g m c) (g' m d) (ExtendedObservation.Related r)) :
    Rel2 (w.withObs i g) (w'.withObs i g') (XWorld.Related e r) := by
  unfold XWorld.withObs
  have hi := rel2_rd h.obs i
  unfold rd at hi
  revert hi
  cases w.obs[i]? with
  | none => cases w'.obs[i]? with
    | none => intro _; exact Rel2.error _
    | some d => rintro (⟨e, _, h2⟩ | ⟨a, b, h1, _⟩) <;> contradiction
  | some c => cases w'.obs[i]? with
    | none => rintro (⟨e, h1, h2⟩ | ⟨a, b, h1, h2, _⟩) <;> contradiction
    | some d =>
      rintro (⟨e, h1, _⟩ | ⟨a, b, h1, h2, h3⟩)
      · contradiction
      · cases h1; cases h2
        cases h3 with
        | mk hc => exact Rel2.bind (hg hc) fun c d hc => Rel2.pure ⟨h.kf, forall₂_set' h.obs i (.mk hc), h.env⟩

theorem xstep_rel (bld : Build) {w : XWorld n T σ} {w' : XWorld n T' σ'} (h : w.Related e r w') {op : XOp n T σ}
    {op' : XOp n T' σ'} (hop : op.Related e r op') : Rel2 (w.step bld op) (w'.step bld op') (XWorld.Related e r) := by
  cases hop with
  | predict hg =>
    refine Rel2.bind (xpredict_rel hr h.kf hg h.env) ?_
    rintro ⟨st, f⟩ ⟨st', g⟩ ⟨hst, hk⟩
    exact Rel2.pure ⟨hk, h.obs, hst⟩
  | predictTuned hab hg =>
    refine Rel2.bind (xpredictTuned_rel hr h.kf hab hg h.env) ?_
    rintro ⟨st, f⟩ ⟨st', g⟩ ⟨hst, hk⟩
    exact Rel2.pure ⟨hk, h.obs, hst⟩
  | correct i hh =>
    unfold XWorld.step
    dsimp only
    have hi := rel2_rd h.obs i
    unfold rd at hi
    revert hi
    cases w.obs[i]? with
    | none => cases w'.obs[i]? with
      | none => intro _; exact Rel2.error _
      | some d => rintro (⟨e, _, h2⟩ | ⟨a, b, h1, _⟩) <;> contradiction
    | some c => cases w'.obs[i]? with
      | none => rintro (⟨e, h1, h2⟩ | ⟨a, b, h1, h2, _⟩) <;> contradiction
      | some d =>
        rintro (⟨e, h1, _⟩ | ⟨a, b, h1, h2, h3⟩)
        · contradiction
        · cases h1; cases h2
          cases h3 with
          | mk hc =>
            refine Rel2.bind (xcorrect_rel hr bld h.kf hc (hh _) h.env) ?_
            rintro ⟨st, f, c⟩ ⟨st', g, d⟩ ⟨hst, hf, hc⟩
            exact Rel2.pure ⟨hf, forall₂_set' h.obs i (.mk hc), hst⟩
  | assign ha =>
    cases ha with
    | x hv => exact Rel2.bind (copyFromSlice_rel h.kf.x hv) fun _ _ k =>
        Rel2.pure ⟨⟨k, h.kf.A, h.kf.P, h.kf.Q, h.kf.predictedX, h.kf.tempP⟩, h.obs, h.env⟩
    | A hv => exact Rel2.bind (copyFromSlice_rel h.kf.A hv) fun _ _ k =>
        Rel2.pure ⟨⟨h.kf.x, k, h.kf.P, h.kf.Q, h.kf.predictedX, h.kf.tempP⟩, h.obs, h.env⟩
    | P hv => exact Rel2.bind (copyFromSlice_rel h.kf.P hv) fun _ _ k =>
        Rel2.pure ⟨⟨h.kf.x, h.kf.A, k, h.kf.Q, h.kf.predictedX, h.kf.tempP⟩, h.obs, h.env⟩
    | Q hv => exact Rel2.bind (copyFromSlice_rel h.kf.Q hv) fun _ _ k =>
        Rel2.pure ⟨⟨h.kf.x, h.kf.A, h.kf.P, k, h.kf.predictedX, h.kf.tempP⟩, h.obs, h.env⟩
    | z i hv => exact xwithObs_rel h i fun ho => (Rel2.bind (copyFromSlice_rel ho.z hv) fun _ _ k =>
      Rel2.pure (.mk ho.H k ho.R ho.y ho.S ho.K ho.tempSInv ho.tempHP ho.tempPHt ho.tempKHP))
    | H i hv => exact xwithObs_rel h i fun ho => (Rel2.bind (copyFromSlice_rel ho.H hv) fun _ _ k =>
      Rel2.pure (.mk k ho.z ho.R ho.y ho.S ho.K ho.tempSInv ho.tempHP ho.tempPHt ho.tempKHP))
    | R i hv => exact xwithObs_rel h i fun ho => (Rel2.bind (copyFromSlice_rel ho.R hv) fun _ _ k =>
      Rel2.pure (.mk ho.H ho.z k ho.y ho.S ho.K ho.tempSInv ho.tempHP ho.tempPHt ho.tempKHP))

theorem xrun_rel (bld : Build) {w : XWorld n T σ} {w' : XWorld n T' σ'} (h : w.Related e r w') {ops : List (XOp n T σ)}
    {ops' : List (XOp n T' σ')} (hops : List.Forall₂ (XOp.Related e r) ops ops') :
    Rel2 (w.run bld ops) (w'.run bld ops') (XWorld.Related e r) := by
  induction hops generalizing w w' with
  | nil => exact Rel2.ok h
  | cons ho _ ih => exact Rel2.bind (xstep_rel hr bld h ho) fun _ _ h => ih h

end Kernels
end Param
end Minikalman
