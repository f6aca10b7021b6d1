import Verif.Model.Checked
import Verif.Proofs.Limit

/-!
# Simulation between programs whose element types may panic

If the program with element type `X` succeeds then the programs of the family `T k` succeed, in a sense given by a `Mode`
(`for all k`, `eventually`, `up to panics of a certain kind`), with related results; if it panics then so do they, in the sense of
the mode. Proved once for all functions of the model.
-/

set_option linter.unusedSectionVars false

namespace Minikalman

/-- A sense in which a family of computations succeeds, and one in which it panics. -/
structure Mode (ι : Type) where
  holds : ∀ {α : ι → Type}, (∀ k, Res (α k)) → ((∀ k, α k) → Prop) → Prop
  fails : ∀ {α : ι → Type}, (∀ k, Res (α k)) → Panic → Prop
  ok : ∀ {α : ι → Type} {P : (∀ k, α k) → Prop} {s : ∀ k, α k}, P s → holds (fun k => .ok (s k)) P
  bind : ∀ {α β : ι → Type} {P : (∀ k, α k) → Prop} {Q : (∀ k, β k) → Prop} {c : ∀ k, Res (α k)} {f : ∀ k, α k → Res (β k)},
    holds c P → (∀ s, P s → holds (fun k => f k (s k)) Q) → holds (fun k => c k >>= f k) Q
  error : ∀ {α : ι → Type} (e : Panic), fails (α := α) (fun _ => .error e) e
  bind_error : ∀ {α β : ι → Type} {c : ∀ k, Res (α k)} {f : ∀ k, α k → Res (β k)} {e : Panic},
    fails c e → fails (fun k => c k >>= f k) e
  bind_fails : ∀ {α β : ι → Type} {P : (∀ k, α k) → Prop} {c : ∀ k, Res (α k)} {f : ∀ k, α k → Res (β k)} {e : Panic},
    holds c P → (∀ s, P s → fails (fun k => f k (s k)) e) → fails (fun k => c k >>= f k) e

namespace Mode
variable {ι : Type} (M : Mode ι) {α α' ρ : ι → Type} {β β' τ : Type}

/-- If `d` succeeds then so does the family `c`, with related results; if it panics then so does the family. -/
def Sim (c : ∀ k, Res (α k)) (d : Res β) (S : (∀ k, α k) → β → Prop) : Prop :=
  (∀ t, d = .ok t → M.holds c fun s => S s t) ∧ ∀ e, d = .error e → M.fails c e

variable {M}

theorem Sim.bind {c : ∀ k, Res (α k)} {f : ∀ k, α k → Res (α' k)} {d : Res β} {g : β → Res β'} {S : (∀ k, α k) → β → Prop}
    {S' : (∀ k, α' k) → β' → Prop} (h : M.Sim c d S) (hf : ∀ s t, S s t → M.Sim (fun k => f k (s k)) (g t) S') :
    M.Sim (fun k => c k >>= f k) (d >>= g) S' := by
  cases d with
  | error e => exact ⟨fun _ h => (nomatch h), fun e' h' => by cases h'; exact M.bind_error (h.2 e rfl)⟩
  | ok t => exact ⟨fun u hu => M.bind (h.1 t rfl) fun s hs => (hf s t hs).1 u hu,
      fun e he => M.bind_fails (h.1 t rfl) fun s hs => (hf s t hs).2 e he⟩

theorem Sim.ok {S : (∀ k, α k) → β → Prop} {s : ∀ k, α k} {t : β} (h : S s t) : M.Sim (fun k => (.ok (s k))) (.ok t) S := by
  refine ⟨fun t' ht => ?_, fun _ h => nomatch h⟩
  cases ht
  exact M.ok h

theorem Sim.pure {S : (∀ k, α k) → β → Prop} {s : ∀ k, α k} {t : β} (h : S s t) :
    M.Sim (fun k => (Pure.pure (s k) : Res (α k))) (Pure.pure t) S := Sim.ok h

theorem Sim.error {c : ∀ k, Res (α k)} {S : (∀ k, α k) → β → Prop} (e : Panic) (h : ∀ k, c k = .error e) : M.Sim c (.error e) S := by
  obtain rfl : c = fun _ => .error e := funext h
  exact ⟨fun _ h => (nomatch h), fun e' h => by cases h; exact M.error e⟩

theorem Sim.up {S : (∀ k, α k) → β → Prop} {lo hi : Nat} {b₁ : ∀ k, Nat → α k → Res (α k)} {b₂ : Nat → β → Res β}
    {s₁ : ∀ k, α k} {s₂ : β} (h0 : S s₁ s₂) (hstep : ∀ i s t, S s t → M.Sim (fun k => b₁ k i (s k)) (b₂ i t) S) :
    M.Sim (fun k => forUp lo hi (b₁ k) (s₁ k)) (forUp lo hi b₂ s₂) S := by
  unfold forUp
  generalize hi - lo = N
  induction N generalizing lo s₁ s₂ with
  | zero => exact Sim.ok h0
  | succ N ih =>
    unfold forCount
    exact Sim.bind (hstep lo s₁ s₂ h0) fun s t hst => ih hst

theorem Sim.down {S : (∀ k, α k) → β → Prop} {N : Nat} {b₁ : ∀ k, Nat → α k → Res (α k)} {b₂ : Nat → β → Res β}
    {s₁ : ∀ k, α k} {s₂ : β} (h0 : S s₁ s₂) (hstep : ∀ i s t, S s t → M.Sim (fun k => b₁ k i (s k)) (b₂ i t) S) :
    M.Sim (fun k => forDown N (b₁ k) (s₁ k)) (forDown N b₂ s₂) S := by
  induction N generalizing s₁ s₂ with
  | zero => exact Sim.ok h0
  | succ N ih =>
    unfold forDown
    exact Sim.bind (hstep N s₁ s₂ h0) fun s t hst => ih hst

/-- Both continue, or both return, with related states. -/
inductive CtlSim (S : (∀ k, α k) → β → Prop) (S' : (∀ k, ρ k) → τ → Prop) : (∀ k, Ctl (α k) (ρ k)) → Ctl β τ → Prop
  | cont {s t} (h : S s t) : CtlSim S S' (fun k => .cont (s k)) (.cont t)
  | ret {s t} (h : S' s t) : CtlSim S S' (fun k => .ret (s k)) (.ret t)

theorem forCountR_succ {σ ρ : Type} (N lo : Nat) (body : Nat → σ → Res (Ctl σ ρ)) (s : σ) :
    forCountR (N + 1) lo body s = (body lo s >>= fun c => match c with
      | .ret r => .ok (.ret r)
      | .cont s => forCountR N (lo + 1) body s) := by
  rw [forCountR]
  cases body lo s with
  | error e => rfl
  | ok c => cases c <;> rfl

theorem Sim.upR {S : (∀ k, α k) → β → Prop} {S' : (∀ k, ρ k) → τ → Prop} {lo hi : Nat}
    {b₁ : ∀ k, Nat → α k → Res (Ctl (α k) (ρ k))} {b₂ : Nat → β → Res (Ctl β τ)} {s₁ : ∀ k, α k} {s₂ : β} (h0 : S s₁ s₂)
    (hstep : ∀ i s t, S s t → M.Sim (fun k => b₁ k i (s k)) (b₂ i t) (CtlSim S S')) :
    M.Sim (fun k => forUpR lo hi (b₁ k) (s₁ k)) (forUpR lo hi b₂ s₂) (CtlSim S S') := by
  unfold forUpR
  generalize hi - lo = N
  induction N generalizing lo s₁ s₂ with
  | zero => exact Sim.ok (s := fun k => Ctl.cont (s₁ k)) (CtlSim.cont h0)
  | succ N ih =>
    simp only [forCountR_succ]
    refine Sim.bind (hstep lo s₁ s₂ h0) fun s t hst => ?_
    cases hst with
    | cont h => exact ih h
    | ret h => exact Sim.ok (.ret h)

theorem sim_const {d : Res τ} : M.Sim (fun _ => d) d (fun (s : ι → τ) t => s = fun _ => t) := by
  cases d with
  | ok t => exact Sim.ok (s := fun _ => t) rfl
  | error e => exact Sim.error e fun _ => rfl

theorem none_of_tends {r : (∀ k, α k) → β → Prop} {s : ∀ k, List (α k)} {t : List β} (h : ListTends r s t) {i : Nat}
    (hi : t[i]? = none) (k : ι) : (s k)[i]? = none := by
  rw [List.getElem?_eq_none_iff] at *
  rw [h.1 k]; exact hi

theorem sim_rd {r : (∀ k, α k) → β → Prop} {s : ∀ k, List (α k)} {t : List β} (h : ListTends r s t) (i : Nat) :
    M.Sim (fun k => rd (s k) i) (rd t i) r := by
  unfold rd
  cases hi : t[i]? with
  | none => exact Sim.error _ fun k => by rw [none_of_tends h hi k]
  | some y =>
    obtain ⟨f, h1, h2⟩ := h.2 i _ hi
    simp only [h1]
    exact Sim.ok h2

theorem sim_wr {r : (∀ k, α k) → β → Prop} {s : ∀ k, List (α k)} {t : List β} (h : ListTends r s t) (i : Nat) {a : ∀ k, α k} {b : β}
    (hab : r a b) : M.Sim (fun k => wr (s k) i (a k)) (wr t i b) (ListTends r) := by
  unfold wr
  simp only [h.1]
  split
  · exact Sim.ok (Limit.ListTends.set h i hab)
  · exact Sim.error _ fun _ => rfl

end Mode

/-- Related operands give related results, where the operation of `X` does not panic. -/
structure OpsSim {ι : Type} (M : Mode ι) {T : ι → Type} {X : Type} (o : ∀ k, Ops (T k)) (o' : Ops X) (lim : (∀ k, T k) → X → Prop) :
    Prop where
  zero : lim (fun k => (o k).zero) o'.zero
  one : lim (fun k => (o k).one) o'.one
  sumStart : lim (fun k => (o k).sumStart) o'.sumStart
  add : ∀ {a b x y}, lim a x → lim b y → M.Sim (fun k => (o k).add (a k) (b k)) (o'.add x y) lim
  sub : ∀ {a b x y}, lim a x → lim b y → M.Sim (fun k => (o k).sub (a k) (b k)) (o'.sub x y) lim
  mul : ∀ {a b x y}, lim a x → lim b y → M.Sim (fun k => (o k).mul (a k) (b k)) (o'.mul x y) lim
  neg : ∀ {a x}, lim a x → M.Sim (fun k => (o k).neg (a k)) (o'.neg x) lim
  recip : ∀ {a x}, lim a x → M.Sim (fun k => (o k).recip (a k)) (o'.recip x) lim
  squareRoot : ∀ {a x}, lim a x → M.Sim (fun k => (o k).squareRoot (a k)) (o'.squareRoot x) lim
  le : ∀ {a b x y}, lim a x → lim b y → M.Sim (fun k => (o k).le (a k) (b k)) (o'.le x y) (fun s t => s = fun _ => t)

namespace Chk

open Mode Limit

variable {ι : Type} {M : Mode ι} {T σ : ι → Type} {X σ' : Type} {o : ∀ k, Ops (T k)} {o' : Ops X} {lim : (∀ k, T k) → X → Prop}
  {n l m R C U N : Nat}

theorem copyTo_sim {a b : ∀ k, Mat R C (T k)} {a' b' : Mat R C X} (ha : MatTends lim a a') (hb : MatTends lim b b') :
    M.Sim (fun k => (a k).copyTo (b k)) (a'.copyTo b') (MatTends lim) := by
  unfold Mat.copyTo
  refine Sim.bind sim_const fun _ N h => ?_
  subst h
  refine Sim.bind (Sim.down (S := ListTends lim) hb fun i s t h => ?_) fun _ _ h => Sim.pure h
  exact Sim.bind (sim_rd ha i) fun _ _ hv => sim_wr h i hv

theorem copyFromSlice_sim {a : ∀ k, Mat R C (T k)} {a' : Mat R C X} (ha : MatTends lim a a') {v : ∀ k, List (T k)} {w}
    (h : ListTends lim v w) : M.Sim (fun k => (a k).copyFromSlice (v k)) (a'.copyFromSlice w) (MatTends lim) := by
  unfold Mat.copyFromSlice
  have h' : ∀ k, (v k).length = w.length := h.1
  have ha' : ∀ k, (a k).data.length = a'.data.length := ha.1
  simp only [h', ha']
  split
  · exact Sim.ok (S := MatTends lim) (s := fun k => ⟨v k⟩) h
  · exact Sim.error _ fun _ => rfl

section Kernels
variable (hr : OpsSim M o o' lim)
include hr

theorem mulAdd_sim {t : ∀ k, T k} {t' : X} {a b : ∀ k, T k} {x y : X} (ht : lim t t') (ha : lim a x) (hb : lim b y) (q : Nat) :
    M.Sim (fun k => do
      let p ← (o k).mul (a k) (b k)
      let total ← (o k).add (t k) p
      pure (total, q)) (do
      let p ← o'.mul x y
      let total ← o'.add t' p
      pure (total, q)) (With (τ := Nat) lim) :=
  Sim.bind (hr.mul ha hb) fun _ _ hp => Sim.bind (hr.add ht hp) fun _ _ h => Sim.pure (With.mk h _)

theorem mult_sim {a : ∀ k, Mat R C (T k)} {b : ∀ k, Mat C U (T k)} {c : ∀ k, Mat R U (T k)} {a' : Mat R C X} {b' : Mat C U X}
    {c' : Mat R U X} (ha : MatTends lim a a') (hb : MatTends lim b b') (hc : MatTends lim c c') :
    M.Sim (fun k => mult (o k) (a k) (b k) (c k)) (mult o' a' b' c') (MatTends lim) := by
  unfold mult
  refine Sim.bind (Sim.down (S := ListTends lim) hc fun j s t h => ?_) fun _ _ h => Sim.pure h
  refine Sim.bind (S := With (τ := Nat) (ListTends lim)) (Sim.up (With.mk h _) ?_) ?_
  · rintro i _ ⟨t, ia⟩ ⟨s, rfl, h⟩
    refine Sim.bind (S := With (τ := Nat) lim) (Sim.up (With.mk hr.zero _) ?_) ?_
    · rintro q _ ⟨t, ia⟩ ⟨s, rfl, h⟩
      exact Sim.bind (sim_rd ha _) fun _ _ hv => Sim.bind (sim_rd hb _) fun _ _ hw => mulAdd_sim hr h hv hw _
    · rintro _ ⟨v', ia⟩ ⟨v, rfl, hv⟩
      exact Sim.bind (sim_wr h _ hv) fun _ _ h => Sim.pure (With.mk h _)
  · rintro _ ⟨t, _⟩ ⟨s, rfl, h⟩
    exact Sim.pure h

theorem multRowvector_sim {a : ∀ k, Mat R C (T k)} {x : ∀ k, Mat C 1 (T k)} {c : ∀ k, Mat R 1 (T k)} {a' : Mat R C X} {x' : Mat C 1 X}
    {c' : Mat R 1 X} (ha : MatTends lim a a') (hx : MatTends lim x x') (hc : MatTends lim c c') :
    M.Sim (fun k => multRowvector (o k) (a k) (x k) (c k)) (multRowvector o' a' x' c') (MatTends lim) := by
  unfold multRowvector
  refine Sim.bind (sim_rd hx 0) fun b0 b0' hb0 => ?_
  refine Sim.bind (S := With (τ := Nat) (ListTends lim)) (Sim.up (With.mk (S := ListTends lim) hc _) ?_) ?_
  · rintro i _ ⟨t, ia⟩ ⟨s, rfl, h⟩
    refine Sim.bind (sim_rd ha _) fun a0 a0' ha0 => Sim.bind (hr.mul ha0 hb0) fun p p' hp => ?_
    refine Sim.bind (S := With (τ := Nat) lim) (Sim.up (With.mk hp _) ?_) ?_
    · rintro q _ ⟨t, ia⟩ ⟨s, rfl, h⟩
      exact Sim.bind (sim_rd ha _) fun _ _ hv => Sim.bind (sim_rd hx _) fun _ _ hw => mulAdd_sim hr h hv hw _
    · rintro _ ⟨v', ia⟩ ⟨v, rfl, hv⟩
      exact Sim.bind (sim_wr h _ hv) fun _ _ h => Sim.pure (With.mk h _)
  · rintro _ ⟨t, _⟩ ⟨s, rfl, h⟩
    exact Sim.pure h

theorem multaddRowvector_sim {a : ∀ k, Mat R C (T k)} {x : ∀ k, Mat C 1 (T k)} {c : ∀ k, Mat R 1 (T k)} {a' : Mat R C X}
    {x' : Mat C 1 X} {c' : Mat R 1 X} (ha : MatTends lim a a') (hx : MatTends lim x x') (hc : MatTends lim c c') :
    M.Sim (fun k => multaddRowvector (o k) (a k) (x k) (c k)) (multaddRowvector o' a' x' c') (MatTends lim) := by
  unfold multaddRowvector
  refine Sim.bind (sim_rd hx 0) fun b0 b0' hb0 => ?_
  refine Sim.bind (S := With (τ := Nat) (ListTends lim)) (Sim.up (With.mk (S := ListTends lim) hc _) ?_) ?_
  · rintro i _ ⟨t, ia⟩ ⟨s, rfl, h⟩
    refine Sim.bind (sim_rd ha _) fun a0 a0' ha0 => Sim.bind (hr.mul ha0 hb0) fun p p' hp => ?_
    refine Sim.bind (S := With (τ := Nat) lim) (Sim.up (With.mk hp _) ?_) ?_
    · rintro q _ ⟨t, ia⟩ ⟨s, rfl, h⟩
      exact Sim.bind (sim_rd ha _) fun _ _ hv => Sim.bind (sim_rd hx _) fun _ _ hw => mulAdd_sim hr h hv hw _
    · rintro _ ⟨v', ia⟩ ⟨v, rfl, hv⟩
      exact Sim.bind (sim_rd h _) fun _ _ hw => Sim.bind (hr.add hw hv) fun _ _ hv => Sim.bind (sim_wr h _ hv) fun _ _ h =>
        Sim.pure (With.mk h _)
  · rintro _ ⟨t, _⟩ ⟨s, rfl, h⟩
    exact Sim.pure h

theorem multTransb_sim {a : ∀ k, Mat R C (T k)} {b : ∀ k, Mat U C (T k)} {c : ∀ k, Mat R U (T k)} {a' : Mat R C X} {b' : Mat U C X}
    {c' : Mat R U X} (ha : MatTends lim a a') (hb : MatTends lim b b') (hc : MatTends lim c c') :
    M.Sim (fun k => multTransb (o k) (a k) (b k) (c k)) (multTransb o' a' b' c') (MatTends lim) := by
  unfold multTransb
  refine Sim.bind (S := With (τ := Nat × Nat) (ListTends lim)) (Sim.up (With.mk (S := ListTends lim) hc _) ?_) ?_
  · rintro i _ ⟨t, ci, as⟩ ⟨s, rfl, h⟩
    refine Sim.bind (S := With (τ := Nat × Nat) (ListTends lim)) (Sim.up (With.mk h _) ?_) ?_
    · rintro j _ ⟨t, ci, ib⟩ ⟨s, rfl, h⟩
      refine Sim.bind (S := With (τ := Nat) lim) (Sim.up (With.mk hr.zero _) ?_) ?_
      · rintro q _ ⟨t, ia⟩ ⟨s, rfl, h⟩
        exact Sim.bind (sim_rd ha _) fun _ _ hv => Sim.bind (sim_rd hb _) fun _ _ hw => mulAdd_sim hr h hv hw _
      · rintro _ ⟨v', ia⟩ ⟨v, rfl, hv⟩
        exact Sim.bind (sim_wr h _ hv) fun _ _ h => Sim.pure (With.mk h (_, _))
    · rintro _ ⟨t, _, _⟩ ⟨s, rfl, h⟩
      exact Sim.pure (With.mk h (_, _))
  · rintro _ ⟨t, _⟩ ⟨s, rfl, h⟩
    exact Sim.pure h

theorem multaddTransb_sim {a : ∀ k, Mat R C (T k)} {b : ∀ k, Mat U C (T k)} {c : ∀ k, Mat R U (T k)} {a' : Mat R C X} {b' : Mat U C X}
    {c' : Mat R U X} (ha : MatTends lim a a') (hb : MatTends lim b b') (hc : MatTends lim c c') :
    M.Sim (fun k => multaddTransb (o k) (a k) (b k) (c k)) (multaddTransb o' a' b' c') (MatTends lim) := by
  unfold multaddTransb
  refine Sim.bind (S := With (τ := Nat × Nat) (ListTends lim)) (Sim.up (With.mk (S := ListTends lim) hc _) ?_) ?_
  · rintro i _ ⟨t, ci, as⟩ ⟨s, rfl, h⟩
    refine Sim.bind (S := With (τ := Nat × Nat) (ListTends lim)) (Sim.up (With.mk h _) ?_) ?_
    · rintro j _ ⟨t, ci, ib⟩ ⟨s, rfl, h⟩
      refine Sim.bind (S := With (τ := Nat) lim) (Sim.up (With.mk hr.zero _) ?_) ?_
      · rintro q _ ⟨t, ia⟩ ⟨s, rfl, h⟩
        exact Sim.bind (sim_rd ha _) fun _ _ hv => Sim.bind (sim_rd hb _) fun _ _ hw => mulAdd_sim hr h hv hw _
      · rintro _ ⟨v', ia⟩ ⟨v, rfl, hv⟩
        exact Sim.bind (sim_rd h _) fun _ _ hw => Sim.bind (hr.add hw hv) fun _ _ hv => Sim.bind (sim_wr h _ hv) fun _ _ h =>
          Sim.pure (With.mk h (_, _))
    · rintro _ ⟨t, _, _⟩ ⟨s, rfl, h⟩
      exact Sim.pure (With.mk h (_, _))
  · rintro _ ⟨t, _⟩ ⟨s, rfl, h⟩
    exact Sim.pure h

theorem multscaleTransb_sim {a : ∀ k, Mat R C (T k)} {b : ∀ k, Mat U C (T k)} {c : ∀ k, Mat R U (T k)} {a' : Mat R C X} {b' : Mat U C X}
    {c' : Mat R U X} (ha : MatTends lim a a') (hb : MatTends lim b b') {q : ∀ k, T k} {q' : X} (hq : lim q q') (hc : MatTends lim c c') :
    M.Sim (fun k => multscaleTransb (o k) (a k) (b k) (q k) (c k)) (multscaleTransb o' a' b' q' c') (MatTends lim) := by
  unfold multscaleTransb
  refine Sim.bind (S := With (τ := Nat × Nat) (ListTends lim)) (Sim.up (With.mk (S := ListTends lim) hc _) ?_) ?_
  · rintro i _ ⟨t, ci, as⟩ ⟨s, rfl, h⟩
    refine Sim.bind (S := With (τ := Nat × Nat) (ListTends lim)) (Sim.up (With.mk h _) ?_) ?_
    · rintro j _ ⟨t, ci, ib⟩ ⟨s, rfl, h⟩
      refine Sim.bind (S := With (τ := Nat) lim) (Sim.up (With.mk hr.zero _) ?_) ?_
      · rintro q _ ⟨t, ia⟩ ⟨s, rfl, h⟩
        exact Sim.bind (sim_rd ha _) fun _ _ hv => Sim.bind (sim_rd hb _) fun _ _ hw => mulAdd_sim hr h hv hw _
      · rintro _ ⟨v', ia⟩ ⟨v, rfl, hv⟩
        exact Sim.bind (hr.mul hv hq) fun _ _ hv => Sim.bind (sim_wr h _ hv) fun _ _ h => Sim.pure (With.mk h (_, _))
    · rintro _ ⟨t, _, _⟩ ⟨s, rfl, h⟩
      exact Sim.pure (With.mk h (_, _))
  · rintro _ ⟨t, _⟩ ⟨s, rfl, h⟩
    exact Sim.pure h

theorem addInplaceB_sim {a b : ∀ k, Mat R C (T k)} {a' b' : Mat R C X} (ha : MatTends lim a a') (hb : MatTends lim b b') :
    M.Sim (fun k => addInplaceB (o k) (a k) (b k)) (addInplaceB o' a' b') (MatTends lim) := by
  unfold addInplaceB
  refine Sim.bind (Sim.down (S := ListTends lim) hb fun i s t h => ?_) fun _ _ h => Sim.pure h
  exact Sim.bind (sim_rd h i) fun _ _ hv => Sim.bind (sim_rd ha i) fun _ _ hw => Sim.bind (hr.add hv hw) fun _ _ hv => sim_wr h i hv

theorem subInplaceB_sim {a b : ∀ k, Mat R C (T k)} {a' b' : Mat R C X} (ha : MatTends lim a a') (hb : MatTends lim b b') :
    M.Sim (fun k => subInplaceB (o k) (a k) (b k)) (subInplaceB o' a' b') (MatTends lim) := by
  unfold subInplaceB
  refine Sim.bind (Sim.down (S := ListTends lim) hb fun i s t h => ?_) fun _ _ h => Sim.pure h
  exact Sim.bind (sim_rd ha i) fun _ _ hv => Sim.bind (sim_rd h i) fun _ _ hw => Sim.bind (hr.sub hv hw) fun _ _ hv => sim_wr h i hv

theorem addInplaceA_sim {a b : ∀ k, Mat R C (T k)} {a' b' : Mat R C X} (ha : MatTends lim a a') (hb : MatTends lim b b') :
    M.Sim (fun k => addInplaceA (o k) (a k) (b k)) (addInplaceA o' a' b') (MatTends lim) := by
  unfold addInplaceA
  refine Sim.bind (Sim.down (S := ListTends lim) ha fun i s t h => ?_) fun _ _ h => Sim.pure h
  exact Sim.bind (sim_rd h i) fun _ _ hv => Sim.bind (sim_rd hb i) fun _ _ hw => Sim.bind (hr.add hv hw) fun _ _ hv => sim_wr h i hv

theorem subInplaceA_sim {a b : ∀ k, Mat R C (T k)} {a' b' : Mat R C X} (ha : MatTends lim a a') (hb : MatTends lim b b') :
    M.Sim (fun k => subInplaceA (o k) (a k) (b k)) (subInplaceA o' a' b') (MatTends lim) := by
  unfold subInplaceA
  refine Sim.bind (Sim.down (S := ListTends lim) ha fun i s t h => ?_) fun _ _ h => Sim.pure h
  exact Sim.bind (sim_rd h i) fun _ _ hv => Sim.bind (sim_rd hb i) fun _ _ hw => Sim.bind (hr.sub hv hw) fun _ _ hv => sim_wr h i hv

theorem chol_sim (bld : Build) {a : ∀ k, Mat R C (T k)} {a' : Mat R C X} (ha : MatTends lim a a') :
    M.Sim (fun k => choleskyDecomposeLower (o k) bld (a k)) (choleskyDecomposeLower o' bld a') (With (τ := Bool) (MatTends lim)) := by
  unfold choleskyDecomposeLower
  refine Sim.bind sim_const fun _ _ _ => Sim.bind sim_const fun _ _ _ => ?_
  refine Sim.bind (S := CtlSim (Both (ListTends lim) lim) (ListTends lim)) (Sim.upR ⟨ha, hr.zero⟩ ?_) ?_
  · rintro i s t h
    refine Sim.upR h ?_
    rintro j s ⟨t, d⟩ ⟨h, hd⟩
    refine Sim.bind (sim_rd h _) fun v v' hv => ?_
    refine Sim.bind (S := With (τ := Nat) lim) (Sim.up (With.mk hv _) ?_) ?_
    · rintro q _ ⟨t, ia⟩ ⟨s, rfl, h'⟩
      exact Sim.bind (sim_rd h _) fun _ _ hv => Sim.bind (sim_rd h _) fun _ _ hw =>
        Sim.bind (hr.mul hv hw) fun _ _ hp => Sim.bind (hr.sub h' hp) fun _ _ hs => Sim.pure (With.mk hs _)
    · rintro _ ⟨v', ia⟩ ⟨v, rfl, hv⟩
      refine Sim.bind (hr.mul hv hd) fun p p' hp => Sim.bind (sim_wr h _ hp) fun s t h => ?_
      by_cases hij : i = j
      · simp only [if_pos hij]
        refine Sim.bind (hr.le hv hr.zero) ?_
        rintro _ stop rfl
        cases stop with
        | true => exact Sim.pure (.ret h)
        | false =>
          refine Sim.bind (hr.squareRoot hv) fun e e' he => ?_
          refine Sim.bind (sim_wr h _ he) fun s t h => ?_
          exact Sim.bind (hr.recip he) fun q q' hd => Sim.pure (.cont (s := fun k => (s k, q k)) ⟨h, hd⟩)
      · simp only [if_neg hij]
        exact Sim.pure (.cont (s := fun k => _) ⟨h, hd⟩)
  · intro r r' h
    cases h with
    | ret h => exact Sim.pure (With.mk (S := MatTends lim) (a := fun k => ⟨_⟩) h false)
    | cont h =>
      refine Sim.bind (S := ListTends lim) (Sim.up (S := ListTends lim) h.1 fun i s t h => ?_) fun _ _ h =>
        Sim.pure (With.mk (S := MatTends lim) h true)
      exact Sim.up h fun j s t h => sim_wr h _ hr.zero

theorem sumMap_sim {lo hi : Nat} {f : ∀ k, Nat → Res (T k)} {g : Nat → Res X} (h : ∀ i, M.Sim (fun k => f k i) (g i) lim) :
    M.Sim (fun k => sumMap (o k) lo hi (f k)) (sumMap o' lo hi g) lim := by
  unfold sumMap
  refine Sim.up hr.sumStart fun i s t hst => ?_
  exact Sim.bind (h i) fun a b hab => hr.add hst hab

theorem term_sim {mat : ∀ k, List (T k)} {mat' : List X} {inv : ∀ k, List (T k)} {inv' : List X} (ha : ListTends lim mat mat')
    (h : ListTends lim inv inv') (i j : Nat) :
    M.Sim (fun k => do
      let mv ← rd (mat k) i
      let mv ← (o k).neg mv
      let iv ← rd (inv k) j
      (o k).mul mv iv) (do
      let mv ← rd mat' i
      let mv ← o'.neg mv
      let iv ← rd inv' j
      o'.mul mv iv) lim :=
  Sim.bind (sim_rd ha _) fun _ _ hv => Sim.bind (hr.neg hv) fun _ _ hv => Sim.bind (sim_rd h _) fun _ _ hw => hr.mul hv hw

theorem invert_sim {a b : ∀ k, Mat N N (T k)} {a' b' : Mat N N X} (ha : MatTends lim a a') (hb : MatTends lim b b') :
    M.Sim (fun k => invertLCholesky (o k) (a k) (b k)) (invertLCholesky o' a' b') (MatTends lim) := by
  unfold invertLCholesky
  refine Sim.bind (S := ListTends lim) (Sim.up hb fun i s t h => ?_) fun s t h => ?_
  · refine Sim.bind (sim_rd ha _) fun e e' he => Sim.bind (hr.recip he) fun d d' hd => ?_
    refine Sim.up h fun j s t h => ?_
    refine Sim.bind (sumMap_sim hr fun k => term_sim hr ha h _ _) fun ts ts' hts => ?_
    by_cases hij : i = j
    · simp only [if_pos hij]
      exact Sim.bind (hr.add hr.one hts) fun _ _ hs => Sim.bind (hr.mul hs hd) fun _ _ hv => sim_wr h _ hv
    · simp only [if_neg hij]
      exact Sim.bind (hr.add hr.zero hts) fun _ _ hs => Sim.bind (hr.mul hs hd) fun _ _ hv => sim_wr h _ hv
  · refine Sim.bind sim_const fun _ _ e => ?_
    subst e
    refine Sim.bind (S := ListTends lim) (Sim.down h fun i s t h => ?_) fun s t h => Sim.pure h
    refine Sim.bind (sim_rd ha _) fun e e' he => Sim.bind (hr.recip he) fun d d' hd => ?_
    refine Sim.up h fun j s t h => ?_
    refine Sim.bind (sim_rd h _) fun v v' hv => ?_
    refine Sim.bind (sumMap_sim hr fun k => term_sim hr ha h _ _) fun ts ts' hts => ?_
    by_cases hij : i < j
    · simp only [if_pos hij]
      exact Sim.bind (hr.add hr.zero hts) fun _ _ hs => Sim.bind (hr.mul hs hd) fun _ _ hv =>
        Sim.bind (sim_wr h _ hv) fun _ _ h => sim_wr h _ hv
    · simp only [if_neg hij]
      exact Sim.bind (hr.add hv hts) fun _ _ hs => Sim.bind (hr.mul hs hd) fun _ _ hv =>
        Sim.bind (sim_wr h _ hv) fun _ _ h => sim_wr h _ hv

end Kernels

section Steps
variable (hr : OpsSim M o o' lim)
include hr

theorem applyControl_sim {c : ∀ k, Control n l (T k)} {x : ∀ k, Mat n 1 (T k)} {P : ∀ k, Mat n n (T k)} {c' : Control n l X}
    {x' : Mat n 1 X} {P' : Mat n n X} (hc : FullC lim c c') (hx : MatTends lim x x') (hP : MatTends lim P P') :
    M.Sim (fun k => applyControl (o k) (c k) (x k) (P k)) (applyControl o' c' x' P')
      (fun a b => FullC lim (fun k => (a k).1) b.1 ∧ MatTends lim (fun k => (a k).2.1) b.2.1 ∧
        MatTends lim (fun k => (a k).2.2) b.2.2) := by
  unfold applyControl
  by_cases he : (c'.u.isEmpty || c'.B.isEmpty) = true
  · have he' : ∀ k, ((c k).u.isEmpty || (c k).B.isEmpty) = true := fun _ => he
    simp only [if_pos he, if_pos (he' _)]
    exact Sim.pure (s := fun k => (c k, x k, P k)) ⟨hc, hx, hP⟩
  · have he' : ∀ k, ¬ ((c k).u.isEmpty || (c k).B.isEmpty) = true := fun _ => he
    simp only [if_neg he, if_neg (he' _)]
    refine Sim.bind (multaddRowvector_sim hr hc.B hc.u hx) fun x x' hx => ?_
    refine Sim.bind (mult_sim hr hc.B hc.Q hc.tempBQ) fun t t' ht => ?_
    exact Sim.bind (multaddTransb_sim hr ht hc.B hP) fun P P' hP => Sim.pure ⟨⟨hc.B, hc.u, hc.Q, ht⟩, hx, hP⟩

theorem update_sim (bld : Build) {b : ∀ k, RegularObservation n m (T k)} {x : ∀ k, Mat n 1 (T k)} {P : ∀ k, Mat n n (T k)}
    {b' : RegularObservation n m X} {x' : Mat n 1 X} {P' : Mat n n X} (ho : FullO lim b b') (hx : MatTends lim x x')
    (hP : MatTends lim P P') :
    M.Sim (fun k => updateWithInnovation (o k) bld (b k) (x k) (P k)) (updateWithInnovation o' bld b' x' P')
      (fun a b => FullO lim (fun k => (a k).1) b.1 ∧ MatTends lim (fun k => (a k).2.1) b.2.1 ∧
        MatTends lim (fun k => (a k).2.2) b.2.2) := by
  unfold updateWithInnovation
  refine Sim.bind (mult_sim hr ho.H hP ho.tempHP) fun _ _ hHP => ?_
  refine Sim.bind (multTransb_sim hr hHP ho.H ho.S) fun _ _ hS => ?_
  refine Sim.bind (addInplaceA_sim hr hS ho.R) fun _ _ hS => ?_
  refine Sim.bind (chol_sim hr bld hS) ?_
  rintro _ ⟨S', ok⟩ ⟨S, rfl, hS⟩
  refine Sim.bind (invert_sim hr hS ho.tempSInv) fun _ _ hI => ?_
  refine Sim.bind (multTransb_sim hr hP ho.H ho.tempPHt) fun _ _ hPHt => ?_
  refine Sim.bind (mult_sim hr hPHt hI ho.K) fun _ _ hK => ?_
  refine Sim.bind (multaddRowvector_sim hr hK ho.y hx) fun _ _ hx => ?_
  refine Sim.bind (mult_sim hr ho.H hP hHP) fun _ _ hHP => ?_
  refine Sim.bind (mult_sim hr hK hHP ho.tempKHP) fun _ _ hKHP => ?_
  refine Sim.bind (subInplaceA_sim hr hP hKHP) fun _ _ hP => ?_
  exact Sim.pure ⟨⟨ho.H, ho.z, ho.R, ho.y, hS, hK, hI, hHP, hPHt, hKHP⟩, hx, hP⟩

theorem predictX_sim {f : ∀ k, RegularKalman n (T k)} {g : RegularKalman n X} (h : FullK lim f g) :
    M.Sim (fun k => predictX (o k) (f k)) (predictX o' g) (FullK lim) := by
  unfold predictX
  refine Sim.bind (multRowvector_sim hr h.A h.x h.predictedX) fun _ _ hp => ?_
  exact Sim.bind (copyTo_sim hp h.x) fun _ _ hx => Sim.pure ⟨hx, h.A, h.P, h.Q, hp, h.tempP⟩

theorem predict_sim {f : ∀ k, RegularKalman n (T k)} {g : RegularKalman n X} (h : FullK lim f g) :
    M.Sim (fun k => predict (o k) (f k)) (predict o' g) (FullK lim) := by
  unfold predict
  refine Sim.bind (predictX_sim hr h) fun f g h => ?_
  unfold predictP
  refine Sim.bind (mult_sim hr h.A h.P h.tempP) fun _ _ ht => ?_
  refine Sim.bind (multTransb_sim hr ht h.A h.P) fun _ _ hP => ?_
  exact Sim.bind (addInplaceB_sim hr h.Q hP) fun _ _ hP => Sim.pure ⟨h.x, h.A, hP, h.Q, h.predictedX, ht⟩

theorem predictTuned_sim {f : ∀ k, RegularKalman n (T k)} {g : RegularKalman n X} (h : FullK lim f g) {a b} (hab : lim a b) :
    M.Sim (fun k => predictTuned (o k) (f k) (a k)) (predictTuned o' g b) (FullK lim) := by
  unfold predictTuned
  refine Sim.bind (predictX_sim hr h) fun f g h => ?_
  unfold predictPTuned
  refine Sim.bind (hr.mul hab hab) fun q q' hq => Sim.bind (hr.recip hq) fun q q' hq => ?_
  refine Sim.bind (mult_sim hr h.A h.P h.tempP) fun _ _ ht => ?_
  refine Sim.bind (multscaleTransb_sim hr ht h.A hq h.P) fun _ _ hP => ?_
  exact Sim.bind (addInplaceB_sim hr h.Q hP) fun _ _ hP => Sim.pure ⟨h.x, h.A, hP, h.Q, h.predictedX, ht⟩

theorem control_sim {f : ∀ k, RegularKalman n (T k)} {g : RegularKalman n X} (h : FullK lim f g) {c : ∀ k, Control n l (T k)}
    {d : Control n l X} (hc : FullC lim c d) :
    M.Sim (fun k => control (o k) (f k) (c k)) (control o' g d)
      (fun a b => FullK lim (fun k => (a k).1) b.1 ∧ FullC lim (fun k => (a k).2) b.2) := by
  unfold control
  refine Sim.bind (applyControl_sim hr hc h.x h.P) ?_
  rintro a ⟨d, y, S⟩ ⟨hc, hx, hP⟩
  exact Sim.pure ⟨⟨hx, h.A, hP, h.Q, h.predictedX, h.tempP⟩, hc⟩

theorem correct_sim (bld : Build) {f : ∀ k, RegularKalman n (T k)} {g : RegularKalman n X} (h : FullK lim f g)
    {b : ∀ k, RegularObservation n m (T k)} {p : RegularObservation n m X} (ho : FullO lim b p) :
    M.Sim (fun k => correct (o k) bld (f k) (b k)) (correct o' bld g p)
      (fun a b => FullK lim (fun k => (a k).1) b.1 ∧ FullO lim (fun k => (a k).2) b.2) := by
  unfold correct
  refine Sim.bind (multRowvector_sim hr ho.H h.x ho.y) fun _ _ hy => ?_
  refine Sim.bind (subInplaceB_sim hr ho.z hy) fun y y' hy => ?_
  refine Sim.bind (update_sim hr bld (b := fun k => { b k with y := y k }) (b' := { p with y := y' })
    ⟨ho.H, ho.z, ho.R, hy, ho.S, ho.K, ho.tempSInv, ho.tempHP, ho.tempPHt, ho.tempKHP⟩ h.x h.P) ?_
  rintro a ⟨d, y, S⟩ ⟨hc, hx, hP⟩
  exact Sim.pure ⟨⟨hx, h.A, hP, h.Q, h.predictedX, h.tempP⟩, hc⟩

omit hr in
theorem withCtl_sim {w : ∀ k, World n (T k)} {v : World n X} (h : FullW lim w v) (i : Nat)
    {g : ∀ k, (l : Nat) → Control n l (T k) → Res (Control n l (T k))} {g' : (l : Nat) → Control n l X → Res (Control n l X)}
    (hg : ∀ {l : Nat} {c : ∀ k, Control n l (T k)} {d : Control n l X}, FullC lim c d →
      M.Sim (fun k => g k l (c k)) (g' l d) (FullC lim)) :
    M.Sim (fun k => (w k).withCtl i (g k)) (v.withCtl i g') (FullW lim) := by
  unfold World.withCtl
  cases hi : v.ctl[i]? with
  | none => exact Sim.error _ fun k => by rw [none_of_tends h.ctl hi k]
  | some d =>
    obtain ⟨f, h1, h2⟩ := h.ctl.2 i d hi
    cases h2 with
    | mk hc =>
      simp only [h1]
      exact Sim.bind (hg hc) fun c d hc => Sim.pure ⟨h.kf, ListTends.set h.ctl i (.mk hc), h.obs⟩

omit hr in
theorem withObs_sim {w : ∀ k, World n (T k)} {v : World n X} (h : FullW lim w v) (i : Nat)
    {g : ∀ k, (m : Nat) → RegularObservation n m (T k) → Res (RegularObservation n m (T k))}
    {g' : (m : Nat) → RegularObservation n m X → Res (RegularObservation n m X)}
    (hg : ∀ {m : Nat} {c : ∀ k, RegularObservation n m (T k)} {d : RegularObservation n m X}, FullO lim c d →
      M.Sim (fun k => g k m (c k)) (g' m d) (FullO lim)) :
    M.Sim (fun k => (w k).withObs i (g k)) (v.withObs i g') (FullW lim) := by
  unfold World.withObs
  cases hi : v.obs[i]? with
  | none => exact Sim.error _ fun k => by rw [none_of_tends h.obs hi k]
  | some d =>
    obtain ⟨f, h1, h2⟩ := h.obs.2 i d hi
    cases h2 with
    | mk hc =>
      simp only [h1]
      exact Sim.bind (hg hc) fun c d hc => Sim.pure ⟨h.kf, h.ctl, ListTends.set h.obs i (.mk hc)⟩

theorem step_sim (bld : Build) {w : ∀ k, World n (T k)} {v : World n X} (h : FullW lim w v) {op : ∀ k, Op (T k)} {op' : Op X}
    (hop : Op.Tends lim op op') : M.Sim (fun k => step (o k) bld (w k) (op k)) (step o' bld v op') (FullW lim) := by
  cases hop with
  | predict => exact Sim.bind (predict_sim hr h.kf) fun _ _ hk => Sim.pure ⟨hk, h.ctl, h.obs⟩
  | predictTuned hab => exact Sim.bind (predictTuned_sim hr h.kf hab) fun _ _ hk => Sim.pure ⟨hk, h.ctl, h.obs⟩
  | control i =>
    unfold step
    dsimp only
    cases hi : v.ctl[i]? with
    | none => exact Sim.error _ fun k => by rw [none_of_tends h.ctl hi k]
    | some d =>
      obtain ⟨f, h1, h2⟩ := h.ctl.2 i d hi
      cases h2 with
      | mk hc =>
        simp only [h1]
        refine Sim.bind (control_sim hr h.kf hc) ?_
        rintro a ⟨g, d⟩ ⟨hf, hc⟩
        exact Sim.pure ⟨hf, ListTends.set h.ctl i (.mk hc), h.obs⟩
  | correct i =>
    unfold step
    dsimp only
    cases hi : v.obs[i]? with
    | none => exact Sim.error _ fun k => by rw [none_of_tends h.obs hi k]
    | some d =>
      obtain ⟨f, h1, h2⟩ := h.obs.2 i d hi
      cases h2 with
      | mk hc =>
        simp only [h1]
        refine Sim.bind (correct_sim hr bld h.kf hc) ?_
        rintro a ⟨g, d⟩ ⟨hf, hc⟩
        exact Sim.pure ⟨hf, h.ctl, ListTends.set h.obs i (.mk hc)⟩
  | setX hv => exact Sim.bind (copyFromSlice_sim h.kf.x hv) (fun _ _ k =>
      Sim.pure ⟨⟨k, h.kf.A, h.kf.P, h.kf.Q, h.kf.predictedX, h.kf.tempP⟩, h.ctl, h.obs⟩)
  | setA hv => exact Sim.bind (copyFromSlice_sim h.kf.A hv) (fun _ _ k =>
      Sim.pure ⟨⟨h.kf.x, k, h.kf.P, h.kf.Q, h.kf.predictedX, h.kf.tempP⟩, h.ctl, h.obs⟩)
  | setP hv => exact Sim.bind (copyFromSlice_sim h.kf.P hv) (fun _ _ k =>
      Sim.pure ⟨⟨h.kf.x, h.kf.A, k, h.kf.Q, h.kf.predictedX, h.kf.tempP⟩, h.ctl, h.obs⟩)
  | setQ hv => exact Sim.bind (copyFromSlice_sim h.kf.Q hv) (fun _ _ k =>
      Sim.pure ⟨⟨h.kf.x, h.kf.A, h.kf.P, k, h.kf.predictedX, h.kf.tempP⟩, h.ctl, h.obs⟩)
  | setU i hv => exact withCtl_sim h i fun hc => (Sim.bind (copyFromSlice_sim hc.u hv) (fun _ _ k =>
      Sim.pure (.mk hc.B k hc.Q hc.tempBQ)))
  | setB i hv => exact withCtl_sim h i fun hc => (Sim.bind (copyFromSlice_sim hc.B hv) (fun _ _ k =>
      Sim.pure (.mk k hc.u hc.Q hc.tempBQ)))
  | setQc i hv => exact withCtl_sim h i fun hc => (Sim.bind (copyFromSlice_sim hc.Q hv) (fun _ _ k =>
      Sim.pure (.mk hc.B hc.u k hc.tempBQ)))
  | setZ i hv => exact withObs_sim h i fun ho => (Sim.bind (copyFromSlice_sim ho.z hv) (fun _ _ k =>
      Sim.pure (.mk ho.H k ho.R ho.y ho.S ho.K ho.tempSInv ho.tempHP ho.tempPHt ho.tempKHP)))
  | setH i hv => exact withObs_sim h i fun ho => (Sim.bind (copyFromSlice_sim ho.H hv) (fun _ _ k =>
      Sim.pure (.mk k ho.z ho.R ho.y ho.S ho.K ho.tempSInv ho.tempHP ho.tempPHt ho.tempKHP)))
  | setR i hv => exact withObs_sim h i fun ho => (Sim.bind (copyFromSlice_sim ho.R hv) (fun _ _ k =>
      Sim.pure (.mk ho.H ho.z k ho.y ho.S ho.K ho.tempSInv ho.tempHP ho.tempPHt ho.tempKHP)))

theorem run_sim (bld : Build) {w : ∀ k, World n (T k)} {v : World n X} (h : FullW lim w v) {ops : ∀ k, List (Op (T k))}
    {ops' : List (Op X)} (hops : ListTends (Op.Tends lim) ops ops') :
    M.Sim (fun k => run (o k) bld (w k) (ops k)) (run o' bld v ops') (FullW lim) := by
  induction ops' generalizing w v ops with
  | nil =>
    have : ops = fun _ => [] := funext fun k => ListTends.nil_inv hops k
    subst this
    exact Sim.ok h
  | cons op' ops' ih =>
    obtain ⟨op, rest, h1, h2, h3⟩ := ListTends.cons_inv hops
    obtain rfl : ops = fun k => op k :: rest k := funext h1
    exact Sim.bind (step_sim hr bld h h2) fun w v h => ih h h3

end Steps
end Chk
end Minikalman
