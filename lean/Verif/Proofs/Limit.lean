import Verif.Spec.Limit
import Verif.Proofs.Hoare
import Verif.Spec.Exact
import Verif.Proofs.FilterExact
import Verif.Proofs.History

/-! # Eventual simulation: where the program with real numbers succeeds, the programs of the family eventually do -/

set_option linter.unusedSectionVars false

namespace Minikalman
namespace Limit

open Filter

attribute [local instance] panickingReal

variable {ι : Type} {F : Filter ι} {T : ι → Type} {n l m R C U N : Nat}

/-- If `d` succeeds then the `c k` eventually do, with related results. -/
def Ev (F : Filter ι) {α : ι → Type} {β : Type} (c : ∀ k, Res (α k)) (d : Res β) (S : (∀ k, α k) → β → Prop) : Prop :=
  ∀ t, d = .ok t → ∃ s, (∀ᶠ k in F, c k = .ok (s k)) ∧ S s t

/-- The same for bodies of loops that may return: nothing is said if `d` returns. -/
def EvC (F : Filter ι) {α ρ : ι → Type} {β ρ' : Type} (c : ∀ k, Res (Ctl (α k) (ρ k))) (d : Res (Ctl β ρ'))
    (S : (∀ k, α k) → β → Prop) : Prop :=
  ∀ t, d = .ok (.cont t) → ∃ s, (∀ᶠ k in F, c k = .ok (.cont (s k))) ∧ S s t

section Rules
variable {α α' ρ ρ' : ι → Type} {β β' τ τ' : Type}

theorem Ev.bind {c : ∀ k, Res (α k)} {f : ∀ k, α k → Res (α' k)} {d : Res β} {g : β → Res β'} {S : (∀ k, α k) → β → Prop}
    {S' : (∀ k, α' k) → β' → Prop} (h : Ev F c d S) (hf : ∀ s t, S s t → Ev F (fun k => f k (s k)) (g t) S') :
    Ev F (fun k => c k >>= f k) (d >>= g) S' := by
  intro u hu
  cases d with
  | error e => cases hu
  | ok t =>
    obtain ⟨s, h1, h2⟩ := h t rfl
    obtain ⟨s', h3, h4⟩ := hf s t h2 u hu
    refine ⟨s', ?_, h4⟩
    filter_upwards [h1, h3] with k e1 e2
    rw [e1]; exact e2

theorem Ev.pure {S : (∀ k, α k) → β → Prop} {s : ∀ k, α k} {t : β} (h : S s t) :
    Ev F (fun k => (Pure.pure (s k) : Res (α k))) (Pure.pure t) S := by
  intro t' ht
  cases ht
  exact ⟨s, Eventually.of_forall fun _ => rfl, h⟩

theorem Ev.ok {S : (∀ k, α k) → β → Prop} {s : ∀ k, α k} {t : β} (h : S s t) : Ev F (fun k => (.ok (s k))) (.ok t) S := Ev.pure h

theorem Ev.error {c : ∀ k, Res (α k)} {S : (∀ k, α k) → β → Prop} (e : Panic) : Ev F c (.error e) S := fun _ h => nomatch h

theorem Ev.bindC {c : ∀ k, Res (α k)} {f : ∀ k, α k → Res (Ctl (α' k) (ρ k))} {d : Res β} {g : β → Res (Ctl β' τ)}
    {S : (∀ k, α k) → β → Prop} {S' : (∀ k, α' k) → β' → Prop} (h : Ev F c d S)
    (hf : ∀ s t, S s t → EvC F (fun k => f k (s k)) (g t) S') : EvC F (fun k => c k >>= f k) (d >>= g) S' := by
  intro u hu
  cases d with
  | error e => cases hu
  | ok t =>
    obtain ⟨s, h1, h2⟩ := h t rfl
    obtain ⟨s', h3, h4⟩ := hf s t h2 u hu
    refine ⟨s', ?_, h4⟩
    filter_upwards [h1, h3] with k e1 e2
    rw [e1]; exact e2

theorem EvC.cont {S : (∀ k, α k) → β → Prop} {s : ∀ k, α k} {t : β} (h : S s t) :
    EvC F (fun k => (Pure.pure (.cont (s k)) : Res (Ctl (α k) (ρ k)))) (Pure.pure (.cont t) : Res (Ctl β τ)) S := by
  intro t' ht
  cases ht
  exact ⟨s, Eventually.of_forall fun _ => rfl, h⟩

theorem EvC.ret {S : (∀ k, α k) → β → Prop} {c : ∀ k, Res (Ctl (α k) (ρ k))} {r : τ} :
    EvC F c (Pure.pure (.ret r) : Res (Ctl β τ)) S := fun _ h => nomatch h

theorem Ev.up {S : (∀ k, α k) → β → Prop} {lo hi : Nat} {b₁ : ∀ k, Nat → α k → Res (α k)} {b₂ : Nat → β → Res β}
    {s₁ : ∀ k, α k} {s₂ : β} (h0 : S s₁ s₂) (hstep : ∀ i s t, S s t → Ev F (fun k => b₁ k i (s k)) (b₂ i t) S) :
    Ev F (fun k => forUp lo hi (b₁ k) (s₁ k)) (forUp lo hi b₂ s₂) S := by
  unfold forUp
  generalize hi - lo = N
  induction N generalizing lo s₁ s₂ with
  | zero => exact Ev.ok h0
  | succ N ih =>
    unfold forCount
    exact Ev.bind (hstep lo s₁ s₂ h0) fun s t hst => ih hst

theorem Ev.down {S : (∀ k, α k) → β → Prop} {N : Nat} {b₁ : ∀ k, Nat → α k → Res (α k)} {b₂ : Nat → β → Res β}
    {s₁ : ∀ k, α k} {s₂ : β} (h0 : S s₁ s₂) (hstep : ∀ i s t, S s t → Ev F (fun k => b₁ k i (s k)) (b₂ i t) S) :
    Ev F (fun k => forDown N (b₁ k) (s₁ k)) (forDown N b₂ s₂) S := by
  induction N generalizing s₁ s₂ with
  | zero => exact Ev.ok h0
  | succ N ih =>
    unfold forDown
    exact Ev.bind (hstep N s₁ s₂ h0) fun s t hst => ih hst

theorem EvC.up {S : (∀ k, α k) → β → Prop} {lo hi : Nat} {b₁ : ∀ k, Nat → α k → Res (Ctl (α k) (ρ k))}
    {b₂ : Nat → β → Res (Ctl β τ)} {s₁ : ∀ k, α k} {s₂ : β} (h0 : S s₁ s₂)
    (hstep : ∀ i s t, S s t → EvC F (fun k => b₁ k i (s k)) (b₂ i t) S) :
    EvC F (fun k => forUpR lo hi (b₁ k) (s₁ k)) (forUpR lo hi b₂ s₂) S := by
  unfold forUpR
  generalize hi - lo = N
  induction N generalizing lo s₁ s₂ with
  | zero => exact EvC.cont h0
  | succ N ih =>
    unfold forCountR
    intro u hu
    cases hb : b₂ lo s₂ with
    | error e => rw [hb] at hu; cases hu
    | ok c =>
      rw [hb] at hu
      cases c with
      | ret r => cases hu
      | cont t =>
        obtain ⟨s, h1, h2⟩ := hstep lo s₁ s₂ h0 t hb
        obtain ⟨s', h3, h4⟩ := ih h2 u hu
        refine ⟨s', ?_, h4⟩
        filter_upwards [h1, h3] with k e1 e2
        rw [e1]; exact e2

theorem Ev.bind_ok {c : ∀ k, Res (α k)} {f : ∀ k, α k → Res (α' k)} {d : Res β} {e : Res β'} {S : (∀ k, α k) → β → Prop}
    {S' : (∀ k, α' k) → β' → Prop} {t : β} (h : Ev F c d S) (hd : d = .ok t)
    (hf : ∀ s, S s t → Ev F (fun k => f k (s k)) e S') : Ev F (fun k => c k >>= f k) e S' := by
  intro u hu
  obtain ⟨s, h1, h2⟩ := h t hd
  obtain ⟨s', h3, h4⟩ := hf s h2 u hu
  refine ⟨s', ?_, h4⟩
  filter_upwards [h1, h3] with k e1 e2
  rw [e1]; exact e2

/-- Only results satisfying `W` count. -/
def EvW (F : Filter ι) {α : ι → Type} {β : Type} (c : ∀ k, Res (α k)) (d : Res β) (W : β → Prop) (S : (∀ k, α k) → β → Prop) :
    Prop := ∀ t, d = .ok t → W t → ∃ s, (∀ᶠ k in F, c k = .ok (s k)) ∧ S s t

theorem Ev.bindW {c : ∀ k, Res (α k)} {f : ∀ k, α k → Res (α' k)} {d : Res β} {g : β → Res β'} {S : (∀ k, α k) → β → Prop}
    {W : β' → Prop} {S' : (∀ k, α' k) → β' → Prop} (h : Ev F c d S)
    (hf : ∀ s t, S s t → EvW F (fun k => f k (s k)) (g t) W S') : EvW F (fun k => c k >>= f k) (d >>= g) W S' := by
  intro u hu hw
  cases d with
  | error e => cases hu
  | ok t =>
    obtain ⟨s, h1, h2⟩ := h t rfl
    obtain ⟨s', h3, h4⟩ := hf s t h2 u hu hw
    refine ⟨s', ?_, h4⟩
    filter_upwards [h1, h3] with k e1 e2
    rw [e1]; exact e2

theorem EvC.bindW {c : ∀ k, Res (Ctl (α k) (ρ k))} {f : ∀ k, Ctl (α k) (ρ k) → Res (α' k)} {d : Res (Ctl β τ)}
    {g : Ctl β τ → Res β'} {S : (∀ k, α k) → β → Prop} {W : β' → Prop} {S' : (∀ k, α' k) → β' → Prop} (h : EvC F c d S)
    (hret : ∀ r u, g (.ret r) = .ok u → ¬ W u) (hf : ∀ s t, S s t → Ev F (fun k => f k (.cont (s k))) (g (.cont t)) S') :
    EvW F (fun k => c k >>= f k) (d >>= g) W S' := by
  intro u hu hw
  cases d with
  | error e => cases hu
  | ok t =>
    cases t with
    | ret r => exact (hret r u hu hw).elim
    | cont t =>
      obtain ⟨s, h1, h2⟩ := h t rfl
      obtain ⟨s', h3, h4⟩ := hf s t h2 u hu
      refine ⟨s', ?_, h4⟩
      filter_upwards [h1, h3] with k e1 e2
      rw [e1]; exact e2

theorem EvC.congr {c c' : ∀ k, Res (Ctl (α k) (ρ k))} {d : Res (Ctl β τ)} {S : (∀ k, α k) → β → Prop} {p : ι → Prop}
    (hp : ∀ᶠ k in F, p k) (h : EvC F c' d S) (he : ∀ k, p k → c k = c' k) : EvC F c d S := by
  intro t ht
  obtain ⟨s, h1, h2⟩ := h t ht
  refine ⟨s, ?_, h2⟩
  filter_upwards [hp, h1] with k e1 e2
  rw [he k e1, e2]

/-- The second components do not depend on `k`. -/
def With (S : (∀ k, α k) → β → Prop) (s : ∀ k, α k × τ) (t : β × τ) : Prop :=
  ∃ a, s = (fun k => (a k, t.2)) ∧ S a t.1

/-- Both components are related. -/
def Both (S : (∀ k, α k) → β → Prop) (S' : (∀ k, α' k) → β' → Prop) (s : ∀ k, α k × α' k) (t : β × β') : Prop :=
  S (fun k => (s k).1) t.1 ∧ S' (fun k => (s k).2) t.2

theorem With.mk {S : (∀ k, α k) → β → Prop} {a : ∀ k, α k} {b : β} (h : S a b) (c : τ) :
    With S (fun k => (a k, c)) (b, c) := ⟨a, rfl, h⟩

theorem ev_const {d : Res τ} : Ev F (fun _ => d) d (fun (s : ι → τ) t => s = fun _ => t) := fun t h =>
  ⟨fun _ => t, Eventually.of_forall fun _ => h, rfl⟩

end Rules

section Lists
variable {α : ι → Type} {β : Type} {r : (∀ k, α k) → β → Prop}

theorem ListTends.nil : ListTends r (fun _ => []) [] := ⟨fun _ => rfl, fun i x h => by simp at h⟩

theorem ListTends.set {s : ∀ k, List (α k)} {t : List β} (h : ListTends r s t) (i : Nat) {a : ∀ k, α k} {b : β} (hab : r a b) :
    ListTends r (fun k => (s k).set i (a k)) (t.set i b) := by
  refine ⟨fun k => by simp [h.1 k], fun j x hj => ?_⟩
  by_cases hij : i = j
  · subst hij
    have hi : i < t.length := by
      by_contra hc
      rw [List.getElem?_eq_none (by simp; omega)] at hj
      cases hj
    rw [List.getElem?_set_self hi] at hj
    cases hj
    exact ⟨a, fun k => by rw [List.getElem?_set_self (by rw [h.1 k]; exact hi)], hab⟩
  · rw [List.getElem?_set_ne hij] at hj
    obtain ⟨f, h1, h2⟩ := h.2 j x hj
    exact ⟨f, fun k => by rw [List.getElem?_set_ne hij]; exact h1 k, h2⟩

theorem ListTends.snoc {s : ∀ k, List (α k)} {t : List β} (h : ListTends r s t) {a : ∀ k, α k} {b : β} (hab : r a b) :
    ListTends r (fun k => s k ++ [a k]) (t ++ [b]) := by
  refine ⟨fun k => by simp [h.1 k], fun j x hj => ?_⟩
  rcases Nat.lt_or_ge j t.length with hl | hl
  · rw [List.getElem?_append_left hl] at hj
    obtain ⟨f, h1, h2⟩ := h.2 j x hj
    exact ⟨f, fun k => by rw [List.getElem?_append_left (by rw [h.1 k]; exact hl)]; exact h1 k, h2⟩
  · rw [List.getElem?_append_right hl] at hj
    have h0 : j - t.length = 0 := by
      by_contra hc
      rw [List.getElem?_eq_none (by simp; omega)] at hj
      cases hj
    rw [h0] at hj
    cases hj
    exact ⟨a, fun k => by rw [List.getElem?_append_right (by rw [h.1 k]; exact hl), h.1 k, h0]; rfl, hab⟩

theorem ListTends.cons_inv {s : ∀ k, List (α k)} {x : β} {t : List β} (h : ListTends r s (x :: t)) :
    ∃ a s', (∀ k, s k = a k :: s' k) ∧ r a x ∧ ListTends r s' t := by
  obtain ⟨a, h1, h2⟩ := h.2 0 x rfl
  have hs : ∀ k, s k = a k :: (s k).tail := by
    intro k
    have := h1 k
    cases hk : s k with
    | nil => rw [hk] at this; cases this
    | cons y ys => rw [hk] at this; cases this; rfl
  refine ⟨a, fun k => (s k).tail, hs, h2, fun k => ?_, fun i y hi => ?_⟩
  · have := h.1 k
    rw [List.length_tail, this]; rfl
  · obtain ⟨f, h3, h4⟩ := h.2 (i + 1) y hi
    refine ⟨f, fun k => ?_, h4⟩
    have := h3 k
    rw [hs k] at this
    exact this

theorem ListTends.cons {s : ∀ k, List (α k)} {x : β} {t : List β} {a : ∀ k, α k} (ha : r a x) (h : ListTends r s t) :
    ListTends r (fun k => a k :: s k) (x :: t) := by
  refine ⟨fun k => by simp [h.1 k], fun i y hi => ?_⟩
  cases i with
  | zero => cases hi; exact ⟨a, fun _ => rfl, ha⟩
  | succ i => exact h.2 i y hi

theorem ListTends.nil_inv {s : ∀ k, List (α k)} (h : ListTends r s []) (k : ι) : s k = [] := List.eq_nil_of_length_eq_zero (h.1 k)

theorem ev_rd {s : ∀ k, List (α k)} {t : List β} (h : ListTends r s t) (i : Nat) : Ev F (fun k => rd (s k) i) (rd t i) r := by
  intro x hx
  unfold rd at hx
  cases hi : t[i]? with
  | none => rw [hi] at hx; cases hx
  | some y =>
    rw [hi] at hx; cases hx
    obtain ⟨f, h1, h2⟩ := h.2 i _ hi
    exact ⟨f, Eventually.of_forall fun k => by simp only [rd, h1 k], h2⟩

theorem ev_wr {s : ∀ k, List (α k)} {t : List β} (h : ListTends r s t) (i : Nat) {a : ∀ k, α k} {b : β} (hab : r a b) :
    Ev F (fun k => wr (s k) i (a k)) (wr t i b) (ListTends r) := by
  unfold wr
  intro x hx
  split at hx
  · cases hx
    refine ⟨_, Eventually.of_forall fun k => ?_, ListTends.set h i hab⟩
    exact if_pos (by rw [h.1 k]; assumption)
  · cases hx

end Lists

variable {lim : (∀ k, T k) → ℝ → Prop}

theorem copyTo_ev {a b : ∀ k, Mat R C (T k)} {a' b' : Mat R C ℝ} (ha : MatTends lim a a') (hb : MatTends lim b b') :
    Ev F (fun k => (a k).copyTo (b k)) (a'.copyTo b') (MatTends lim) := by
  unfold Mat.copyTo
  refine Ev.bind ev_const fun _ N h => ?_
  subst h
  refine Ev.bind (Ev.down (S := ListTends lim) hb fun i s t h => ?_) fun _ _ h => Ev.pure h
  exact Ev.bind (ev_rd ha i) fun _ _ hv => ev_wr h i hv

theorem copyFromSlice_ev {a : ∀ k, Mat R C (T k)} {a' : Mat R C ℝ} (ha : MatTends lim a a') {v : ∀ k, List (T k)} {w}
    (h : ListTends lim v w) : Ev F (fun k => (a k).copyFromSlice (v k)) (a'.copyFromSlice w) (MatTends lim) := by
  unfold Mat.copyFromSlice
  intro x hx
  split at hx
  · cases hx
    refine ⟨fun k => ⟨v k⟩, Eventually.of_forall fun k => ?_, h⟩
    exact if_pos (by rw [h.1 k, (ha.1 k : (a k).data.length = _)]; assumption)
  · cases hx

variable [∀ k, Zero (T k)] [∀ k, One (T k)] [∀ k, Add (T k)] [∀ k, Sub (T k)] [∀ k, Mul (T k)] [∀ k, Neg (T k)]
variable [∀ k, MDT (T k)]

theorem recip_ev (hr : ScalarLimit F lim) {a : ∀ k, T k} {x : ℝ} (h : lim a x) :
    Ev F (fun k => MDT.recip (a k)) (MDT.recip x) lim := by
  intro t ht
  by_cases hx : x = 0
  · simp [MDT.recip, hx] at ht
  · simp only [MDT.recip, if_neg hx] at ht
    cases ht
    exact hr.recip h hx

theorem sqrt_ev (hr : ScalarLimit F lim) {a : ∀ k, T k} {x : ℝ} (h : lim a x) (hx : 0 < x) :
    Ev F (fun k => MDT.squareRoot (a k)) (MDT.squareRoot x) lim := by
  intro t ht
  simp only [MDT.squareRoot, if_neg (not_lt.2 hx.le)] at ht
  cases ht
  exact hr.squareRoot h hx

section Kernels
variable (hr : ScalarLimit F lim)
include hr

theorem mult_ev {a : ∀ k, Mat R C (T k)} {b : ∀ k, Mat C U (T k)} {c : ∀ k, Mat R U (T k)} {a' : Mat R C ℝ} {b' : Mat C U ℝ}
    {c' : Mat R U ℝ} (ha : MatTends lim a a') (hb : MatTends lim b b') (hc : MatTends lim c c') :
    Ev F (fun k => (a k).mult (b k) (c k)) (a'.mult b' c') (MatTends lim) := by
  unfold Mat.mult
  refine Ev.bind (Ev.down (S := ListTends lim) hc fun j s t h => ?_) fun _ _ h => Ev.pure h
  refine Ev.bind (S := With (τ := Nat) (ListTends lim)) (Ev.up (With.mk h _) ?_) ?_
  · rintro i _ ⟨t, ia⟩ ⟨s, rfl, h⟩
    refine Ev.bind (S := With (τ := Nat) lim) (Ev.up (With.mk hr.zero _) ?_) ?_
    · rintro q _ ⟨t, ia⟩ ⟨s, rfl, h⟩
      exact Ev.bind (ev_rd ha _) fun _ _ hv => Ev.bind (ev_rd hb _) fun _ _ hw => Ev.pure (With.mk (hr.add h (hr.mul hv hw)) _)
    · rintro _ ⟨v', ia⟩ ⟨v, rfl, hv⟩
      exact Ev.bind (ev_wr h _ hv) fun _ _ h => Ev.pure (With.mk h _)
  · rintro _ ⟨t, _⟩ ⟨s, rfl, h⟩
    exact Ev.pure h

theorem multRowvector_ev {a : ∀ k, Mat R C (T k)} {x : ∀ k, Mat C 1 (T k)} {c : ∀ k, Mat R 1 (T k)} {a' : Mat R C ℝ} {x' : Mat C 1 ℝ}
    {c' : Mat R 1 ℝ} (ha : MatTends lim a a') (hx : MatTends lim x x') (hc : MatTends lim c c') :
    Ev F (fun k => (a k).multRowvector (x k) (c k)) (a'.multRowvector x' c') (MatTends lim) := by
  unfold Mat.multRowvector
  refine Ev.bind (ev_rd hx 0) fun b0 b0' hb0 => ?_
  refine Ev.bind (S := With (τ := Nat) (ListTends lim)) (Ev.up (With.mk (S := ListTends lim) hc _) ?_) ?_
  · rintro i _ ⟨t, ia⟩ ⟨s, rfl, h⟩
    refine Ev.bind (ev_rd ha _) fun a0 a0' ha0 => ?_
    refine Ev.bind (S := With (τ := Nat) lim) (Ev.up (With.mk (hr.mul ha0 hb0) _) ?_) ?_
    · rintro q _ ⟨t, ia⟩ ⟨s, rfl, h⟩
      exact Ev.bind (ev_rd ha _) fun _ _ hv => Ev.bind (ev_rd hx _) fun _ _ hw => Ev.pure (With.mk (hr.add h (hr.mul hv hw)) _)
    · rintro _ ⟨v', ia⟩ ⟨v, rfl, hv⟩
      exact Ev.bind (ev_wr h _ hv) fun _ _ h => Ev.pure (With.mk h _)
  · rintro _ ⟨t, _⟩ ⟨s, rfl, h⟩
    exact Ev.pure h

theorem multaddRowvector_ev {a : ∀ k, Mat R C (T k)} {x : ∀ k, Mat C 1 (T k)} {c : ∀ k, Mat R 1 (T k)} {a' : Mat R C ℝ} {x' : Mat C 1 ℝ}
    {c' : Mat R 1 ℝ} (ha : MatTends lim a a') (hx : MatTends lim x x') (hc : MatTends lim c c') :
    Ev F (fun k => (a k).multaddRowvector (x k) (c k)) (a'.multaddRowvector x' c') (MatTends lim) := by
  unfold Mat.multaddRowvector
  refine Ev.bind (ev_rd hx 0) fun b0 b0' hb0 => ?_
  refine Ev.bind (S := With (τ := Nat) (ListTends lim)) (Ev.up (With.mk (S := ListTends lim) hc _) ?_) ?_
  · rintro i _ ⟨t, ia⟩ ⟨s, rfl, h⟩
    refine Ev.bind (ev_rd ha _) fun a0 a0' ha0 => ?_
    refine Ev.bind (S := With (τ := Nat) lim) (Ev.up (With.mk (hr.mul ha0 hb0) _) ?_) ?_
    · rintro q _ ⟨t, ia⟩ ⟨s, rfl, h⟩
      exact Ev.bind (ev_rd ha _) fun _ _ hv => Ev.bind (ev_rd hx _) fun _ _ hw => Ev.pure (With.mk (hr.add h (hr.mul hv hw)) _)
    · rintro _ ⟨v', ia⟩ ⟨v, rfl, hv⟩
      exact Ev.bind (ev_rd h _) fun _ _ hcv => Ev.bind (ev_wr h _ (hr.add hcv hv)) fun _ _ h => Ev.pure (With.mk h _)
  · rintro _ ⟨t, _⟩ ⟨s, rfl, h⟩
    exact Ev.pure h

theorem multTransb_ev {a : ∀ k, Mat R C (T k)} {b : ∀ k, Mat U C (T k)} {c : ∀ k, Mat R U (T k)} {a' : Mat R C ℝ} {b' : Mat U C ℝ}
    {c' : Mat R U ℝ} (ha : MatTends lim a a') (hb : MatTends lim b b') (hc : MatTends lim c c') :
    Ev F (fun k => (a k).multTransb (b k) (c k)) (a'.multTransb b' c') (MatTends lim) := by
  unfold Mat.multTransb
  refine Ev.bind (S := With (τ := Nat × Nat) (ListTends lim)) (Ev.up (With.mk (S := ListTends lim) hc _) ?_) ?_
  · rintro i _ ⟨t, ci, ia⟩ ⟨s, rfl, h⟩
    refine Ev.bind (S := With (τ := Nat × Nat) (ListTends lim)) (Ev.up (With.mk h _) ?_) ?_
    · rintro j _ ⟨t, ci, ib⟩ ⟨s, rfl, h⟩
      refine Ev.bind (S := With (τ := Nat) lim) (Ev.up (With.mk hr.zero _) ?_) ?_
      · rintro q _ ⟨t, ia⟩ ⟨s, rfl, h⟩
        exact Ev.bind (ev_rd ha _) fun _ _ hv => Ev.bind (ev_rd hb _) fun _ _ hw => Ev.pure (With.mk (hr.add h (hr.mul hv hw)) _)
      · rintro _ ⟨v', ia⟩ ⟨v, rfl, hv⟩
        exact Ev.bind (ev_wr h _ hv) fun _ _ h => Ev.pure (With.mk h _)
    · rintro _ ⟨t, ci, ib⟩ ⟨s, rfl, h⟩
      exact Ev.pure (With.mk h _)
  · rintro _ ⟨t, _⟩ ⟨s, rfl, h⟩
    exact Ev.pure h

theorem multaddTransb_ev {a : ∀ k, Mat R C (T k)} {b : ∀ k, Mat U C (T k)} {c : ∀ k, Mat R U (T k)} {a' : Mat R C ℝ} {b' : Mat U C ℝ}
    {c' : Mat R U ℝ} (ha : MatTends lim a a') (hb : MatTends lim b b') (hc : MatTends lim c c') :
    Ev F (fun k => (a k).multaddTransb (b k) (c k)) (a'.multaddTransb b' c') (MatTends lim) := by
  unfold Mat.multaddTransb
  refine Ev.bind (S := With (τ := Nat × Nat) (ListTends lim)) (Ev.up (With.mk (S := ListTends lim) hc _) ?_) ?_
  · rintro i _ ⟨t, ci, ia⟩ ⟨s, rfl, h⟩
    refine Ev.bind (S := With (τ := Nat × Nat) (ListTends lim)) (Ev.up (With.mk h _) ?_) ?_
    · rintro j _ ⟨t, ci, ib⟩ ⟨s, rfl, h⟩
      refine Ev.bind (S := With (τ := Nat) lim) (Ev.up (With.mk hr.zero _) ?_) ?_
      · rintro q _ ⟨t, ia⟩ ⟨s, rfl, h⟩
        exact Ev.bind (ev_rd ha _) fun _ _ hv => Ev.bind (ev_rd hb _) fun _ _ hw => Ev.pure (With.mk (hr.add h (hr.mul hv hw)) _)
      · rintro _ ⟨v', ia⟩ ⟨v, rfl, hv⟩
        exact Ev.bind (ev_rd h _) fun _ _ hcv => Ev.bind (ev_wr h _ (hr.add hcv hv)) fun _ _ h => Ev.pure (With.mk h _)
    · rintro _ ⟨t, ci, ib⟩ ⟨s, rfl, h⟩
      exact Ev.pure (With.mk h _)
  · rintro _ ⟨t, _⟩ ⟨s, rfl, h⟩
    exact Ev.pure h

theorem multscaleTransb_ev {a : ∀ k, Mat R C (T k)} {b : ∀ k, Mat U C (T k)} {c : ∀ k, Mat R U (T k)} {a' : Mat R C ℝ} {b' : Mat U C ℝ}
    {c' : Mat R U ℝ} {q : ∀ k, T k} {q' : ℝ} (ha : MatTends lim a a') (hb : MatTends lim b b') (hq : lim q q') (hc : MatTends lim c c') :
    Ev F (fun k => (a k).multscaleTransb (b k) (q k) (c k)) (a'.multscaleTransb b' q' c') (MatTends lim) := by
  unfold Mat.multscaleTransb
  refine Ev.bind (S := With (τ := Nat × Nat) (ListTends lim)) (Ev.up (With.mk (S := ListTends lim) hc _) ?_) ?_
  · rintro i _ ⟨t, ci, ia⟩ ⟨s, rfl, h⟩
    refine Ev.bind (S := With (τ := Nat × Nat) (ListTends lim)) (Ev.up (With.mk h _) ?_) ?_
    · rintro j _ ⟨t, ci, ib⟩ ⟨s, rfl, h⟩
      refine Ev.bind (S := With (τ := Nat) lim) (Ev.up (With.mk hr.zero _) ?_) ?_
      · rintro q _ ⟨t, ia⟩ ⟨s, rfl, h⟩
        exact Ev.bind (ev_rd ha _) fun _ _ hv => Ev.bind (ev_rd hb _) fun _ _ hw => Ev.pure (With.mk (hr.add h (hr.mul hv hw)) _)
      · rintro _ ⟨v', ia⟩ ⟨v, rfl, hv⟩
        exact Ev.bind (ev_wr h _ (hr.mul hv hq)) fun _ _ h => Ev.pure (With.mk h _)
    · rintro _ ⟨t, ci, ib⟩ ⟨s, rfl, h⟩
      exact Ev.pure (With.mk h _)
  · rintro _ ⟨t, _⟩ ⟨s, rfl, h⟩
    exact Ev.pure h

theorem addInplaceB_ev {a b : ∀ k, Mat R C (T k)} {a' b' : Mat R C ℝ} (ha : MatTends lim a a') (hb : MatTends lim b b') :
    Ev F (fun k => (a k).addInplaceB (b k)) (a'.addInplaceB b') (MatTends lim) := by
  unfold Mat.addInplaceB
  refine Ev.bind (Ev.down (S := ListTends lim) hb fun i s t h => ?_) fun _ _ h => Ev.pure h
  exact Ev.bind (ev_rd h i) fun _ _ hv => Ev.bind (ev_rd ha i) fun _ _ hw => ev_wr h i (hr.add hv hw)

theorem subInplaceB_ev {a b : ∀ k, Mat R C (T k)} {a' b' : Mat R C ℝ} (ha : MatTends lim a a') (hb : MatTends lim b b') :
    Ev F (fun k => (a k).subInplaceB (b k)) (a'.subInplaceB b') (MatTends lim) := by
  unfold Mat.subInplaceB
  refine Ev.bind (Ev.down (S := ListTends lim) hb fun i s t h => ?_) fun _ _ h => Ev.pure h
  exact Ev.bind (ev_rd ha i) fun _ _ hv => Ev.bind (ev_rd h i) fun _ _ hw => ev_wr h i (hr.sub hv hw)

theorem addInplaceA_ev {a b : ∀ k, Mat R C (T k)} {a' b' : Mat R C ℝ} (ha : MatTends lim a a') (hb : MatTends lim b b') :
    Ev F (fun k => (a k).addInplaceA (b k)) (a'.addInplaceA b') (MatTends lim) := by
  unfold Mat.addInplaceA
  refine Ev.bind (Ev.down (S := ListTends lim) ha fun i s t h => ?_) fun _ _ h => Ev.pure h
  exact Ev.bind (ev_rd h i) fun _ _ hv => Ev.bind (ev_rd hb i) fun _ _ hw => ev_wr h i (hr.add hv hw)

theorem subInplaceA_ev {a b : ∀ k, Mat R C (T k)} {a' b' : Mat R C ℝ} (ha : MatTends lim a a') (hb : MatTends lim b b') :
    Ev F (fun k => (a k).subInplaceA (b k)) (a'.subInplaceA b') (MatTends lim) := by
  unfold Mat.subInplaceA
  refine Ev.bind (Ev.down (S := ListTends lim) ha fun i s t h => ?_) fun _ _ h => Ev.pure h
  exact Ev.bind (ev_rd h i) fun _ _ hv => Ev.bind (ev_rd hb i) fun _ _ hw => ev_wr h i (hr.sub hv hw)

theorem chol_ev (bld : Build) {a : ∀ k, Mat R C (T k)} {a' : Mat R C ℝ} (ha : MatTends lim a a') {b : Mat R C ℝ}
    (hb : a'.choleskyDecomposeLower bld = .ok (b, true)) :
    ∃ s, (∀ᶠ k in F, (a k).choleskyDecomposeLower bld = .ok (s k, true)) ∧ MatTends lim s b := by
  have key : EvW F (fun k => (a k).choleskyDecomposeLower bld) (a'.choleskyDecomposeLower bld) (fun u => u.2 = true)
      (With (τ := Bool) (MatTends lim)) := by
    unfold Mat.choleskyDecomposeLower
    refine Ev.bindW ev_const fun _ _ _ => Ev.bindW ev_const fun _ _ _ => ?_
    refine EvC.bindW (S := Both (ListTends lim) lim) (EvC.up ⟨ha, hr.zero⟩ ?_) ?_ ?_
    · rintro i s t h
      refine EvC.up h ?_
      rintro j s ⟨t, d⟩ ⟨h, hd⟩
      refine Ev.bindC (ev_rd h _) fun v v' hv => ?_
      refine Ev.bindC (S := With (τ := Nat) lim) (Ev.up (With.mk hv _) ?_) ?_
      · rintro q _ ⟨t, ia⟩ ⟨s, rfl, h'⟩
        exact Ev.bind (ev_rd h _) fun _ _ hv => Ev.bind (ev_rd h _) fun _ _ hw =>
          Ev.pure (With.mk (hr.sub h' (hr.mul hv hw)) _)
      · rintro _ ⟨v', ia⟩ ⟨v, rfl, hv⟩
        refine Ev.bindC (ev_wr h _ (hr.mul hv hd)) fun s t h => ?_
        by_cases hij : i = j
        · simp only [if_pos hij]
          by_cases hle : MDT.le v' 0 = true
          · simp only [if_pos hle]
            exact EvC.ret
          · have hpos : 0 < v' := by
              simpa [MDT.le] using hle
            refine EvC.congr (hr.pos hv hpos) ?_ (c' := fun k => do
              let elII ← MDT.squareRoot (v k)
              let t ← wr (s k) (i * R + i) elII
              let divElII ← MDT.recip elII
              pure (Ctl.cont (t, divElII))) fun k hk => by simp [hk]
            simp only [if_neg hle]
            refine Ev.bindC (sqrt_ev hr hv hpos) fun e e' he => ?_
            refine Ev.bindC (ev_wr h _ he) fun s t h => ?_
            exact Ev.bindC (recip_ev hr he) fun _ _ hd => EvC.cont ⟨h, hd⟩
        · simp only [if_neg hij]
          exact EvC.cont ⟨h, hd⟩
    · intro r u hu hw
      cases hu
      cases hw
    · rintro s ⟨t, d⟩ h
      refine Ev.bind (S := ListTends lim) (Ev.up (S := ListTends lim) h.1 fun i s t h => ?_) fun _ _ h => Ev.pure (With.mk (S := MatTends lim) h true)
      exact Ev.up h fun j s t h => ev_wr h _ hr.zero
  obtain ⟨s, h1, ⟨a1, rfl, h2⟩⟩ := key (b, true) hb rfl
  exact ⟨a1, h1, h2⟩

theorem collect_ev {lo hi : Nat} {f : ∀ k, Nat → Res (T k)} {g : Nat → Res ℝ} (h : ∀ i, Ev F (fun k => f k i) (g i) lim) :
    Ev F (fun k => Mat.collect lo hi (f k)) (Mat.collect lo hi g) (ListTends lim) := by
  unfold Mat.collect
  refine Ev.up ListTends.nil fun i s t hst => ?_
  exact Ev.bind (h i) fun a b hab => Ev.pure (ListTends.snoc hst hab)

theorem invert_ev {a b : ∀ k, Mat N N (T k)} {a' b' : Mat N N ℝ} (ha : MatTends lim a a') (hb : MatTends lim b b') :
    Ev F (fun k => (a k).invertLCholesky (b k)) (a'.invertLCholesky b') (MatTends lim) := by
  unfold Mat.invertLCholesky
  refine Ev.bind (S := ListTends lim) (Ev.up hb fun i s t h => ?_) fun s t h => ?_
  · refine Ev.bind (ev_rd ha _) fun e e' he => Ev.bind (recip_ev hr he) fun d d' hd => ?_
    refine Ev.up h fun j s t h => ?_
    refine Ev.bind (collect_ev hr fun k => ?_) fun ts ts' hts => ?_
    · exact Ev.bind (ev_rd ha _) fun _ _ hv => Ev.bind (ev_rd h _) fun _ _ hw => Ev.pure (hr.mul (hr.neg hv) hw)
    · by_cases hij : i = j
      · simp only [if_pos hij]
        exact ev_wr h _ (hr.mul (hr.add hr.one (hr.isum hts)) hd)
      · simp only [if_neg hij]
        exact ev_wr h _ (hr.mul (hr.add hr.zero (hr.isum hts)) hd)
  · refine Ev.bind ev_const fun _ _ e => ?_
    subst e
    refine Ev.bind (S := ListTends lim) (Ev.down h fun i s t h => ?_) fun s t h => Ev.pure h
    refine Ev.bind (ev_rd ha _) fun e e' he => Ev.bind (recip_ev hr he) fun d d' hd => ?_
    refine Ev.up h fun j s t h => ?_
    refine Ev.bind (ev_rd h _) fun v v' hv => ?_
    refine Ev.bind (collect_ev hr fun k => ?_) fun ts ts' hts => ?_
    · exact Ev.bind (ev_rd ha _) fun _ _ hv => Ev.bind (ev_rd h _) fun _ _ hw => Ev.pure (hr.mul (hr.neg hv) hw)
    · by_cases hij : i < j
      · simp only [if_pos hij]
        exact Ev.bind (ev_wr h _ (hr.mul (hr.add hr.zero (hr.isum hts)) hd)) fun _ _ h =>
          ev_wr h _ (hr.mul (hr.add hr.zero (hr.isum hts)) hd)
      · simp only [if_neg hij]
        exact Ev.bind (ev_wr h _ (hr.mul (hr.add hv (hr.isum hts)) hd)) fun _ _ h =>
          ev_wr h _ (hr.mul (hr.add hv (hr.isum hts)) hd)

end Kernels

/-! ## Steps -/

/-- All buffers of the filters tend to those of `g`. -/
structure FullK {X : Type} (lim : (∀ k, T k) → X → Prop) (f : ∀ k, RegularKalman n (T k)) (g : RegularKalman n X) : Prop where
  x : MatTends lim (fun k => (f k).x) g.x
  A : MatTends lim (fun k => (f k).A) g.A
  P : MatTends lim (fun k => (f k).P) g.P
  Q : MatTends lim (fun k => (f k).Q) g.Q
  predictedX : MatTends lim (fun k => (f k).predictedX) g.predictedX
  tempP : MatTends lim (fun k => (f k).tempP) g.tempP

/-- All buffers of the controls tend to those of `d`. -/
structure FullC {X : Type} (lim : (∀ k, T k) → X → Prop) (c : ∀ k, Control n l (T k)) (d : Control n l X) : Prop where
  B : MatTends lim (fun k => (c k).B) d.B
  u : MatTends lim (fun k => (c k).u) d.u
  Q : MatTends lim (fun k => (c k).Q) d.Q
  tempBQ : MatTends lim (fun k => (c k).tempBQ) d.tempBQ

/-- All buffers of the observations tend to those of `p`. -/
structure FullO {X : Type} (lim : (∀ k, T k) → X → Prop) (o : ∀ k, RegularObservation n m (T k)) (p : RegularObservation n m X) : Prop where
  H : MatTends lim (fun k => (o k).H) p.H
  z : MatTends lim (fun k => (o k).z) p.z
  R : MatTends lim (fun k => (o k).R) p.R
  y : MatTends lim (fun k => (o k).y) p.y
  S : MatTends lim (fun k => (o k).S) p.S
  K : MatTends lim (fun k => (o k).K) p.K
  tempSInv : MatTends lim (fun k => (o k).tempSInv) p.tempSInv
  tempHP : MatTends lim (fun k => (o k).tempHP) p.tempHP
  tempPHt : MatTends lim (fun k => (o k).tempPHt) p.tempPHt
  tempKHP : MatTends lim (fun k => (o k).tempKHP) p.tempKHP

inductive FullCtl {X : Type} (lim : (∀ k, T k) → X → Prop) : (∀ k, (l : Nat) × Control n l (T k)) → (l : Nat) × Control n l X → Prop
  | mk {l : Nat} {c : ∀ k, Control n l (T k)} {d : Control n l X} (h : FullC lim c d) : FullCtl lim (fun k => ⟨l, c k⟩) ⟨l, d⟩

inductive FullObs {X : Type} (lim : (∀ k, T k) → X → Prop) :
    (∀ k, (m : Nat) × RegularObservation n m (T k)) → (m : Nat) × RegularObservation n m X → Prop
  | mk {m : Nat} {o : ∀ k, RegularObservation n m (T k)} {p : RegularObservation n m X} (h : FullO lim o p) :
    FullObs lim (fun k => ⟨m, o k⟩) ⟨m, p⟩

/-- All buffers of the programs tend to those of `v`. -/
structure FullW {X : Type} (lim : (∀ k, T k) → X → Prop) (w : ∀ k, World n (T k)) (v : World n X) : Prop where
  kf : FullK lim (fun k => (w k).kf) v.kf
  ctl : ListTends (FullCtl lim) (fun k => (w k).ctl) v.ctl
  obs : ListTends (FullObs lim) (fun k => (w k).obs) v.obs

section Steps
variable (hr : ScalarLimit F lim)
include hr

theorem applyControl_ev {c : ∀ k, Control n l (T k)} {x : ∀ k, Mat n 1 (T k)} {P : ∀ k, Mat n n (T k)} {c' : Control n l ℝ}
    {x' : Mat n 1 ℝ} {P' : Mat n n ℝ} (hc : FullC lim c c') (hx : MatTends lim x x') (hP : MatTends lim P P') :
    Ev F (fun k => (c k).applyControl (x k) (P k)) (c'.applyControl x' P')
      (fun a b => FullC lim (fun k => (a k).1) b.1 ∧ MatTends lim (fun k => (a k).2.1) b.2.1 ∧
        MatTends lim (fun k => (a k).2.2) b.2.2) := by
  unfold Control.applyControl
  by_cases he : (c'.u.isEmpty || c'.B.isEmpty) = true
  · have he' : ∀ k, ((c k).u.isEmpty || (c k).B.isEmpty) = true := fun _ => he
    simp only [if_pos he, if_pos (he' _)]
    exact Ev.pure (s := fun k => (c k, x k, P k)) ⟨hc, hx, hP⟩
  · have he' : ∀ k, ¬ ((c k).u.isEmpty || (c k).B.isEmpty) = true := fun _ => he
    simp only [if_neg he, if_neg (he' _)]
    refine Ev.bind (multaddRowvector_ev hr hc.B hc.u hx) fun x x' hx => ?_
    refine Ev.bind (mult_ev hr hc.B hc.Q hc.tempBQ) fun t t' ht => ?_
    exact Ev.bind (multaddTransb_ev hr ht hc.B hP) fun P P' hP => Ev.pure ⟨⟨hc.B, hc.u, hc.Q, ht⟩, hx, hP⟩

theorem update_ev (bld : Build) {o : ∀ k, RegularObservation n m (T k)} {x : ∀ k, Mat n 1 (T k)} {P : ∀ k, Mat n n (T k)}
    {o' : RegularObservation n m ℝ} {x' : Mat n 1 ℝ} {P' : Mat n n ℝ} (ho : FullO lim o o') (hx : MatTends lim x x')
    (hP : MatTends lim P P') (hm : 0 < m) (hov : o'.Valid) {H R PP} (rH : o'.H.Reps H) (rR : o'.R.Reps R)
    (rP : P'.Reps PP) (hS : (H * PP * H.transpose + R).PosDef) :
    Ev F (fun k => (o k).updateWithInnovation bld (x k) (P k)) (o'.updateWithInnovation bld x' P')
      (fun a b => FullO lim (fun k => (a k).1) b.1 ∧ MatTends lim (fun k => (a k).2.1) b.2.1 ∧
        MatTends lim (fun k => (a k).2.2) b.2.2) := by
  have := panickingReal_exact
  unfold RegularObservation.updateWithInnovation
  obtain ⟨hp, h1, h2, h3⟩ := Mat.mult_reps rH rP hov.tempHP
  rw [mulSeq_eq_mul] at h2
  obtain ⟨s, h4, h5, h6⟩ := Mat.multTransb_reps h2 rH hov.S
  rw [mulSeq_eq_mul] at h5
  obtain ⟨s2, h7, h8, h9⟩ := Mat.addInplaceA_reps h5 rR
  obtain ⟨L, b, c1, c2, c3, c4⟩ := chol_matrix bld hm (PosDef.symm_real hS) h8.upper
  have hb : b = true := by
    by_contra hb
    exact c4 (by simpa using hb) hS
  subst hb
  simp only [h1, h4, h7, c1, res_bind_ok]
  refine Ev.bind_ok (mult_ev hr ho.H hP ho.tempHP) h1 fun _ hHP => ?_
  refine Ev.bind_ok (multTransb_ev hr hHP ho.H ho.S) h4 fun _ hS => ?_
  refine Ev.bind_ok (addInplaceA_ev hr hS ho.R) h7 fun _ hS => ?_
  obtain ⟨SL, e1, e2⟩ := chol_ev hr bld hS c1
  refine Ev.bind_ok (S := fun s t => s = (fun k => (SL k, true)) ∧ t = (L, true)) ?_ c1 ?_
  · intro t ht
    rw [c1] at ht; cases ht
    exact ⟨_, e1, rfl, rfl⟩
  rintro _ ⟨rfl, -⟩
  refine Ev.bind (invert_ev hr e2 ho.tempSInv) fun _ _ hI => ?_
  refine Ev.bind (multTransb_ev hr hP ho.H ho.tempPHt) fun _ _ hPHt => ?_
  refine Ev.bind (mult_ev hr hPHt hI ho.K) fun _ _ hK => ?_
  refine Ev.bind (multaddRowvector_ev hr hK ho.y hx) fun _ _ hx => ?_
  refine Ev.bind (mult_ev hr ho.H hP hHP) fun _ _ hHP => ?_
  refine Ev.bind (mult_ev hr hK hHP ho.tempKHP) fun _ _ hKHP => ?_
  refine Ev.bind (subInplaceA_ev hr hP hKHP) fun _ _ hP => ?_
  exact Ev.pure ⟨⟨ho.H, ho.z, ho.R, ho.y, e2, hK, hI, hHP, hPHt, hKHP⟩, hx, hP⟩

theorem predictX_ev {f : ∀ k, RegularKalman n (T k)} {g : RegularKalman n ℝ} (h : FullK lim f g) :
    Ev F (fun k => (f k).predictX) g.predictX (FullK lim) := by
  unfold RegularKalman.predictX
  refine Ev.bind (multRowvector_ev hr h.A h.x h.predictedX) fun _ _ hp => ?_
  exact Ev.bind (copyTo_ev hp h.x) fun _ _ hx => Ev.pure ⟨hx, h.A, h.P, h.Q, hp, h.tempP⟩

theorem predict_ev {f : ∀ k, RegularKalman n (T k)} {g : RegularKalman n ℝ} (h : FullK lim f g) :
    Ev F (fun k => (f k).predict) g.predict (FullK lim) := by
  unfold RegularKalman.predict
  refine Ev.bind (predictX_ev hr h) fun f g h => ?_
  unfold RegularKalman.predictP
  refine Ev.bind (mult_ev hr h.A h.P h.tempP) fun _ _ ht => ?_
  refine Ev.bind (multTransb_ev hr ht h.A h.P) fun _ _ hP => ?_
  exact Ev.bind (addInplaceB_ev hr h.Q hP) fun _ _ hP => Ev.pure ⟨h.x, h.A, hP, h.Q, h.predictedX, ht⟩

theorem predictTuned_ev {f : ∀ k, RegularKalman n (T k)} {g : RegularKalman n ℝ} (h : FullK lim f g) {a b} (hab : lim a b) :
    Ev F (fun k => (f k).predictTuned (a k)) (g.predictTuned b) (FullK lim) := by
  unfold RegularKalman.predictTuned
  refine Ev.bind (predictX_ev hr h) fun f g h => ?_
  unfold RegularKalman.predictPTuned
  refine Ev.bind (recip_ev hr (hr.mul hab hab)) fun q q' hq => ?_
  refine Ev.bind (mult_ev hr h.A h.P h.tempP) fun _ _ ht => ?_
  refine Ev.bind (multscaleTransb_ev hr ht h.A hq h.P) fun _ _ hP => ?_
  exact Ev.bind (addInplaceB_ev hr h.Q hP) fun _ _ hP => Ev.pure ⟨h.x, h.A, hP, h.Q, h.predictedX, ht⟩

theorem control_ev {f : ∀ k, RegularKalman n (T k)} {g : RegularKalman n ℝ} (h : FullK lim f g) {c : ∀ k, Control n l (T k)}
    {d : Control n l ℝ} (hc : FullC lim c d) :
    Ev F (fun k => (f k).control (c k)) (g.control d)
      (fun a b => FullK lim (fun k => (a k).1) b.1 ∧ FullC lim (fun k => (a k).2) b.2) := by
  unfold RegularKalman.control
  refine Ev.bind (applyControl_ev hr hc h.x h.P) ?_
  rintro a ⟨d, y, S⟩ ⟨hc, hx, hP⟩
  exact Ev.pure ⟨⟨hx, h.A, hP, h.Q, h.predictedX, h.tempP⟩, hc⟩

theorem kcorrect_ev (bld : Build) {f : ∀ k, RegularKalman n (T k)} {g : RegularKalman n ℝ} (h : FullK lim f g)
    {o : ∀ k, RegularObservation n m (T k)} {p : RegularObservation n m ℝ} (ho : FullO lim o p) (hn : 0 < n) (hm : 0 < m)
    {x A P Q H z R} (hg : g.Reps x A P Q) (hp : p.Reps H z R) (hS : (H * P * H.transpose + R).PosDef) :
    Ev F (fun k => (f k).correct bld (o k)) (g.correct bld p)
      (fun a b => FullK lim (fun k => (a k).1) b.1 ∧ FullO lim (fun k => (a k).2) b.2) := by
  unfold RegularKalman.correct RegularObservation.correct
  refine Ev.bind (S := fun a b => FullO lim (fun k => (a k).1) b.1 ∧ MatTends lim (fun k => (a k).2.1) b.2.1 ∧
    MatTends lim (fun k => (a k).2.2) b.2.2) ?_ ?_
  · obtain ⟨y1, y2, h1, h2, h3, h4⟩ := innovation_any hn hp.valid hp.H hp.z hg.x
    simp only [h1, h2, res_bind_ok]
    refine Ev.bind_ok (multRowvector_ev hr ho.H h.x ho.y) h1 fun y1' hy1 => ?_
    refine Ev.bind_ok (subInplaceB_ev hr ho.z hy1) h2 fun y2' hy2 => ?_
    exact update_ev hr bld (o := fun k => { o k with y := y2' k }) (o' := { p with y := y2 })
      ⟨ho.H, ho.z, ho.R, hy2, ho.S, ho.K, ho.tempSInv, ho.tempHP, ho.tempPHt, ho.tempKHP⟩
      h.x h.P hm (obs_with_y_valid hp.valid h4) hp.H hp.R hg.P hS
  · rintro a ⟨d, y, S⟩ ⟨hc, hx, hP⟩
    exact Ev.pure ⟨⟨hx, h.A, hP, h.Q, h.predictedX, h.tempP⟩, hc⟩

omit hr in
theorem withCtl_ev {w : ∀ k, World n (T k)} {v : World n ℝ} (h : FullW lim w v) (i : Nat)
    {g : ∀ k, (l : Nat) → Control n l (T k) → Res (Control n l (T k))} {g' : (l : Nat) → Control n l ℝ → Res (Control n l ℝ)}
    (hg : ∀ {l : Nat} {c : ∀ k, Control n l (T k)} {d : Control n l ℝ}, FullC lim c d →
      Ev F (fun k => g k l (c k)) (g' l d) (FullC lim)) :
    Ev F (fun k => (w k).withCtl i (g k)) (v.withCtl i g') (FullW lim) := by
  unfold World.withCtl
  cases hi : v.ctl[i]? with
  | none => exact Ev.error _
  | some d =>
    obtain ⟨f, h1, h2⟩ := h.ctl.2 i d hi
    cases h2 with
    | mk hc =>
      simp only [h1]
      exact Ev.bind (hg hc) fun c d hc => Ev.pure ⟨h.kf, ListTends.set h.ctl i (.mk hc), h.obs⟩

omit hr in
theorem withObs_ev {w : ∀ k, World n (T k)} {v : World n ℝ} (h : FullW lim w v) (i : Nat)
    {g : ∀ k, (m : Nat) → RegularObservation n m (T k) → Res (RegularObservation n m (T k))}
    {g' : (m : Nat) → RegularObservation n m ℝ → Res (RegularObservation n m ℝ)}
    (hg : ∀ {m : Nat} {c : ∀ k, RegularObservation n m (T k)} {d : RegularObservation n m ℝ}, FullO lim c d →
      Ev F (fun k => g k m (c k)) (g' m d) (FullO lim)) :
    Ev F (fun k => (w k).withObs i (g k)) (v.withObs i g') (FullW lim) := by
  unfold World.withObs
  cases hi : v.obs[i]? with
  | none => exact Ev.error _
  | some d =>
    obtain ⟨f, h1, h2⟩ := h.obs.2 i d hi
    cases h2 with
    | mk hc =>
      simp only [h1]
      exact Ev.bind (hg hc) fun c d hc => Ev.pure ⟨h.kf, h.ctl, ListTends.set h.obs i (.mk hc)⟩

theorem step_ev (bld : Build) {w : ∀ k, World n (T k)} {v : World n ℝ} {s : Spec.State n ℝ} (h : FullW lim w v) (hv : v.Reps s)
    {op : ∀ k, Op (T k)} {op' : Op ℝ} (hop : Op.Tends lim op op') (hreg : s.Regular op') :
    Ev F (fun k => (w k).step bld (op k)) (v.step bld op') (FullW lim) := by
  cases hop with
  | predict => exact Ev.bind (predict_ev hr h.kf) fun _ _ hk => Ev.pure ⟨hk, h.ctl, h.obs⟩
  | predictTuned hab => exact Ev.bind (predictTuned_ev hr h.kf hab) fun _ _ hk => Ev.pure ⟨hk, h.ctl, h.obs⟩
  | control i =>
    unfold World.step
    dsimp only
    cases hi : v.ctl[i]? with
    | none => exact Ev.error _
    | some d =>
      obtain ⟨f, h1, h2⟩ := h.ctl.2 i d hi
      cases h2 with
      | mk hc =>
        simp only [h1]
        refine Ev.bind (control_ev hr h.kf hc) ?_
        rintro a ⟨g, d⟩ ⟨hf, hc⟩
        exact Ev.pure ⟨hf, ListTends.set h.ctl i (.mk hc), h.obs⟩
  | correct i =>
    unfold World.step
    dsimp only
    cases hi : v.obs[i]? with
    | none => exact Ev.error _
    | some d =>
      obtain ⟨f, h1, h2⟩ := h.obs.2 i d hi
      obtain ⟨o, ho1, ho2⟩ := forall₂_get hv.obs hi
      have hS := hreg o ho1
      cases h2 with
      | mk hc =>
        cases ho2 with
        | mk hm hp =>
          simp only [h1]
          refine Ev.bind (kcorrect_ev hr bld h.kf hc hv.states hm hv.kf hp hS) ?_
          rintro a ⟨g, d⟩ ⟨hf, hc⟩
          exact Ev.pure ⟨hf, h.ctl, ListTends.set h.obs i (.mk hc)⟩
  | setX hv => exact Ev.bind (copyFromSlice_ev h.kf.x hv) (fun _ _ k =>
      Ev.pure ⟨⟨k, h.kf.A, h.kf.P, h.kf.Q, h.kf.predictedX, h.kf.tempP⟩, h.ctl, h.obs⟩)
  | setA hv => exact Ev.bind (copyFromSlice_ev h.kf.A hv) (fun _ _ k =>
      Ev.pure ⟨⟨h.kf.x, k, h.kf.P, h.kf.Q, h.kf.predictedX, h.kf.tempP⟩, h.ctl, h.obs⟩)
  | setP hv => exact Ev.bind (copyFromSlice_ev h.kf.P hv) (fun _ _ k =>
      Ev.pure ⟨⟨h.kf.x, h.kf.A, k, h.kf.Q, h.kf.predictedX, h.kf.tempP⟩, h.ctl, h.obs⟩)
  | setQ hv => exact Ev.bind (copyFromSlice_ev h.kf.Q hv) (fun _ _ k =>
      Ev.pure ⟨⟨h.kf.x, h.kf.A, h.kf.P, k, h.kf.predictedX, h.kf.tempP⟩, h.ctl, h.obs⟩)
  | setU i hv => exact withCtl_ev h i fun hc => (Ev.bind (copyFromSlice_ev hc.u hv) (fun _ _ k =>
      Ev.pure (.mk hc.B k hc.Q hc.tempBQ)))
  | setB i hv => exact withCtl_ev h i fun hc => (Ev.bind (copyFromSlice_ev hc.B hv) (fun _ _ k =>
      Ev.pure (.mk k hc.u hc.Q hc.tempBQ)))
  | setQc i hv => exact withCtl_ev h i fun hc => (Ev.bind (copyFromSlice_ev hc.Q hv) (fun _ _ k =>
      Ev.pure (.mk hc.B hc.u k hc.tempBQ)))
  | setZ i hv => exact withObs_ev h i fun ho => (Ev.bind (copyFromSlice_ev ho.z hv) (fun _ _ k =>
      Ev.pure (.mk ho.H k ho.R ho.y ho.S ho.K ho.tempSInv ho.tempHP ho.tempPHt ho.tempKHP)))
  | setH i hv => exact withObs_ev h i fun ho => (Ev.bind (copyFromSlice_ev ho.H hv) (fun _ _ k =>
      Ev.pure (.mk k ho.z ho.R ho.y ho.S ho.K ho.tempSInv ho.tempHP ho.tempPHt ho.tempKHP)))
  | setR i hv => exact withObs_ev h i fun ho => (Ev.bind (copyFromSlice_ev ho.R hv) (fun _ _ k =>
      Ev.pure (.mk ho.H ho.z k ho.y ho.S ho.K ho.tempSInv ho.tempHP ho.tempPHt ho.tempKHP)))

/-- Whole histories of programs all whose buffers tend to those of an exact program. -/
theorem run_ev (bld : Build) {w : ∀ k, World n (T k)} {v : World n ℝ} {s : Spec.State n ℝ} (h : FullW lim w v) (hv : v.Reps s)
    {ops : ∀ k, List (Op (T k))} {ops' : List (Op ℝ)} (hops : ListTends (Op.Tends lim) ops ops')
    (hwf : ∀ op ∈ ops', op.WellFormed v) (hreg : s.RegularRun ops') :
    Ev F (fun k => (w k).run bld (ops k)) (v.run bld ops') (FullW lim) := by
  have := panickingReal_exact
  induction ops' generalizing w v s ops with
  | nil =>
    have : ops = fun _ => [] := funext fun k => ListTends.nil_inv hops k
    subst this
    exact Ev.ok h
  | cons op' ops' ih =>
    obtain ⟨op, rest, h1, h2, h3⟩ := ListTends.cons_inv hops
    obtain rfl : ops = fun k => op k :: rest k := funext h1
    obtain ⟨v', s', k1, k2, k3, k4⟩ := step_refines bld hv (hwf op' (by simp)) hreg.1
    simp only [World.run, k1, res_bind_ok]
    refine Ev.bind_ok (step_ev hr bld h hv h2 hreg.1) k1 fun w' hw' => ?_
    exact ih hw' k3 h3 (fun o ho => (hwf o (by simp [ho])).congr k4) (hreg.2 s' k2)

end Steps
end Limit
end Minikalman
