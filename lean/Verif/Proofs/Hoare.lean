import Verif.Model.Filter

/-!
# Total correctness and two-run reasoning for the panic monad
-/

namespace Minikalman

variable {α β γ σ τ T : Type}

/-- `m` does not panic and its value satisfies `Q`. -/
def Holds (m : Res α) (Q : α → Prop) : Prop := ∃ a, m = .ok a ∧ Q a

theorem Holds.bind {m : Res α} {f : α → Res β} {P : α → Prop} {Q : β → Prop}
    (h : Holds m P) (hf : ∀ a, P a → Holds (f a) Q) : Holds (m >>= f) Q := by
  obtain ⟨a, rfl, ha⟩ := h
  exact hf a ha

theorem Holds.mono {m : Res α} {P Q : α → Prop} (h : Holds m P) (hq : ∀ a, P a → Q a) : Holds m Q := by
  obtain ⟨a, h, ha⟩ := h
  exact ⟨a, h, hq a ha⟩

theorem Holds.pure {a : α} {Q : α → Prop} (h : Q a) : Holds (pure a : Res α) Q := ⟨a, rfl, h⟩

theorem Holds.ok {a : α} {Q : α → Prop} (h : Q a) : Holds (.ok a : Res α) Q := ⟨a, rfl, h⟩

theorem rd_eq {s : List T} {i : Nat} {v : T} (h : s[i]? = some v) : rd s i = .ok v := by
  simp [rd, h]

theorem rd_eq_iff {s : List T} {i : Nat} {v : T} : rd s i = .ok v ↔ s[i]? = some v := by
  unfold rd
  split <;> simp_all

theorem rd_error {s : List T} {i : Nat} (h : s.length ≤ i) : rd s i = .error .bounds := by
  simp [rd, List.getElem?_eq_none h]

theorem wr_eq {s : List T} {i : Nat} (h : i < s.length) (v : T) : wr s i v = .ok (s.set i v) := by
  simp [wr, h]

theorem wr_error {s : List T} {i : Nat} (h : s.length ≤ i) (v : T) : wr s i v = .error .bounds := by
  simp [wr, Nat.not_lt.mpr h]

theorem usub_eq {a b : Nat} (h : b ≤ a) : usub a b = .ok (a - b) := by simp [usub, h]

@[simp] theorem res_bind_ok (a : α) (f : α → Res β) : ((Except.ok a : Res α) >>= f) = f a := rfl

@[simp] theorem res_bind_error (e : Panic) (f : α → Res β) :
    ((Except.error e : Res α) >>= f) = .error e := rfl

theorem Holds.rd {s : List T} {i : Nat} {v : T} {f : T → Res β} {Q : β → Prop} (h : s[i]? = some v)
    (hf : Holds (f v) Q) : Holds (Minikalman.rd s i >>= f) Q := by
  rw [rd_eq h]; exact hf

theorem Holds.wr {s : List T} {i : Nat} {v : T} {f : List T → Res β} {Q : β → Prop} (h : i < s.length)
    (hf : Holds (f (s.set i v)) Q) : Holds (Minikalman.wr s i v >>= f) Q := by
  rw [wr_eq h]; exact hf

theorem forCount_inv {n lo : Nat} {body : Nat → σ → Res σ} {s : σ} (I : Nat → σ → Prop)
    (h0 : I lo s)
    (hstep : ∀ k s, lo ≤ k → k < lo + n → I k s → Holds (body k s) (I (k + 1))) :
    Holds (forCount n lo body s) (I (lo + n)) := by
  induction n generalizing lo s with
  | zero => exact ⟨s, rfl, h0⟩
  | succ n ih =>
    unfold forCount
    refine (hstep lo s (Nat.le_refl _) (by omega) h0).bind fun s' hs' => ?_
    have := ih (lo := lo + 1) hs' (fun k s hk hk' => hstep k s (by omega) (by omega))
    rwa [show lo + 1 + n = lo + (n + 1) by omega] at this

theorem forUp_inv {lo hi : Nat} {body : Nat → σ → Res σ} {s : σ} (I : Nat → σ → Prop)
    (hle : lo ≤ hi) (h0 : I lo s)
    (hstep : ∀ k s, lo ≤ k → k < hi → I k s → Holds (body k s) (I (k + 1))) :
    Holds (forUp lo hi body s) (I hi) := by
  have := forCount_inv (n := hi - lo) I h0 (fun k s h h' => hstep k s h (by omega))
  rwa [show lo + (hi - lo) = hi by omega] at this

/-- Deterministic ascending loop. -/
theorem forUp_eq {lo hi : Nat} {body : Nat → σ → Res σ} {s : σ} (g : Nat → σ)
    (hle : lo ≤ hi) (h0 : s = g lo)
    (hstep : ∀ k, lo ≤ k → k < hi → body k (g k) = .ok (g (k + 1))) :
    forUp lo hi body s = .ok (g hi) := by
  obtain ⟨a, ha, h⟩ := forUp_inv (body := body) (fun k s => s = g k) hle h0
    (fun k s h1 h2 h3 => ⟨_, by rw [h3]; exact hstep k h1 h2, rfl⟩)
  rw [ha, h]

theorem forUp_empty {lo hi : Nat} {body : Nat → σ → Res σ} {s : σ} (h : hi ≤ lo) :
    forUp lo hi body s = .ok s := by
  unfold forUp
  rw [show hi - lo = 0 by omega]; rfl

theorem forDown_inv {n : Nat} {body : Nat → σ → Res σ} {s : σ} (I : Nat → σ → Prop)
    (h0 : I n s) (hstep : ∀ k s, k < n → I (k + 1) s → Holds (body k s) (I k)) :
    Holds (forDown n body s) (I 0) := by
  induction n generalizing s with
  | zero => exact ⟨s, rfl, h0⟩
  | succ n ih =>
    unfold forDown
    exact (hstep n s (by omega) h0).bind fun s' hs' => ih hs' (fun k s hk => hstep k s (by omega))

/-- Postcondition of a loop (body) with early return. -/
def CtlPost {ρ : Type} (I : σ → Prop) (Qr : ρ → Prop) : Ctl σ ρ → Prop
  | .cont s => I s
  | .ret r => Qr r

/-- Loops with early return: `I k s` while running, `Qr r` upon return. -/
theorem forCountR_inv {ρ : Type} {n lo : Nat} {body : Nat → σ → Res (Ctl σ ρ)} {s : σ}
    (I : Nat → σ → Prop) (Qr : ρ → Prop) (h0 : I lo s)
    (hstep : ∀ k s, lo ≤ k → k < lo + n → I k s →
      Holds (body k s) (CtlPost (I (k + 1)) Qr)) :
    Holds (forCountR n lo body s) (CtlPost (I (lo + n)) Qr) := by
  induction n generalizing lo s with
  | zero => exact ⟨_, rfl, h0⟩
  | succ n ih =>
    unfold forCountR
    obtain ⟨c, hc, hq⟩ := hstep lo s (Nat.le_refl _) (by omega) h0
    rw [hc]
    cases c with
    | ret r => exact ⟨_, rfl, hq⟩
    | cont s' =>
      have := ih (lo := lo + 1) hq (fun k s hk hk' => hstep k s (by omega) (by omega))
      rwa [show lo + 1 + n = lo + (n + 1) by omega] at this

theorem forUpR_inv {ρ : Type} {lo hi : Nat} {body : Nat → σ → Res (Ctl σ ρ)} {s : σ}
    (I : Nat → σ → Prop) (Qr : ρ → Prop) (hle : lo ≤ hi) (h0 : I lo s)
    (hstep : ∀ k s, lo ≤ k → k < hi → I k s →
      Holds (body k s) (CtlPost (I (k + 1)) Qr)) :
    Holds (forUpR lo hi body s) (CtlPost (I hi) Qr) := by
  have := forCountR_inv (n := hi - lo) I Qr h0 (fun k s h h' => hstep k s h (by omega))
  rwa [show lo + (hi - lo) = hi by omega] at this

/-! ## Two runs -/

/-- Two computations either panic alike or both succeed with related values. -/
def Rel2 (m₁ : Res α) (m₂ : Res β) (Q : α → β → Prop) : Prop :=
  (∃ e, m₁ = .error e ∧ m₂ = .error e) ∨ ∃ a b, m₁ = .ok a ∧ m₂ = .ok b ∧ Q a b

theorem Rel2.ok {a : α} {b : β} {Q : α → β → Prop} (h : Q a b) :
    Rel2 (.ok a) (.ok b) Q := Or.inr ⟨a, b, rfl, rfl, h⟩

theorem Rel2.pure {a : α} {b : β} {Q : α → β → Prop} (h : Q a b) :
    Rel2 (Pure.pure a : Res α) (Pure.pure b : Res β) Q := Or.inr ⟨a, b, rfl, rfl, h⟩

theorem Rel2.bind {α' β' : Type} {m₁ : Res α} {m₂ : Res β} {f₁ : α → Res α'} {f₂ : β → Res β'}
    {P : α → β → Prop} {Q : α' → β' → Prop} (h : Rel2 m₁ m₂ P)
    (hf : ∀ a b, P a b → Rel2 (f₁ a) (f₂ b) Q) : Rel2 (m₁ >>= f₁) (m₂ >>= f₂) Q := by
  rcases h with ⟨e, rfl, rfl⟩ | ⟨a, b, rfl, rfl, h⟩
  · exact Or.inl ⟨e, rfl, rfl⟩
  · exact hf a b h

theorem Rel2.mono {m₁ : Res α} {m₂ : Res β} {P Q : α → β → Prop} (h : Rel2 m₁ m₂ P)
    (hq : ∀ a b, P a b → Q a b) : Rel2 m₁ m₂ Q := by
  rcases h with ⟨e, h1, h2⟩ | ⟨a, b, h1, h2, h⟩
  · exact Or.inl ⟨e, h1, h2⟩
  · exact Or.inr ⟨a, b, h1, h2, hq a b h⟩

theorem Rel2.refl (m : Res α) : Rel2 m m (fun a b => a = b) := by
  cases m with
  | error e => exact Or.inl ⟨e, rfl, rfl⟩
  | ok a => exact Or.inr ⟨a, a, rfl, rfl, rfl⟩

theorem Rel2.eq {m₁ m₂ : Res α} (h : Rel2 m₁ m₂ (fun a b => a = b)) : m₁ = m₂ := by
  rcases h with ⟨e, rfl, rfl⟩ | ⟨a, b, rfl, rfl, rfl⟩ <;> rfl

theorem rel2_forCount {n lo : Nat} {b₁ : Nat → σ → Res σ} {b₂ : Nat → τ → Res τ} {s₁ : σ} {s₂ : τ}
    (I : Nat → σ → τ → Prop) (h0 : I lo s₁ s₂)
    (hstep : ∀ k s t, lo ≤ k → k < lo + n → I k s t → Rel2 (b₁ k s) (b₂ k t) (I (k + 1))) :
    Rel2 (forCount n lo b₁ s₁) (forCount n lo b₂ s₂) (I (lo + n)) := by
  induction n generalizing lo s₁ s₂ with
  | zero => exact Rel2.ok h0
  | succ n ih =>
    unfold forCount
    refine (hstep lo s₁ s₂ (Nat.le_refl _) (by omega) h0).bind fun s t hst => ?_
    have := ih (lo := lo + 1) hst (fun k s t hk hk' => hstep k s t (by omega) (by omega))
    rwa [show lo + 1 + n = lo + (n + 1) by omega] at this

theorem rel2_forUp {lo hi : Nat} {b₁ : Nat → σ → Res σ} {b₂ : Nat → τ → Res τ} {s₁ : σ} {s₂ : τ}
    (I : Nat → σ → τ → Prop) (hle : lo ≤ hi) (h0 : I lo s₁ s₂)
    (hstep : ∀ k s t, lo ≤ k → k < hi → I k s t → Rel2 (b₁ k s) (b₂ k t) (I (k + 1))) :
    Rel2 (forUp lo hi b₁ s₁) (forUp lo hi b₂ s₂) (I hi) := by
  have := rel2_forCount (n := hi - lo) I h0 (fun k s t h h' => hstep k s t h (by omega))
  rwa [show lo + (hi - lo) = hi by omega] at this

theorem rel2_forDown {n : Nat} {b₁ : Nat → σ → Res σ} {b₂ : Nat → τ → Res τ} {s₁ : σ} {s₂ : τ}
    (I : Nat → σ → τ → Prop) (h0 : I n s₁ s₂)
    (hstep : ∀ k s t, k < n → I (k + 1) s t → Rel2 (b₁ k s) (b₂ k t) (I k)) :
    Rel2 (forDown n b₁ s₁) (forDown n b₂ s₂) (I 0) := by
  induction n generalizing s₁ s₂ with
  | zero => exact Rel2.ok h0
  | succ n ih =>
    unfold forDown
    exact (hstep n s₁ s₂ (by omega) h0).bind fun s t hst => ih hst (fun k s t hk => hstep k s t (by omega))

/-- Related outcomes of loop bodies with early return. -/
def CtlRel {ρ ρ' : Type} (P : σ → τ → Prop) (Q : ρ → ρ' → Prop) : Ctl σ ρ → Ctl τ ρ' → Prop
  | .cont s, .cont t => P s t
  | .ret r, .ret r' => Q r r'
  | _, _ => False

theorem rel2_forCountR {ρ ρ' : Type} {n lo : Nat} {b₁ : Nat → σ → Res (Ctl σ ρ)}
    {b₂ : Nat → τ → Res (Ctl τ ρ')} {s₁ : σ} {s₂ : τ}
    (I : Nat → σ → τ → Prop) (Q : ρ → ρ' → Prop) (h0 : I lo s₁ s₂)
    (hstep : ∀ k s t, lo ≤ k → k < lo + n → I k s t → Rel2 (b₁ k s) (b₂ k t) (CtlRel (I (k + 1)) Q)) :
    Rel2 (forCountR n lo b₁ s₁) (forCountR n lo b₂ s₂) (CtlRel (I (lo + n)) Q) := by
  induction n generalizing lo s₁ s₂ with
  | zero => exact Rel2.ok h0
  | succ n ih =>
    unfold forCountR
    rcases hstep lo s₁ s₂ (Nat.le_refl _) (by omega) h0 with ⟨e, h1, h2⟩ | ⟨a, b, h1, h2, hab⟩
    · rw [h1, h2]; exact Or.inl ⟨e, rfl, rfl⟩
    · rw [h1, h2]
      cases a <;> cases b <;> simp only [CtlRel] at hab
      · have := ih (lo := lo + 1) hab (fun k s t hk hk' => hstep k s t (by omega) (by omega))
        rwa [show lo + 1 + n = lo + (n + 1) by omega] at this
      · exact Rel2.ok hab

theorem rel2_forUpR {ρ ρ' : Type} {lo hi : Nat} {b₁ : Nat → σ → Res (Ctl σ ρ)}
    {b₂ : Nat → τ → Res (Ctl τ ρ')} {s₁ : σ} {s₂ : τ}
    (I : Nat → σ → τ → Prop) (Q : ρ → ρ' → Prop) (hle : lo ≤ hi) (h0 : I lo s₁ s₂)
    (hstep : ∀ k s t, lo ≤ k → k < hi → I k s t → Rel2 (b₁ k s) (b₂ k t) (CtlRel (I (k + 1)) Q)) :
    Rel2 (forUpR lo hi b₁ s₁) (forUpR lo hi b₂ s₂) (CtlRel (I hi) Q) := by
  have := rel2_forCountR (n := hi - lo) I Q h0 (fun k s t h h' => hstep k s t h (by omega))
  rwa [show lo + (hi - lo) = hi by omega] at this

end Minikalman

namespace Minikalman

variable {α β σ T : Type}

/-! ## Partial correctness -/

/-- If `m` does not panic its value satisfies `Q`. -/
def Part (m : Res α) (Q : α → Prop) : Prop := ∀ a, m = .ok a → Q a

theorem Part.bind {m : Res α} {f : α → Res β} {P : α → Prop} {Q : β → Prop}
    (h : Part m P) (hf : ∀ a, P a → Part (f a) Q) : Part (m >>= f) Q := by
  intro b hb
  cases m with
  | error e => cases hb
  | ok a => exact hf a (h a rfl) b hb

theorem Part.mono {m : Res α} {P Q : α → Prop} (h : Part m P) (hq : ∀ a, P a → Q a) : Part m Q :=
  fun a ha => hq a (h a ha)

theorem Part.pure {a : α} {Q : α → Prop} (h : Q a) : Part (pure a : Res α) Q := by
  intro b hb; cases hb; exact h

theorem Part.ok {a : α} {Q : α → Prop} (h : Q a) : Part (.ok a : Res α) Q := by
  intro b hb; cases hb; exact h

theorem Part.any (m : Res α) : Part m (fun _ => True) := fun _ _ => trivial

theorem part_wr {s : List T} {i : Nat} {v : T} :
    Part (wr s i v) (fun s' => i < s.length ∧ s' = s.set i v) := by
  intro a ha
  unfold wr at ha
  split at ha
  · cases ha; exact ⟨‹_›, rfl⟩
  · cases ha

theorem part_forCount {n lo : Nat} {body : Nat → σ → Res σ} {s : σ} (I : Nat → σ → Prop)
    (h0 : I lo s)
    (hstep : ∀ k s, lo ≤ k → k < lo + n → I k s → Part (body k s) (I (k + 1))) :
    Part (forCount n lo body s) (I (lo + n)) := by
  induction n generalizing lo s with
  | zero => exact Part.ok h0
  | succ n ih =>
    unfold forCount
    refine (hstep lo s (Nat.le_refl _) (by omega) h0).bind fun s' hs' => ?_
    have := ih (lo := lo + 1) hs' (fun k s hk hk' => hstep k s (by omega) (by omega))
    rwa [show lo + 1 + n = lo + (n + 1) by omega] at this

theorem part_forUp {lo hi : Nat} {body : Nat → σ → Res σ} {s : σ} (I : Nat → σ → Prop)
    (hle : lo ≤ hi) (h0 : I lo s)
    (hstep : ∀ k s, lo ≤ k → k < hi → I k s → Part (body k s) (I (k + 1))) :
    Part (forUp lo hi body s) (I hi) := by
  have := part_forCount (n := hi - lo) I h0 (fun k s h h' => hstep k s h (by omega))
  rwa [show lo + (hi - lo) = hi by omega] at this

theorem part_forDown {n : Nat} {body : Nat → σ → Res σ} {s : σ} (I : Nat → σ → Prop)
    (h0 : I n s) (hstep : ∀ k s, k < n → I (k + 1) s → Part (body k s) (I k)) :
    Part (forDown n body s) (I 0) := by
  induction n generalizing s with
  | zero => exact Part.ok h0
  | succ n ih =>
    unfold forDown
    exact (hstep n s (by omega) h0).bind fun s' hs' => ih hs' (fun k s hk => hstep k s (by omega))

end Minikalman

namespace Minikalman

variable {α β σ T : Type}

/-! ## Correctness up to allowed panics -/

/-- `m` panics only with an allowed panic `E`, and otherwise its value satisfies `Q`. -/
def Safe (E : Panic → Prop) (m : Res α) (Q : α → Prop) : Prop :=
  (∃ e, m = .error e ∧ E e) ∨ ∃ a, m = .ok a ∧ Q a

theorem Safe.bind {E : Panic → Prop} {m : Res α} {f : α → Res β} {P : α → Prop} {Q : β → Prop}
    (h : Safe E m P) (hf : ∀ a, P a → Safe E (f a) Q) : Safe E (m >>= f) Q := by
  rcases h with ⟨e, rfl, he⟩ | ⟨a, rfl, ha⟩
  · exact Or.inl ⟨e, rfl, he⟩
  · exact hf a ha

theorem Safe.mono {E : Panic → Prop} {m : Res α} {P Q : α → Prop} (h : Safe E m P) (hq : ∀ a, P a → Q a) :
    Safe E m Q := by
  rcases h with h | ⟨a, h, ha⟩
  · exact Or.inl h
  · exact Or.inr ⟨a, h, hq a ha⟩

theorem Safe.pure {E : Panic → Prop} {a : α} {Q : α → Prop} (h : Q a) : Safe E (pure a : Res α) Q :=
  Or.inr ⟨a, rfl, h⟩

theorem Safe.ok {E : Panic → Prop} {a : α} {Q : α → Prop} (h : Q a) : Safe E (.ok a : Res α) Q :=
  Or.inr ⟨a, rfl, h⟩

theorem Holds.safe {E : Panic → Prop} {m : Res α} {Q : α → Prop} (h : Holds m Q) : Safe E m Q := Or.inr h

theorem Safe.holds {E : Panic → Prop} {m : Res α} {Q : α → Prop} (h : Safe E m Q) (hE : ∀ e, ¬ E e) : Holds m Q := by
  rcases h with ⟨e, _, he⟩ | h
  · exact absurd he (hE e)
  · exact h

theorem Safe.all {E : Panic → Prop} {m : Res α} (h : ∀ e, m = .error e → E e) : Safe E m (fun _ => True) := by
  cases m with
  | error e => exact Or.inl ⟨e, rfl, h e rfl⟩
  | ok a => exact Or.inr ⟨a, rfl, trivial⟩

theorem safe_forCount {E : Panic → Prop} {n lo : Nat} {body : Nat → σ → Res σ} {s : σ} (I : Nat → σ → Prop)
    (h0 : I lo s)
    (hstep : ∀ k s, lo ≤ k → k < lo + n → I k s → Safe E (body k s) (I (k + 1))) :
    Safe E (forCount n lo body s) (I (lo + n)) := by
  induction n generalizing lo s with
  | zero => exact Safe.ok h0
  | succ n ih =>
    unfold forCount
    refine (hstep lo s (Nat.le_refl _) (by omega) h0).bind fun s' hs' => ?_
    have := ih (lo := lo + 1) hs' (fun k s hk hk' => hstep k s (by omega) (by omega))
    rwa [show lo + 1 + n = lo + (n + 1) by omega] at this

theorem safe_forUp {E : Panic → Prop} {lo hi : Nat} {body : Nat → σ → Res σ} {s : σ} (I : Nat → σ → Prop)
    (hle : lo ≤ hi) (h0 : I lo s)
    (hstep : ∀ k s, lo ≤ k → k < hi → I k s → Safe E (body k s) (I (k + 1))) :
    Safe E (forUp lo hi body s) (I hi) := by
  have := safe_forCount (n := hi - lo) I h0 (fun k s h h' => hstep k s h (by omega))
  rwa [show lo + (hi - lo) = hi by omega] at this

theorem safe_forDown {E : Panic → Prop} {n : Nat} {body : Nat → σ → Res σ} {s : σ} (I : Nat → σ → Prop)
    (h0 : I n s) (hstep : ∀ k s, k < n → I (k + 1) s → Safe E (body k s) (I k)) :
    Safe E (forDown n body s) (I 0) := by
  induction n generalizing s with
  | zero => exact Safe.ok h0
  | succ n ih =>
    unfold forDown
    exact (hstep n s (by omega) h0).bind fun s' hs' => ih hs' (fun k s hk => hstep k s (by omega))

theorem safe_forCountR {ρ : Type} {E : Panic → Prop} {n lo : Nat} {body : Nat → σ → Res (Ctl σ ρ)} {s : σ}
    (I : Nat → σ → Prop) (Qr : ρ → Prop) (h0 : I lo s)
    (hstep : ∀ k s, lo ≤ k → k < lo + n → I k s → Safe E (body k s) (CtlPost (I (k + 1)) Qr)) :
    Safe E (forCountR n lo body s) (CtlPost (I (lo + n)) Qr) := by
  induction n generalizing lo s with
  | zero => exact Safe.ok h0
  | succ n ih =>
    unfold forCountR
    rcases hstep lo s (Nat.le_refl _) (by omega) h0 with ⟨e, h, he⟩ | ⟨c, hc, hq⟩
    · rw [h]; exact Or.inl ⟨e, rfl, he⟩
    rw [hc]
    cases c with
    | ret r => exact Safe.ok hq
    | cont s' =>
      have := ih (lo := lo + 1) hq (fun k s hk hk' => hstep k s (by omega) (by omega))
      rwa [show lo + 1 + n = lo + (n + 1) by omega] at this

theorem safe_forUpR {ρ : Type} {E : Panic → Prop} {lo hi : Nat} {body : Nat → σ → Res (Ctl σ ρ)} {s : σ}
    (I : Nat → σ → Prop) (Qr : ρ → Prop) (hle : lo ≤ hi) (h0 : I lo s)
    (hstep : ∀ k s, lo ≤ k → k < hi → I k s → Safe E (body k s) (CtlPost (I (k + 1)) Qr)) :
    Safe E (forUpR lo hi body s) (CtlPost (I hi) Qr) := by
  have := safe_forCountR (n := hi - lo) I Qr h0 (fun k s h h' => hstep k s h (by omega))
  rwa [show lo + (hi - lo) = hi by omega] at this

end Minikalman
