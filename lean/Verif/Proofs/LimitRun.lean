import Verif.Proofs.Limit
import Verif.Proofs.Aliasing

/-! # Limits of whole programs, whatever their temporaries hold -/

set_option linter.unusedSectionVars false

namespace Minikalman
namespace Limit

open Filter

attribute [local instance] panickingReal

variable {ι : Type} {F : Filter ι} {T : ι → Type} {n l m R C : Nat}

section Lists
variable {α α' : ι → Type} {β β' : Type} {r : (∀ k, α k) → β → Prop} {r' : (∀ k, α' k) → β' → Prop}

theorem ListTends.map {s : ∀ k, List (α k)} {t : List β} (h : ListTends r s t) {g : ∀ k, α k → α' k} {g' : β → β'}
    (hg : ∀ f x, r f x → r' (fun k => g k (f k)) (g' x)) : ListTends r' (fun k => (s k).map (g k)) (t.map g') := by
  refine ⟨fun k => by simp [h.1 k], fun i y hi => ?_⟩
  rw [List.getElem?_map, Option.map_eq_some_iff] at hi
  obtain ⟨x, hx, rfl⟩ := hi
  obtain ⟨f, h1, h2⟩ := h.2 i x hx
  exact ⟨_, fun k => by rw [List.getElem?_map, h1 k]; rfl, hg f x h2⟩

theorem ListTends.none {s : ∀ k, List (α k)} {t : List β} (h : ListTends r s t) {i : Nat} (hi : t[i]? = none) (k : ι) :
    (s k)[i]? = none := by
  rw [List.getElem?_eq_none_iff] at hi ⊢
  rw [h.1 k]; exact hi

/-- Entries that are equal for all `k` in the relevant part: related lists of families give related limits. -/
theorem ListTends.congr {s s' : ∀ k, List (α k)} {t : List β} {e : ∀ {k}, α k → α k → Prop} (h : ListTends r s t)
    (hs : ∀ k, List.Forall₂ e (s' k) (s k)) (hr : ∀ f g x, r f x → (∀ k, e (g k) (f k)) → r g x) : ListTends r s' t := by
  refine ⟨fun k => (hs k).length_eq.trans (h.1 k), fun i x hi => ?_⟩
  obtain ⟨f, h1, h2⟩ := h.2 i x hi
  have : ∀ k, ∃ y, (s' k)[i]? = some y ∧ e y (f k) := by
    intro k
    have hl : i < (s' k).length := by
      rw [(hs k).length_eq]
      exact (List.getElem?_eq_some_iff.1 (h1 k)).1
    refine ⟨(s' k)[i], List.getElem?_eq_getElem hl, ?_⟩
    obtain ⟨b, hb, hab⟩ := forall₂_get (hs k) (List.getElem?_eq_getElem hl)
    rw [h1 k] at hb; cases hb
    exact hab
  choose g hg1 hg2 using this
  exact ⟨g, hg1, hr f g x h2 hg2⟩

end Lists

/-- `N` zeros. -/
def zeros (T : Type) [Zero T] (R C : Nat) : Mat R C T := ⟨List.replicate (R * C) 0⟩

theorem zeros_valid (T : Type) [Zero T] (R C : Nat) : (zeros T R C).Valid := by simp [zeros, Mat.Valid]

/-- The same program with temporaries that hold zeros. -/
def clean {T : Type} [Zero T] (w : World n T) : World n T where
  kf := { w.kf with predictedX := zeros T n 1, tempP := zeros T n n }
  ctl := w.ctl.map fun c => ⟨c.1, { c.2 with tempBQ := zeros T n c.1 }⟩
  obs := w.obs.map fun o => ⟨o.1, { o.2 with y := zeros T o.1 1, S := zeros T o.1 o.1, K := zeros T n o.1, tempSInv := zeros T o.1 o.1, tempHP := zeros T o.1 n, tempPHt := zeros T n o.1, tempKHP := zeros T n n }⟩

section Clean
variable {T : Type} [Zero T]

theorem forall₂_map_right {α : Type} {e : α → α → Prop} {g : α → α} (h : ∀ a, e a (g a)) (s : List α) :
    List.Forall₂ e s (s.map g) := by
  induction s with
  | nil => exact .nil
  | cons a s ih => exact .cons (h a) ih

theorem clean_inputs (w : World n T) : w.InputsEq (clean w) :=
  ⟨rfl, rfl, rfl, rfl, forall₂_map_right (fun _ => .mk rfl rfl rfl) _, forall₂_map_right (fun _ => .mk rfl rfl rfl) _⟩

theorem clean_valid {w : World n T} (h : w.Valid) : (clean w).Valid := by
  refine ⟨h.states, ⟨h.kf.x, h.kf.A, h.kf.P, h.kf.Q, zeros_valid _ _ _, zeros_valid _ _ _⟩, fun c hc => ?_, fun o ho => ?_⟩
  · obtain ⟨d, hd, rfl⟩ := List.mem_map.1 hc
    have := h.ctl d hd
    exact ⟨this.B, this.u, this.Q, zeros_valid _ _ _⟩
  · obtain ⟨p, hp, rfl⟩ := List.mem_map.1 ho
    have := h.obs p hp
    exact ⟨this.1, this.2.H, this.2.z, this.2.R, zeros_valid _ _ _, zeros_valid _ _ _, zeros_valid _ _ _, zeros_valid _ _ _,
      zeros_valid _ _ _, zeros_valid _ _ _, zeros_valid _ _ _⟩

theorem clean_reps {w : World n T} {s : Spec.State n T} (h : w.Reps s) : (clean w).Reps s := by
  refine ⟨h.states, ⟨h.kf.x, h.kf.A, h.kf.P, h.kf.Q, zeros_valid _ _ _, zeros_valid _ _ _⟩, ?_, ?_⟩
  · show List.Forall₂ _ (List.map _ _) _
    rw [List.forall₂_map_left_iff]
    refine h.ctl.imp fun c d hc => ?_
    cases hc with
    | mk hc => exact .mk ⟨hc.B, hc.u, hc.Q, zeros_valid _ _ _⟩
  · show List.Forall₂ _ (List.map _ _) _
    rw [List.forall₂_map_left_iff]
    refine h.obs.imp fun o p ho => ?_
    cases ho with
    | mk hm ho => exact .mk hm ⟨ho.H, ho.z, ho.R, zeros_valid _ _ _, zeros_valid _ _ _, zeros_valid _ _ _, zeros_valid _ _ _,
      zeros_valid _ _ _, zeros_valid _ _ _, zeros_valid _ _ _⟩

end Clean

section Any
variable {T : Type} [Zero T] [One T] [Add T] [Sub T] [Mul T] [Neg T] [MDT T]

theorem runScribbled_id (bld : Build) (w : World n T) (k : Nat) (ops : List (Op T)) :
    w.runScribbled bld (fun _ w => w) k ops = w.run bld ops := by
  induction ops generalizing w k with
  | nil => rfl
  | cons op ops ih =>
    unfold World.run World.runScribbled
    cases w.step bld op with
    | error e => rfl
    | ok w' => exact ih _ _

theorem run_inputs (bld : Build) {w w' : World n T} (hw : w.Valid) (hw' : w'.Valid) (h : w.InputsEq w') {ops : List (Op T)}
    (hops : ∀ op ∈ ops, op.WellFormed w) : Rel2 (w.run bld ops) (w'.run bld ops) (fun a b => a.InputsEq b) := by
  have := run_scribbled bld (scribble := fun _ w => w) (fun _ w => ⟨World.InputsEq.refl w, id⟩) 0 hw hw' h hops
  rwa [runScribbled_id] at this

end Any

variable {lim : (∀ k, T k) → ℝ → Prop}

theorem zeros_tends [∀ k, Zero (T k)] (h0 : lim (fun _ => 0) 0) : MatTends lim (fun k => zeros (T k) R C) (zeros ℝ R C) := by
  refine ⟨fun k => by simp [zeros], fun i x hi => ⟨fun _ => 0, fun k => ?_, ?_⟩⟩
  · have : i < R * C := by
      by_contra hc
      simp [zeros, hc] at hi
    simp [zeros, this]
  · simp only [zeros, List.getElem?_replicate] at hi
    split at hi
    · cases hi; exact h0
    · cases hi

theorem clean_full [∀ k, Zero (T k)] (h0 : lim (fun _ => 0) 0) {w : ∀ k, World n (T k)} {v : World n ℝ}
    (h : World.TendsTo lim w v) : FullW lim (fun k => clean (w k)) (clean v) := by
  refine ⟨⟨h.x, h.A, h.P, h.Q, zeros_tends h0, zeros_tends h0⟩, ?_, ?_⟩
  · refine ListTends.map h.ctl (r' := FullCtl lim) (g := fun _ c => ⟨c.1, { c.2 with tempBQ := zeros _ n c.1 }⟩) fun f x hf => ?_
    cases hf with
    | mk B u Q => exact .mk ⟨B, u, Q, zeros_tends h0⟩
  · refine ListTends.map h.obs (r' := FullObs lim) (g := fun _ o => ⟨o.1, { o.2 with y := zeros _ o.1 1, S := zeros _ o.1 o.1, K := zeros _ n o.1, tempSInv := zeros _ o.1 o.1, tempHP := zeros _ o.1 n, tempPHt := zeros _ n o.1, tempKHP := zeros _ n n }⟩) fun f x hf => ?_
    cases hf with
    | mk H z R => exact .mk ⟨H, z, R, zeros_tends h0, zeros_tends h0, zeros_tends h0, zeros_tends h0, zeros_tends h0, zeros_tends h0, zeros_tends h0⟩

theorem MatTends.valid {a : ∀ k, Mat R C (T k)} {b : Mat R C ℝ} (h : MatTends lim a b) (hb : b.Valid) (k : ι) : (a k).Valid := by
  have := h.1 k
  unfold Mat.Valid at hb ⊢
  rw [this]; exact hb

theorem FullW.valid {w : ∀ k, World n (T k)} {v : World n ℝ} (h : FullW lim w v) (hv : v.Valid) (k : ι) : (w k).Valid := by
  refine ⟨hv.states, ⟨MatTends.valid h.kf.x hv.kf.x k, MatTends.valid h.kf.A hv.kf.A k, MatTends.valid h.kf.P hv.kf.P k, MatTends.valid h.kf.Q hv.kf.Q k,
    MatTends.valid h.kf.predictedX hv.kf.predictedX k, MatTends.valid h.kf.tempP hv.kf.tempP k⟩, fun c hc => ?_, fun o ho => ?_⟩
  · obtain ⟨i, hi⟩ := List.mem_iff_getElem?.mp hc
    cases hd : v.ctl[i]? with
    | none => rw [ListTends.none h.ctl hd k] at hi; cases hi
    | some d =>
      obtain ⟨f, h1, h2⟩ := h.ctl.2 i d hd
      rw [h1 k] at hi
      have hdv := hv.ctl d (List.mem_iff_getElem?.mpr ⟨i, hd⟩)
      cases h2 with
      | mk h2 =>
        cases hi
        exact ⟨MatTends.valid h2.B hdv.B k, MatTends.valid h2.u hdv.u k, MatTends.valid h2.Q hdv.Q k, MatTends.valid h2.tempBQ hdv.tempBQ k⟩
  · obtain ⟨i, hi⟩ := List.mem_iff_getElem?.mp ho
    cases hd : v.obs[i]? with
    | none => rw [ListTends.none h.obs hd k] at hi; cases hi
    | some d =>
      obtain ⟨f, h1, h2⟩ := h.obs.2 i d hd
      rw [h1 k] at hi
      obtain ⟨hm, hdv⟩ := hv.obs d (List.mem_iff_getElem?.mpr ⟨i, hd⟩)
      cases h2 with
      | mk h2 =>
        cases hi
        exact ⟨hm, MatTends.valid h2.H hdv.H k, MatTends.valid h2.z hdv.z k, MatTends.valid h2.R hdv.R k, MatTends.valid h2.y hdv.y k, MatTends.valid h2.S hdv.S k,
          MatTends.valid h2.K hdv.K k, MatTends.valid h2.tempSInv hdv.tempSInv k, MatTends.valid h2.tempHP hdv.tempHP k,
          MatTends.valid h2.tempPHt hdv.tempPHt k, MatTends.valid h2.tempKHP hdv.tempKHP k⟩

/-- Temporaries do not matter. -/
theorem tendsTo_congr {w c : ∀ k, World n (T k)} {v : World n ℝ} (h : World.TendsTo lim c v) (hw : ∀ k, (w k).Valid)
    (hi : ∀ k, (w k).InputsEq (c k)) : World.TendsTo lim w v := by
  refine ⟨hw, ?_, ?_, ?_, ?_, ?_, ?_⟩
  · rw [show (fun k => (w k).kf.x) = fun k => (c k).kf.x from funext fun k => (hi k).x]; exact h.x
  · rw [show (fun k => (w k).kf.A) = fun k => (c k).kf.A from funext fun k => (hi k).A]; exact h.A
  · rw [show (fun k => (w k).kf.P) = fun k => (c k).kf.P from funext fun k => (hi k).P]; exact h.P
  · rw [show (fun k => (w k).kf.Q) = fun k => (c k).kf.Q from funext fun k => (hi k).Q]; exact h.Q
  · refine ListTends.congr (e := CtlInputsEq) h.ctl (fun k => (hi k).ctl) fun f g x hf hg => ?_
    cases hf with
    | @mk l c d B u Q =>
      have : ∀ k, ∃ e : Control n l (T k), g k = ⟨l, e⟩ ∧ e.B = (c k).B ∧ e.u = (c k).u ∧ e.Q = (c k).Q := by
        intro k
        have := hg k
        generalize g k = gk at this
        cases this with
        | mk a b c => exact ⟨_, rfl, a, b, c⟩
      choose e he h1 h2 h3 using this
      obtain rfl : g = fun k => ⟨l, e k⟩ := funext he
      refine .mk ?_ ?_ ?_
      · simp only [h1]; exact B
      · simp only [h2]; exact u
      · simp only [h3]; exact Q
  · refine ListTends.congr (e := ObsInputsEq) h.obs (fun k => (hi k).obs) fun f g x hf hg => ?_
    cases hf with
    | @mk m c d H z R =>
      have : ∀ k, ∃ e : RegularObservation n m (T k), g k = ⟨m, e⟩ ∧ e.H = (c k).H ∧ e.z = (c k).z ∧ e.R = (c k).R := by
        intro k
        have := hg k
        generalize g k = gk at this
        cases this with
        | mk a b c => exact ⟨_, rfl, a, b, c⟩
      choose e he h1 h2 h3 using this
      obtain rfl : g = fun k => ⟨m, e k⟩ := funext he
      refine .mk ?_ ?_ ?_
      · simp only [h1]; exact H
      · simp only [h2]; exact z
      · simp only [h3]; exact R

theorem FullW.tendsTo {w c : ∀ k, World n (T k)} {v : World n ℝ} (h : FullW lim c v) (hv : v.Valid) (hw : ∀ k, (w k).Valid)
    (hi : ∀ k, (w k).InputsEq (c k)) : World.TendsTo lim w v := by
  refine tendsTo_congr ⟨fun k => FullW.valid h hv k, h.kf.x, h.kf.A, h.kf.P, h.kf.Q, ⟨h.ctl.1, fun i x hx => ?_⟩, ⟨h.obs.1, fun i x hx => ?_⟩⟩ hw hi
  · obtain ⟨f, h1, h2⟩ := h.ctl.2 i x hx
    refine ⟨f, h1, ?_⟩
    cases h2 with
    | mk h2 => exact .mk h2.B h2.u h2.Q
  · obtain ⟨f, h1, h2⟩ := h.obs.2 i x hx
    refine ⟨f, h1, ?_⟩
    cases h2 with
    | mk h2 => exact .mk h2.H h2.z h2.R

theorem wellFormed_limit {w : ∀ k, World n (T k)} {v : World n ℝ} (h : World.TendsTo lim w v) {op : ∀ k, Op (T k)} {op' : Op ℝ}
    (ho : Op.Tends lim op op') (k : ι) (hk : (op k).WellFormed (w k)) : op'.WellFormed v := by
  have hc : ∀ {i : Nat} {len : ∀ (T' : Type), ((l : Nat) × Control n l T') → Nat} {N : Nat},
      (∀ f x, CtlTends lim f x → len _ (f k) = len _ x) → (((w k).ctl[i]?).map (len _)) = some N →
      ((v.ctl[i]?).map (len _)) = some N := by
    intro i len N hl hN
    cases hi : v.ctl[i]? with
    | none => rw [ListTends.none h.ctl hi k] at hN; cases hN
    | some x =>
      obtain ⟨f, h1, h2⟩ := h.ctl.2 i x hi
      rw [h1 k] at hN
      cases hN
      show some _ = some _
      rw [hl f x h2]
  have hob : ∀ {i : Nat} {len : ∀ (T' : Type), ((m : Nat) × RegularObservation n m T') → Nat} {N : Nat},
      (∀ f x, ObsTends lim f x → len _ (f k) = len _ x) → (((w k).obs[i]?).map (len _)) = some N →
      ((v.obs[i]?).map (len _)) = some N := by
    intro i len N hl hN
    cases hi : v.obs[i]? with
    | none => rw [ListTends.none h.obs hi k] at hN; cases hN
    | some x =>
      obtain ⟨f, h1, h2⟩ := h.obs.2 i x hi
      rw [h1 k] at hN
      cases hN
      show some _ = some _
      rw [hl f x h2]
  cases ho with
  | predict => trivial
  | predictTuned _ => trivial
  | control i => exact lt_of_lt_of_eq hk (h.ctl.1 k)
  | correct i => exact lt_of_lt_of_eq hk (h.obs.1 k)
  | setX hv => exact (hv.1 k).symm.trans (Eq.trans hk (h.x.1 k))
  | setA hv => exact (hv.1 k).symm.trans (Eq.trans hk (h.A.1 k))
  | setP hv => exact (hv.1 k).symm.trans (Eq.trans hk (h.P.1 k))
  | setQ hv => exact (hv.1 k).symm.trans (Eq.trans hk (h.Q.1 k))
  | setU i hv =>
    dsimp only [Op.WellFormed] at hk ⊢
    rw [← hv.1 k]
    refine hc (len := fun _ c => c.2.u.data.length) (fun f x hf => ?_) hk
    cases hf with | mk _ u _ => exact u.1 k
  | setB i hv =>
    dsimp only [Op.WellFormed] at hk ⊢
    rw [← hv.1 k]
    refine hc (len := fun _ c => c.2.B.data.length) (fun f x hf => ?_) hk
    cases hf with | mk B _ _ => exact B.1 k
  | setQc i hv =>
    dsimp only [Op.WellFormed] at hk ⊢
    rw [← hv.1 k]
    refine hc (len := fun _ c => c.2.Q.data.length) (fun f x hf => ?_) hk
    cases hf with | mk _ _ Q => exact Q.1 k
  | setZ i hv =>
    dsimp only [Op.WellFormed] at hk ⊢
    rw [← hv.1 k]
    refine hob (len := fun _ c => c.2.z.data.length) (fun f x hf => ?_) hk
    cases hf with | mk _ z _ => exact z.1 k
  | setH i hv =>
    dsimp only [Op.WellFormed] at hk ⊢
    rw [← hv.1 k]
    refine hob (len := fun _ c => c.2.H.data.length) (fun f x hf => ?_) hk
    cases hf with | mk H _ _ => exact H.1 k
  | setR i hv =>
    dsimp only [Op.WellFormed] at hk ⊢
    rw [← hv.1 k]
    refine hob (len := fun _ c => c.2.R.data.length) (fun f x hf => ?_) hk
    cases hf with | mk _ _ R => exact R.1 k

variable [∀ k, Zero (T k)] [∀ k, One (T k)] [∀ k, Add (T k)] [∀ k, Sub (T k)] [∀ k, Mul (T k)] [∀ k, Neg (T k)]
variable [∀ k, MDT (T k)]

/-- Whole histories. -/
theorem run_tends [F.NeBot] (hr : ScalarLimit F lim) (bld : Build) {w : ∀ k, World n (T k)} {s : Spec.State n ℝ}
    (h : World.Tends lim w s) {ops : ∀ k, List (Op (T k))} {ops' : List (Op ℝ)} (hops : ListTends (Op.Tends lim) ops ops')
    (hwf : ∀ k, ∀ op ∈ ops k, op.WellFormed (w k)) (hreg : s.RegularRun ops') :
    ∃ w' s', (∀ᶠ k in F, (w k).run bld (ops k) = .ok (w' k)) ∧ s.run ops' = some s' ∧ World.Tends lim w' s' := by
  have := panickingReal_exact
  obtain ⟨v, hv, hwv⟩ := h
  obtain ⟨k0⟩ : Nonempty ι := F.nonempty_of_neBot
  have hwf' : ∀ op ∈ ops', op.WellFormed v := by
    intro op hop
    obtain ⟨i, hi⟩ := List.mem_iff_getElem?.mp hop
    obtain ⟨f, h1, h2⟩ := hops.2 i op hi
    exact wellFormed_limit hwv h2 k0 (hwf k0 _ (List.mem_iff_getElem?.mpr ⟨i, h1 k0⟩))
  have hwfc : ∀ op ∈ ops', op.WellFormed (clean v) := fun op hop => (hwf' op hop).congr (clean_inputs v).shape
  obtain ⟨v', s', e1, e2, e3, -⟩ := run_refines bld (clean_reps hv) hwfc hreg
  obtain ⟨c', e4, e5⟩ := run_ev hr bld (clean_full hr.zero hwv) (clean_reps hv) hops hwfc hreg v' e1
  have hev : ∀ᶠ k in F, ∃ u, (w k).run bld (ops k) = .ok u ∧ u.InputsEq (c' k) ∧ u.Valid := by
    filter_upwards [e4] with k hk
    rcases run_inputs bld (hwv.valid k) (clean_valid (hwv.valid k)) (clean_inputs (w k)) (hwf k) with
      ⟨e, h1, h2⟩ | ⟨a, b, h1, h2, h3⟩
    · rw [hk] at h2; cases h2
    · rw [hk] at h2; cases h2
      rcases run_safe bld (hwv.valid k) (hwf k) with ⟨e, he, _⟩ | ⟨u, h4, h5⟩
      · rw [h1] at he; cases he
      · rw [h1] at h4; cases h4
        exact ⟨a, h1, h3, h5.1⟩
  classical
  let w' : ∀ k, World n (T k) := fun k =>
    if hk : ∃ u, (w k).run bld (ops k) = .ok u ∧ u.InputsEq (c' k) ∧ u.Valid then hk.choose else c' k
  have hw' : ∀ k, (w' k).InputsEq (c' k) ∧ (w' k).Valid := by
    intro k
    by_cases hk : ∃ u, (w k).run bld (ops k) = .ok u ∧ u.InputsEq (c' k) ∧ u.Valid
    · simp only [w', dif_pos hk]; exact hk.choose_spec.2
    · simp only [w', dif_neg hk]; exact ⟨World.InputsEq.refl _, FullW.valid e5 e3.valid k⟩
  refine ⟨w', s', ?_, e2, v', e3, FullW.tendsTo e5 e3.valid (fun k => (hw' k).2) fun k => (hw' k).1⟩
  filter_upwards [hev] with k hk
  simp only [w', dif_pos hk]
  exact hk.choose_spec.1

/-- What the limit of a buffer means for the matrix it holds. -/
theorem MatTends.cell {a : ∀ k, Mat R C (T k)} {b : Mat R C ℝ} (h : MatTends lim a b) {M} (hb : b.Reps M) (i : Fin R) (j : Fin C) :
    lim (fun k => (a k).cell i j) (M i j) := by
  obtain ⟨f, h1, h2⟩ := h.2 _ _ (hb i j)
  have : (fun k => (a k).cell i j) = f := funext fun k => by
    have := h1 k
    unfold Mat.cell
    dsimp only at this
    rw [this]; rfl
  rw [this]; exact h2

end Limit
end Minikalman
