import Verif.Proofs.LimitScalar

/-! # Closeness instead of limits -/

set_option linter.unusedSectionVars false

namespace Minikalman
namespace Limit

open Filter Topology

attribute [local instance] panickingReal

variable {n l m R C : Nat}

/-- A buffer of exact size that holds the matrix. -/
noncomputable def matBuf (M : Matrix (Fin R) (Fin C) ℝ) : Mat R C ℝ := ⟨List.ofFn fun p : Fin (R * C) => M p.divNat p.modNat⟩

theorem matBuf_length (M : Matrix (Fin R) (Fin C) ℝ) : (matBuf M).data.length = R * C := by simp [matBuf]

theorem cell_lt (i : Fin R) (j : Fin C) : (i : Nat) * C + j < R * C := by
  have h1 : (i : Nat) * C + C ≤ R * C := by
    have := Nat.mul_le_mul_right C (Nat.succ_le_of_lt i.2)
    rwa [Nat.succ_mul] at this
  have := j.2
  omega

theorem matBuf_reps (M : Matrix (Fin R) (Fin C) ℝ) : (matBuf M).Reps M := by
  intro i j
  have h := cell_lt i j
  have hC : 0 < C := Nat.lt_of_le_of_lt (Nat.zero_le _) j.2
  unfold matBuf
  rw [List.getElem?_ofFn, dif_pos h]
  congr 2
  · ext
    show ((i : Nat) * C + j) / C = i
    rw [Nat.add_comm, Nat.add_mul_div_right _ _ hC, Nat.div_eq_of_lt j.2, Nat.zero_add]
  · ext
    show ((i : Nat) * C + j) % C = j
    rw [Nat.add_comm, Nat.add_mul_mod_self_right, Nat.mod_eq_of_lt j.2]

/-- A buffer of exact size that holds the vector. -/
noncomputable def vecBuf (v : Fin n → ℝ) : Mat n 1 ℝ := ⟨List.ofFn v⟩

theorem vecBuf_length (v : Fin n → ℝ) : (vecBuf v).data.length = n := by simp [vecBuf]

theorem vecBuf_reps (v : Fin n → ℝ) : (vecBuf v).RepsV v := by
  intro i
  unfold vecBuf
  rw [List.getElem?_ofFn, dif_pos i.2]

/-- A program that holds the state. -/
noncomputable def stateBuf (s : Spec.State n ℝ) : World n ℝ where
  kf := { x := vecBuf s.x, A := matBuf s.A, P := matBuf s.P, Q := matBuf s.Q, predictedX := zeros ℝ n 1, tempP := zeros ℝ n n }
  ctl := s.ctl.map fun c => ⟨c.1, { B := matBuf c.2.B, u := vecBuf c.2.u, Q := matBuf c.2.Q, tempBQ := zeros ℝ n c.1 }⟩
  obs := s.obs.map fun o => ⟨o.1, { z := vecBuf o.2.z, H := matBuf o.2.H, R := matBuf o.2.R, y := zeros ℝ o.1 1, S := zeros ℝ o.1 o.1, K := zeros ℝ n o.1, tempSInv := zeros ℝ o.1 o.1, tempHP := zeros ℝ o.1 n, tempPHt := zeros ℝ n o.1, tempKHP := zeros ℝ n n }⟩

theorem stateBuf_reps {s : Spec.State n ℝ} (hn : 0 < n) (ho : ∀ o ∈ s.obs, 0 < o.1) : (stateBuf s).Reps s := by
  refine ⟨hn, ⟨vecBuf_reps _, matBuf_reps _, matBuf_reps _, matBuf_reps _, zeros_valid _ _ _, zeros_valid _ _ _⟩, ?_, ?_⟩
  · show List.Forall₂ _ (List.map _ _) _
    rw [List.forall₂_map_left_iff]
    exact List.forall₂_same.2 fun c _ => .mk ⟨matBuf_reps _, vecBuf_reps _, matBuf_reps _, zeros_valid _ _ _⟩
  · show List.Forall₂ _ (List.map _ _) _
    rw [List.forall₂_map_left_iff]
    refine List.forall₂_same.2 fun o hm => .mk (ho o hm) ⟨matBuf_reps _, vecBuf_reps _, matBuf_reps _, zeros_valid _ _ _,
      zeros_valid _ _ _, zeros_valid _ _ _, zeros_valid _ _ _, zeros_valid _ _ _, zeros_valid _ _ _, zeros_valid _ _ _⟩

variable {ι : Type} {F : Filter ι} {T : ι → Type} {fin : ∀ k, T k → Prop} {val : ∀ k, T k → ℝ} {δ : ι → ℝ}
variable {lim : (∀ k, T k) → ℝ → Prop} {near : ∀ k, T k → ℝ → Prop}

theorem close_tends (hδ : Tendsto δ F (𝓝 0)) {a : ∀ k, T k} {x : ℝ} (h : ∀ k, Close (fin k) (val k) (δ k) (a k) x) :
    Converges F fin val a x :=
  ⟨Eventually.of_forall fun k => (h k).1, tendsto_of_err tendsto_const_nhds hδ (Eventually.of_forall fun k => (h k).2)⟩

theorem tends_close {a : ∀ k, T k} {x : ℝ} (h : Converges F fin val a x) {ε : ℝ} (hε : 0 < ε) :
    ∀ᶠ k in F, Close (fin k) (val k) ε (a k) x := by
  have := (Metric.tendsto_nhds.1 h.2) ε hε
  filter_upwards [h.1, this] with k h1 h2
  exact ⟨h1, by rw [Real.dist_eq] at h2; exact h2.le⟩

theorem mat_tends (hn : ∀ a x, (∀ k, near k (a k) x) → lim a x) {a : ∀ k, Mat R C (T k)} {M : Matrix (Fin R) (Fin C) ℝ}
    (hl : ∀ k, (a k).data.length = R * C) (h : ∀ k, (a k).Near (near k) M) :
    MatTends lim a (matBuf M) := by
  refine ⟨fun k => (hl k).trans (matBuf_length M).symm, fun p x hp => ?_⟩
  have hlt : p < R * C := by
    have := (List.getElem?_eq_some_iff.1 hp).1
    rwa [matBuf_length] at this
  have hC : 0 < C := Nat.pos_of_ne_zero fun h0 => by rw [h0, Nat.mul_zero] at hlt; exact Nat.not_lt_zero _ hlt
  have hi : p / C < R := Nat.div_lt_of_lt_mul (by rwa [Nat.mul_comm] at hlt)
  have hj : p % C < C := Nat.mod_lt _ hC
  have hpe : (⟨p / C, hi⟩ : Fin R).val * C + (⟨p % C, hj⟩ : Fin C).val = p := Nat.div_add_mod' p C
  have := fun k => h k ⟨p / C, hi⟩ ⟨p % C, hj⟩
  choose f h1 h2 using this
  have hx := matBuf_reps M ⟨p / C, hi⟩ ⟨p % C, hj⟩
  rw [hpe] at hx
  rw [hp] at hx
  refine ⟨f, fun k => ?_, ?_⟩
  · have := h1 k; rwa [hpe] at this
  · rw [Option.some.inj hx]; exact hn _ _ h2

theorem vec_tends (hn : ∀ a x, (∀ k, near k (a k) x) → lim a x) {a : ∀ k, Mat n 1 (T k)} {v : Fin n → ℝ}
    (hl : ∀ k, (a k).data.length = n) (h : ∀ k, (a k).NearV (near k) v) :
    MatTends lim a (vecBuf v) := by
  refine ⟨fun k => (hl k).trans (vecBuf_length v).symm, fun p x hp => ?_⟩
  have hlt : p < n := by
    have := (List.getElem?_eq_some_iff.1 hp).1
    rwa [vecBuf_length] at this
  have := fun k => h k ⟨p, hlt⟩
  choose f h1 h2 using this
  have hx := vecBuf_reps v ⟨p, hlt⟩
  rw [show ((⟨p, hlt⟩ : Fin n) : Nat) = p from rfl, hp] at hx
  exact ⟨f, h1, by rw [Option.some.inj hx]; exact hn _ _ h2⟩

theorem list_tends {α : ι → Type} {β γ : Type} {r : (∀ k, α k) → β → Prop} {near : ∀ k, α k → γ → Prop} {g : γ → β} {s : ∀ k, List (α k)} {t : List γ}
    (h : ∀ k, List.Forall₂ (near k) (s k) t)
    (hr : ∀ (f : ∀ k, α k) x, (∀ k, f k ∈ s k) → (∀ k, near k (f k) x) → r f (g x)) :
    ListTends r s (t.map g) := by
  refine ⟨fun k => by rw [List.length_map]; exact (h k).length_eq, fun i y hi => ?_⟩
  rw [List.getElem?_map, Option.map_eq_some_iff] at hi
  obtain ⟨x, hx, rfl⟩ := hi
  have : ∀ k, ∃ a, (s k)[i]? = some a ∧ near k a x := by
    intro k
    obtain ⟨b, hb, hab⟩ := forall₂_get (h k).flip hx
    exact ⟨b, hb, hab⟩
  choose f h1 h2 using this
  exact ⟨f, h1, hr f x (fun k => List.mem_iff_getElem?.mpr ⟨i, h1 k⟩) h2⟩

theorem data_tends (hn : ∀ a x, (∀ k, near k (a k) x) → lim a x) {v : ∀ k, List (T k)} {w : List ℝ} (h : ∀ k, List.Forall₂ (near k) (v k) w) :
    ListTends lim v w := by
  have := list_tends (g := id) h fun f x _ hf => hn _ _ hf
  rwa [List.map_id] at this

theorem world_tends (hn : ∀ a x, (∀ k, near k (a k) x) → lim a x) {w : ∀ k, World n (T k)} {s : Spec.State n ℝ} (hv : ∀ k, (w k).Valid) (he : ∀ k, (w k).Exact)
    (h : ∀ k, (w k).Near (near k) s) : World.TendsTo lim w (stateBuf s) := by
  refine ⟨hv, vec_tends hn (fun k => (he k).x) fun k => (h k).x, mat_tends hn (fun k => (he k).A) fun k => (h k).A,
    mat_tends hn (fun k => (he k).P) fun k => (h k).P, mat_tends hn (fun k => (he k).Q) fun k => (h k).Q, ?_, ?_⟩
  · refine list_tends (fun k => (h k).ctl) fun f x hf hx => ?_
    obtain ⟨l, d⟩ := x
    have : ∀ k, ∃ c : Control n l (T k), f k = ⟨l, c⟩ ∧ c.B.Near (near k) d.B ∧
        c.u.NearV (near k) d.u ∧ c.Q.Near (near k) d.Q := by
      intro k
      have := hx k
      generalize f k = fk at this
      cases this with
      | mk B u Q => exact ⟨_, rfl, B, u, Q⟩
    choose c hc h1 h2 h3 using this
    obtain rfl : f = fun k => ⟨l, c k⟩ := funext hc
    have e := fun k => (he k).ctl _ (hf k)
    exact .mk (mat_tends hn (fun k => (e k).1) h1) (vec_tends hn (fun k => (e k).2.1) h2) (mat_tends hn (fun k => (e k).2.2) h3)
  · refine list_tends (fun k => (h k).obs) fun f x hf hx => ?_
    obtain ⟨m, d⟩ := x
    have : ∀ k, ∃ c : RegularObservation n m (T k), f k = ⟨m, c⟩ ∧ c.H.Near (near k) d.H ∧
        c.z.NearV (near k) d.z ∧ c.R.Near (near k) d.R := by
      intro k
      have := hx k
      generalize f k = fk at this
      cases this with
      | mk H z R => exact ⟨_, rfl, H, z, R⟩
    choose c hc h1 h2 h3 using this
    obtain rfl : f = fun k => ⟨m, c k⟩ := funext hc
    have e := fun k => (he k).obs _ (hf k)
    exact .mk (mat_tends hn (fun k => (e k).1) h1) (vec_tends hn (fun k => (e k).2.1) h2) (mat_tends hn (fun k => (e k).2.2) h3)

theorem op_tends (hn : ∀ a x, (∀ k, near k (a k) x) → lim a x) {op : ∀ k, Op (T k)} {op' : Op ℝ}
    (h : ∀ k, Op.Near (near k) (op k) op') : Op.Tends lim op op' := by
  have data : ∀ {v : List ℝ} {c : ∀ k, List (T k) → Op (T k)},
      (∀ k, ∃ u, op k = c k u ∧ List.Forall₂ (near k) u v) →
      ∃ u : ∀ k, List (T k), op = (fun k => c k (u k)) ∧ ListTends lim u v := by
    intro v c hc
    choose u h1 h2 using hc
    exact ⟨u, funext h1, data_tends hn h2⟩
  cases op' with
  | predict =>
    obtain rfl : op = fun _ => .predict := funext fun k => by
      have := h k; generalize op k = o at this; cases this; rfl
    exact .predict
  | control i =>
    obtain rfl : op = fun _ => .control i := funext fun k => by
      have := h k; generalize op k = o at this; cases this; rfl
    exact .control i
  | correct i =>
    obtain rfl : op = fun _ => .correct i := funext fun k => by
      have := h k; generalize op k = o at this; cases this; rfl
    exact .correct i
  | predictTuned x =>
    have : ∀ k, ∃ a, op k = .predictTuned a ∧ near k a x := fun k => by
      have := h k; generalize op k = o at this; cases this with | predictTuned h => exact ⟨_, rfl, h⟩
    choose a h1 h2 using this
    obtain rfl : op = fun k => .predictTuned (a k) := funext h1
    exact .predictTuned (hn _ _ h2)
  | setX v =>
    obtain ⟨u, rfl, hu⟩ := data (v := v) (c := fun k u => .setX u) fun k => by
      have := h k; generalize op k = o at this; cases this with | setX h => exact ⟨_, rfl, h⟩
    exact .setX hu
  | setA v =>
    obtain ⟨u, rfl, hu⟩ := data (v := v) (c := fun k u => .setA u) fun k => by
      have := h k; generalize op k = o at this; cases this with | setA h => exact ⟨_, rfl, h⟩
    exact .setA hu
  | setP v =>
    obtain ⟨u, rfl, hu⟩ := data (v := v) (c := fun k u => .setP u) fun k => by
      have := h k; generalize op k = o at this; cases this with | setP h => exact ⟨_, rfl, h⟩
    exact .setP hu
  | setQ v =>
    obtain ⟨u, rfl, hu⟩ := data (v := v) (c := fun k u => .setQ u) fun k => by
      have := h k; generalize op k = o at this; cases this with | setQ h => exact ⟨_, rfl, h⟩
    exact .setQ hu
  | setU i v =>
    obtain ⟨u, rfl, hu⟩ := data (v := v) (c := fun k u => .setU i u) fun k => by
      have := h k; generalize op k = o at this; cases this with | setU _ h => exact ⟨_, rfl, h⟩
    exact .setU i hu
  | setB i v =>
    obtain ⟨u, rfl, hu⟩ := data (v := v) (c := fun k u => .setB i u) fun k => by
      have := h k; generalize op k = o at this; cases this with | setB _ h => exact ⟨_, rfl, h⟩
    exact .setB i hu
  | setQc i v =>
    obtain ⟨u, rfl, hu⟩ := data (v := v) (c := fun k u => .setQc i u) fun k => by
      have := h k; generalize op k = o at this; cases this with | setQc _ h => exact ⟨_, rfl, h⟩
    exact .setQc i hu
  | setZ i v =>
    obtain ⟨u, rfl, hu⟩ := data (v := v) (c := fun k u => .setZ i u) fun k => by
      have := h k; generalize op k = o at this; cases this with | setZ _ h => exact ⟨_, rfl, h⟩
    exact .setZ i hu
  | setH i v =>
    obtain ⟨u, rfl, hu⟩ := data (v := v) (c := fun k u => .setH i u) fun k => by
      have := h k; generalize op k = o at this; cases this with | setH _ h => exact ⟨_, rfl, h⟩
    exact .setH i hu
  | setR i v =>
    obtain ⟨u, rfl, hu⟩ := data (v := v) (c := fun k u => .setR i u) fun k => by
      have := h k; generalize op k = o at this; cases this with | setR _ h => exact ⟨_, rfl, h⟩
    exact .setR i hu

/-! ## Back from limits to closeness -/

section Back
variable {ε : ℝ} (hε : 0 < ε)
include hε

theorem mat_near {a : ∀ k, Mat R C (T k)} {b : Mat R C ℝ} {M : Matrix (Fin R) (Fin C) ℝ} (h : MatTends (Converges F fin val) a b)
    (hb : b.Reps M) : ∀ᶠ k in F, (a k).Near (Close (fin k) (val k) ε) M := by
  unfold Mat.Near
  refine Filter.eventually_all.2 fun i => Filter.eventually_all.2 fun j => ?_
  obtain ⟨f, h1, h2⟩ := h.2 _ _ (hb i j)
  exact (tends_close h2 hε).mono fun k hk => ⟨f k, h1 k, hk⟩

theorem vec_near {a : ∀ k, Mat n 1 (T k)} {b : Mat n 1 ℝ} {v : Fin n → ℝ} (h : MatTends (Converges F fin val) a b)
    (hb : b.RepsV v) : ∀ᶠ k in F, (a k).NearV (Close (fin k) (val k) ε) v := by
  unfold Mat.NearV
  refine Filter.eventually_all.2 fun i => ?_
  obtain ⟨f, h1, h2⟩ := h.2 _ _ (hb i)
  exact (tends_close h2 hε).mono fun k hk => ⟨f k, h1 k, hk⟩

omit hε in
theorem list_near {α : ι → Type} {β γ : Type} {r : (∀ k, α k) → β → Prop} {near : ∀ k, α k → γ → Prop} {reps : β → γ → Prop}
    (hr : ∀ (f : ∀ k, α k) x y, r f x → reps x y → ∀ᶠ k in F, near k (f k) y) {s : ∀ k, List (α k)} {t : List β} {u : List γ}
    (h : ListTends r s t) (ht : List.Forall₂ reps t u) : ∀ᶠ k in F, List.Forall₂ (near k) (s k) u := by
  induction ht generalizing s with
  | nil => exact Eventually.of_forall fun k => by rw [ListTends.nil_inv h k]; exact .nil
  | cons h0 _ ih =>
    obtain ⟨a, s', e, h1, h2⟩ := ListTends.cons_inv h
    filter_upwards [hr a _ _ h1 h0, ih h2] with k h3 h4
    rw [e k]; exact .cons h3 h4

theorem world_near {w : ∀ k, World n (T k)} {s : Spec.State n ℝ} (h : World.Tends (Converges F fin val) w s) :
    ∀ᶠ k in F, (w k).Near (Close (fin k) (val k) ε) s := by
  obtain ⟨v, hv, hw⟩ := h
  have hc : ∀ᶠ k in F, List.Forall₂ (CtlNear (Close (fin k) (val k) ε)) (w k).ctl s.ctl := by
    refine list_near (fun f x y hf hx => ?_) hw.ctl hv.ctl
    cases hf with
    | mk B u Q =>
      cases hx with
      | mk hx =>
        filter_upwards [mat_near hε B hx.B, vec_near hε u hx.u, mat_near hε Q hx.Q] with k h1 h2 h3
        exact .mk h1 h2 h3
  have ho : ∀ᶠ k in F, List.Forall₂ (ObsNear (Close (fin k) (val k) ε)) (w k).obs s.obs := by
    refine list_near (fun f x y hf hx => ?_) hw.obs hv.obs
    cases hf with
    | mk H z R =>
      cases hx with
      | mk _ hx =>
        filter_upwards [mat_near hε H hx.H, vec_near hε z hx.z, mat_near hε R hx.R] with k h1 h2 h3
        exact .mk h1 h2 h3
  filter_upwards [vec_near hε hw.x hv.kf.x, mat_near hε hw.A hv.kf.A, mat_near hε hw.P hv.kf.P, mat_near hε hw.Q hv.kf.Q, hc, ho]
    with k h1 h2 h3 h4 h5 h6
  exact ⟨h1, h2, h3, h4, h5, h6⟩

end Back

/-- For every `ε` there is a precision `p` such that every program with that precision whose data are near those of the
textbook filter ends within `ε` of it. -/
theorem run_near {Fmt : Type} {T : Fmt → Type} [∀ f, Zero (T f)] [∀ f, One (T f)] [∀ f, Add (T f)] [∀ f, Sub (T f)] [∀ f, Mul (T f)]
    [∀ f, Neg (T f)] [∀ f, MDT (T f)] {fin : ∀ f, T f → Prop} {val : ∀ f, T f → ℝ} {good : ℕ → Fmt → Prop}
    {near : ℕ → ∀ f, T f → ℝ → Prop}
    (hlim : ∀ g : ℕ → Fmt, (∀ k, good k (g k)) →
      ScalarLimit atTop (Converges atTop (fun k => fin (g k)) (fun k => val (g k))))
    (hnear : ∀ g : ℕ → Fmt, (∀ k, good k (g k)) → ∀ (a : ∀ k, T (g k)) (x : ℝ), (∀ k, near k (g k) (a k) x) →
      Converges atTop (fun k => fin (g k)) (fun k => val (g k)) a x) (bld : Build)
    {s : Spec.State n ℝ} {ops' : List (Op ℝ)} (hreg : s.RegularRun ops') {ε : ℝ} (hε : 0 < ε) :
    ∃ p : ℕ, ∀ f, good p f → ∀ (w : World n (T f)) (ops : List (Op (T f))), w.Valid → w.Exact →
      w.Near (near p f) s → List.Forall₂ (Op.Near (near p f)) ops ops' → (∀ op ∈ ops, op.WellFormed w) →
      ∃ w' s', w.run bld ops = .ok w' ∧ s.run ops' = some s' ∧ w'.Near (Close (fin f) (val f) ε) s' := by
  by_contra hc
  have hc' : ∀ p : ℕ, ∃ f, good p f ∧ ∃ (w : World n (T f)) (ops : List (Op (T f))), w.Valid ∧ w.Exact ∧
      w.Near (near p f) s ∧ List.Forall₂ (Op.Near (near p f)) ops ops' ∧ (∀ op ∈ ops, op.WellFormed w) ∧
      ¬ ∃ w' s', w.run bld ops = .ok w' ∧ s.run ops' = some s' ∧ w'.Near (Close (fin f) (val f) ε) s' := by
    intro p
    by_contra h
    refine hc ⟨p, fun f hf w ops h1 h2 h3 h4 h5 => ?_⟩
    by_contra h6
    exact h ⟨f, hf, w, ops, h1, h2, h3, h4, h5, h6⟩
  choose g hg w ops h1 h2 h3 h4 h5 h6 using hc'
  have hn := hnear g hg
  have hobs : ∀ o ∈ s.obs, 0 < o.1 := by
    intro o ho
    obtain ⟨i, hi⟩ := List.mem_iff_getElem?.mp ho
    obtain ⟨q, hq, hqo⟩ := forall₂_get (h3 0).obs.flip hi
    have := ((h1 0).obs q (List.mem_iff_getElem?.mpr ⟨i, hq⟩)).1
    have e : q.1 = o.1 := by
      have : ObsNear _ q o := hqo
      cases this; rfl
    omega
  have hops : ListTends (Op.Tends (Converges atTop (fun k => fin (g k)) (fun k => val (g k)))) ops ops' := by
    have := list_tends (g := id) (r := Op.Tends (Converges atTop (fun k => fin (g k)) (fun k => val (g k)))) h4
      fun f x _ hf => op_tends hn hf
    rwa [List.map_id] at this
  obtain ⟨w', s', e1, e2, e3⟩ := run_tends (hlim g hg) bld ⟨_, stateBuf_reps (h1 0).states hobs, world_tends hn h1 h2 h3⟩ hops h5 hreg
  obtain ⟨k, hk1, hk2⟩ := (e1.and (world_near hε e3)).exists
  exact h6 k ⟨w' k, s', hk1, e2, hk2⟩

/-- The same with a tolerance for the data. -/
theorem run_close {Fmt : Type} {T : Fmt → Type} [∀ f, Zero (T f)] [∀ f, One (T f)] [∀ f, Add (T f)] [∀ f, Sub (T f)] [∀ f, Mul (T f)]
    [∀ f, Neg (T f)] [∀ f, MDT (T f)] {fin : ∀ f, T f → Prop} {val : ∀ f, T f → ℝ} {good : ℕ → Fmt → Prop}
    (hlim : ∀ g : ℕ → Fmt, (∀ k, good k (g k)) →
      ScalarLimit atTop (Converges atTop (fun k => fin (g k)) (fun k => val (g k)))) (bld : Build)
    {s : Spec.State n ℝ} {ops' : List (Op ℝ)} (hreg : s.RegularRun ops') {ε : ℝ} (hε : 0 < ε) :
    ∃ p : ℕ, ∃ δ > 0, ∀ f, good p f → ∀ (w : World n (T f)) (ops : List (Op (T f))), w.Valid → w.Exact →
      w.Near (Close (fin f) (val f) δ) s → List.Forall₂ (Op.Near (Close (fin f) (val f) δ)) ops ops' →
      (∀ op ∈ ops, op.WellFormed w) →
      ∃ w' s', w.run bld ops = .ok w' ∧ s.run ops' = some s' ∧ w'.Near (Close (fin f) (val f) ε) s' := by
  obtain ⟨p, hp⟩ := run_near (near := fun p f => Close (fin f) (val f) (1 / ((p : ℝ) + 1))) hlim
    (fun g _ a x h => close_tends tendsto_one_div_add_atTop_nhds_zero_nat h) bld hreg hε
  exact ⟨p, 1 / ((p : ℝ) + 1), by positivity, hp⟩

/-! ## Data rounded to a floating point format -/

theorem exists_close (fmt : Format) {x : ℝ} {q t : Nat} (hx : |x| ≤ 2 ^ q) (h1 : q + t ≤ fmt.prec) (h2 : t ≤ fmt.frac)
    (h3 : q < fmt.top - fmt.frac) : ∃ y : Bin fmt, y.Finite ∧ |y.val - x| ≤ 1 / 2 ^ t := by
  have hp : (0 : ℝ) < 2 ^ t := by positivity
  have hnn : 0 ≤ |x| * 2 ^ t := by positivity
  obtain ⟨m, hm⟩ : ∃ m : Nat, m = ⌊|x| * 2 ^ t⌋₊ := ⟨_, rfl⟩
  have hm1 : (m : ℝ) ≤ |x| * 2 ^ t := by rw [hm]; exact Nat.floor_le hnn
  have hm2 : |x| * 2 ^ t < m + 1 := by rw [hm]; exact Nat.lt_floor_add_one _
  have hmq : m ≤ 2 ^ (q + t) := by
    have : (m : ℝ) ≤ 2 ^ (q + t) := by
      rw [pow_add]
      exact hm1.trans (mul_le_mul_of_nonneg_right hx hp.le)
    exact_mod_cast this
  have hrep : fmt.Rep (m * 2 ^ (fmt.frac - t)) := by
    refine Format.rep_mul (hmq.trans (Nat.pow_le_pow_right (by norm_num) h1)) ?_
    calc m * 2 ^ (fmt.frac - t) ≤ 2 ^ (q + t) * 2 ^ (fmt.frac - t) := Nat.mul_le_mul_right _ hmq
      _ = 2 ^ (q + fmt.frac) := by rw [← pow_add]; congr 1; omega
      _ < 2 ^ fmt.top := Nat.pow_lt_pow_right (by norm_num) (by omega)
  refine ⟨.fin (decide (x < 0)) _ hrep, trivial, ?_⟩
  have hv : ((m * 2 ^ (fmt.frac - t) : Nat) : ℝ) / 2 ^ fmt.frac = m / 2 ^ t := by
    rw [div_eq_div_iff (by positivity) (by positivity)]
    push_cast
    rw [mul_assoc, ← pow_add, Nat.sub_add_cancel h2]
  have key : |(m : ℝ) / 2 ^ t - (|x|)| ≤ 1 / 2 ^ t := by
    rw [abs_le]
    have e1 : (m : ℝ) / 2 ^ t ≤ |x| := by rw [div_le_iff₀ hp]; exact hm1
    have e2 : |x| < (m : ℝ) / 2 ^ t + 1 / 2 ^ t := by rw [← add_div, lt_div_iff₀ hp]; exact hm2
    have e3 : 0 < 1 / (2 : ℝ) ^ t := by positivity
    constructor <;> linarith
  unfold Bin.val
  by_cases hx0 : x < 0
  · simp only [hx0, decide_true, if_true]
    rw [neg_div, hv, ← abs_neg]
    rw [abs_of_neg hx0] at key
    convert key using 2
    ring
  · simp only [hx0, decide_false, Bool.false_eq_true, if_false]
    rw [hv]
    rw [abs_of_nonneg (not_lt.1 hx0)] at key
    exact key

theorem rounds_tends {g : ℕ → Format} (h : ∀ k, (g k).AtLeast k) {a : ∀ k, Bin (g k)} {x : ℝ} (ha : ∀ k, RoundsTo x (a k)) :
    Converges atTop (fun k (a : Bin (g k)) => a.Finite) (fun _ => Bin.val) a x := by
  obtain ⟨q, hq⟩ : ∃ q : ℕ, |x| ≤ 2 ^ q := by
    obtain ⟨q, hq⟩ := pow_unbounded_of_one_lt |x| (one_lt_two (α := ℝ))
    exact ⟨q, hq.le⟩
  have hlim : ∀ᶠ k in atTop, |x| < (g k).limit := by
    filter_upwards [eventually_ge_atTop (q + 2)] with k hk
    refine lt_of_lt_of_le ?_ (limit_ge (g k))
    have h3 := (h k).2.2
    have h4 := (g k).one_lt
    rw [lt_div_iff₀ (by positivity)]
    calc |x| * 2 ^ (g k).frac ≤ 2 ^ q * 2 ^ (g k).frac := mul_le_mul_of_nonneg_right hq (by positivity)
      _ = 2 ^ (q + (g k).frac) := by rw [pow_add]
      _ < 2 ^ ((g k).top - 1) := pow_lt_pow_right₀ one_lt_two (by omega)
  have hfin : ∀ᶠ k in atTop, (a k).Finite := hlim.mono fun k hk => finite_of_small (ha k) hk
  refine ⟨hfin, ?_⟩
  have ht : Tendsto (fun k : ℕ => 1 / (2 : ℝ) ^ (k - q)) atTop (𝓝 0) := by
    have h0 : Tendsto (fun k : ℕ => 1 / (2 : ℝ) ^ k) atTop (𝓝 0) := inv_two_pow_tendsto fun k => le_refl k
    exact h0.comp (tendsto_sub_atTop_nat q)
  refine tendsto_of_err tendsto_const_nhds ht ?_
  filter_upwards [hlim, eventually_ge_atTop (q + 1)] with k h1 h2
  obtain ⟨y, hy1, hy2⟩ := exists_close (g k) (t := k - q) hq (by have := (h k).1; omega) (by have := (h k).2.1; omega)
    (by have := (h k).2.2; omega)
  refine le_trans ?_ hy2
  have := abs_lt.1 h1
  rcases ha k with h3 | h3 | h3
  · exact (h3.2.2 y hy1).1
  · linarith [h3.1]
  · linarith [h3.1]

end Limit
end Minikalman
