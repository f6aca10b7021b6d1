import Verif.Spec.Observer
import Verif.Proofs.Steady
import Mathlib.LinearAlgebra.Basis.VectorSpace

/-! # What the measurements of a history determine: helper lemmas -/

set_option linter.unusedSectionVars false

namespace Minikalman
namespace Spec

open Matrix Filter Topology

variable {n m : Nat}

/-! ## Deviations between two courses -/

/-- How a deviation between two courses moves. -/
noncomputable def State.dev (s : State n ℝ) (e : Fin n → ℝ) : Op ℝ → Fin n → ℝ
  | .predict | .predictTuned _ => s.A *ᵥ e
  | _ => e

/-- The call does not measure the deviation. -/
def State.Hidden (s : State n ℝ) (e : Fin n → ℝ) : Op ℝ → Prop
  | .correct i => ∀ o, s.obs[i]? = some o → o.2.H *ᵥ e = 0
  | _ => True

/-- No call measures the deviation. -/
def State.Unseen (s : State n ℝ) : List (Op ℝ) → (Fin n → ℝ) → Prop
  | [], _ => True
  | op :: ops, e => s.Hidden e op ∧ ∀ s', s.step op = some s' → s'.Unseen ops (s.dev e op)

/-- What becomes of the deviation. -/
noncomputable def State.carried (s : State n ℝ) : List (Op ℝ) → (Fin n → ℝ) → Fin n → ℝ
  | [], e => e
  | op :: ops, e => match s.step op with
    | some s' => s'.carried ops (s.dev e op)
    | none => e

theorem moves_dev (s : State n ℝ) (x e : Fin n → ℝ) (op : Op ℝ) : s.moves (x + e) op = s.moves x op + s.dev e op := by
  cases op with
  | predict => exact Matrix.mulVec_add _ _ _
  | predictTuned a => exact Matrix.mulVec_add _ _ _
  | control i =>
    simp only [State.moves, State.dev]
    cases s.ctl[i]? with
    | none => rfl
    | some c => show x + e + _ = x + _ + e; abel
  | _ => rfl

theorem measures_dev (s : State n ℝ) (x e : Fin n → ℝ) (op : Op ℝ) :
    s.measures (x + e) op = s.measures x op ↔ s.Hidden e op := by
  cases op with
  | correct i =>
    simp only [State.measures, State.Hidden]
    cases s.obs[i]? with
    | none => simp
    | some o =>
      simp only [Option.some.injEq, forall_eq']
      rw [List.ofFn_inj, Matrix.mulVec_add]
      constructor
      · intro h; simpa using h
      · intro h; rw [h, add_zero]
  | _ => simp [State.measures, State.Hidden]

theorem course_dev {ops : List (Op ℝ)} : ∀ (s : State n ℝ) (x e : Fin n → ℝ) {s1 : State n ℝ}, s.run ops = some s1 →
    ((s.course ops (x + e)).1 = (s.course ops x).1 ↔ s.Unseen ops e) ∧
      (s.course ops (x + e)).2 = (s.course ops x).2 + s.carried ops e := by
  induction ops with
  | nil => intro s x e s1 _; simp [State.course, State.Unseen, State.carried]
  | cons op ops ih =>
    intro s x e s1 h
    simp only [State.run] at h
    cases e1 : s.step op with
    | none => rw [e1] at h; cases h
    | some t =>
      rw [e1, Option.bind_some] at h
      obtain ⟨h1, h2⟩ := ih t (s.moves x op) (s.dev e op) h
      simp only [State.course, State.Unseen, State.carried, e1, moves_dev, Option.some.injEq, forall_eq', List.cons.injEq]
      exact ⟨by rw [h1, measures_dev], h2⟩

theorem determines_iff {s s1 : State n ℝ} {ops : List (Op ℝ)} (h : s.run ops = some s1) (v : Fin n → ℝ) :
    s.Determines ops v ↔ ∀ e, s.Unseen ops e → v ⬝ᵥ s.carried ops e = 0 := by
  constructor
  · intro hd e he
    obtain ⟨h1, h2⟩ := course_dev s 0 e h
    have := hd (0 + e) 0 (h1.2 he)
    rw [h2, dotProduct_add] at this
    linarith
  · intro hd x y hxy
    obtain ⟨h1, h2⟩ := course_dev s y (x - y) h
    rw [add_sub_cancel] at h1 h2
    rw [h2, dotProduct_add, hd _ (h1.1 hxy), add_zero]

theorem observable_iff (s : State n ℝ) (ops : List (Op ℝ)) : s.Observable ops ↔ ∀ v, s.Determines ops v := by
  refine ⟨fun h v x y hxy => by rw [h x y hxy], fun h x y hxy => ?_⟩
  funext i
  have := h (Pi.single i 1) x y hxy
  rwa [single_one_dotProduct, single_one_dotProduct] at this

/-! ## Duality -/

/-- The transposed motion. -/
noncomputable def State.back (s : State n ℝ) : List (Op ℝ) → (Fin n → ℝ) → Fin n → ℝ
  | [], v => v
  | op :: ops, v => match s.step op with
    | some s' => match op with
      | .predict | .predictTuned _ => s.Aᵀ *ᵥ s'.back ops v
      | _ => s'.back ops v
    | none => v

theorem back_carried {ops : List (Op ℝ)} : ∀ (s : State n ℝ) (v e : Fin n → ℝ), s.back ops v ⬝ᵥ e = v ⬝ᵥ s.carried ops e := by
  induction ops with
  | nil => intro s v e; rfl
  | cons op ops ih =>
    intro s v e
    simp only [State.back, State.carried]
    cases e1 : s.step op with
    | none => rfl
    | some t =>
      have hA : (s.Aᵀ *ᵥ t.back ops v) ⬝ᵥ e = v ⬝ᵥ t.carried ops (s.A *ᵥ e) := by
        rw [← ih, Matrix.mulVec_transpose, ← Matrix.dotProduct_mulVec]
      cases op <;> first | exact hA | exact ih t v e

/-- All combinations of what the measurements of the history measure, in terms of the initial state. -/
noncomputable def State.span (s : State n ℝ) : List (Op ℝ) → Submodule ℝ (Fin n → ℝ)
  | [] => ⊥
  | op :: ops => match s.step op with
    | some s' => match op with
      | .predict | .predictTuned _ => (s'.span ops).map (Matrix.toLin' s.Aᵀ)
      | .correct i => match s.obs[i]? with
        | some o => s'.span ops ⊔ LinearMap.range (Matrix.toLin' o.2.Hᵀ)
        | none => s'.span ops
      | _ => s'.span ops
    | none => ⊥

theorem unseen_of_span {ops : List (Op ℝ)} : ∀ {s s1 : State n ℝ}, s.run ops = some s1 → ∀ {e : Fin n → ℝ},
    (∀ μ ∈ s.span ops, μ ⬝ᵥ e = 0) → s.Unseen ops e := by
  induction ops with
  | nil => intro s s1 _ e _; trivial
  | cons op ops ih =>
    intro s s1 h e he
    simp only [State.run] at h
    cases e1 : s.step op with
    | none => rw [e1] at h; cases h
    | some t =>
      rw [e1, Option.bind_some] at h
      simp only [State.span, e1] at he
      simp only [State.Unseen, e1, Option.some.injEq, forall_eq']
      have hA : (∀ μ ∈ (t.span ops).map (Matrix.toLin' s.Aᵀ), μ ⬝ᵥ e = 0) → t.Unseen ops (s.A *ᵥ e) := by
        intro hm
        refine ih h fun μ hμ => ?_
        have := hm _ (Submodule.mem_map_of_mem hμ)
        rwa [Matrix.toLin'_apply, Matrix.mulVec_transpose, ← Matrix.dotProduct_mulVec] at this
      cases op with
      | predict => exact ⟨trivial, hA he⟩
      | predictTuned a => exact ⟨trivial, hA he⟩
      | correct i =>
        cases ho : s.obs[i]? with
        | none =>
          rw [State.step, ho] at e1
          cases e1
        | some o =>
          simp only [ho] at he
          refine ⟨fun o' ho' => ?_, ih h fun μ hμ => he μ (Submodule.mem_sup_left hμ)⟩
          rw [ho] at ho'
          cases ho'
          funext j
          have := he (o.2.Hᵀ *ᵥ Pi.single j 1) (Submodule.mem_sup_right ⟨Pi.single j 1, Matrix.toLin'_apply _ _⟩)
          rwa [Matrix.mulVec_transpose, ← Matrix.dotProduct_mulVec, single_one_dotProduct] at this
      | _ => exact ⟨trivial, ih h he⟩

theorem mem_of_orthogonal (S : Submodule ℝ (Fin n → ℝ)) (a : Fin n → ℝ)
    (h : ∀ e : Fin n → ℝ, (∀ μ ∈ S, μ ⬝ᵥ e = 0) → a ⬝ᵥ e = 0) : a ∈ S := by
  by_contra hn
  obtain ⟨f, hf, hS⟩ := Submodule.exists_le_ker_of_notMem hn
  have e : ∀ μ : Fin n → ℝ, f μ = μ ⬝ᵥ fun i => f (Pi.single i 1) := by
    intro μ
    conv_lhs => rw [← (Finset.univ_sum_single μ)]
    rw [map_sum, dotProduct]
    refine Finset.sum_congr rfl fun i _ => ?_
    rw [show (Pi.single i (μ i) : Fin n → ℝ) = μ i • Pi.single i 1 by rw [← Pi.single_smul, smul_eq_mul, mul_one], map_smul,
      smul_eq_mul]
  refine hf ?_
  rw [e]
  exact h _ fun μ hμ => by rw [← e]; exact hS hμ

theorem back_mem {s s1 : State n ℝ} {ops : List (Op ℝ)} (h : s.run ops = some s1) {v : Fin n → ℝ} (hd : s.Determines ops v) :
    s.back ops v ∈ s.span ops :=
  mem_of_orthogonal _ _ fun e he => by
    rw [back_carried]
    exact (determines_iff h v).1 hd e (unseen_of_span h he)

/-! ## Same model, other estimate and covariance -/

/-- The states differ at most in estimate and covariance. -/
def Alike (s t : State n ℝ) : Prop := t = { s with x := t.x, P := t.P }

theorem alike_mk (s : State n ℝ) (x P) : Alike s { s with x := x, P := P } := rfl

theorem step_alike {s t s1 : State n ℝ} {op : Op ℝ} (ha : Alike s t) (h : s.step op = some s1) :
    ∃ t1, t.step op = some t1 ∧ Alike s1 t1 := by
  obtain ⟨x, A, P, Q, ctl, obs⟩ := s
  obtain ⟨x', A', P', Q', ctl', obs'⟩ := t
  simp only [Alike, State.mk.injEq, true_and] at ha
  obtain ⟨rfl, rfl, rfl, rfl⟩ := ha
  cases op with
  | predict => cases h; exact ⟨_, rfl, rfl⟩
  | predictTuned a => cases h; exact ⟨_, rfl, rfl⟩
  | setX v => cases h; exact ⟨_, rfl, rfl⟩
  | setA v => cases h; exact ⟨_, rfl, rfl⟩
  | setP v => cases h; exact ⟨_, rfl, rfl⟩
  | setQ v => cases h; exact ⟨_, rfl, rfl⟩
  | _ => obtain ⟨c, e, rfl⟩ := option_map_some h; exact ⟨_, congrArg (Option.map _) e, rfl⟩

/-! ## The bound -/

theorem obs_quad_add (M N : Matrix (Fin n) (Fin n) ℝ) (v : Fin n → ℝ) : v ⬝ᵥ (M + N) *ᵥ v = v ⬝ᵥ M *ᵥ v + v ⬝ᵥ N *ᵥ v := by
  rw [Matrix.add_mulVec, dotProduct_add]

theorem obs_quad_congr (P : Matrix (Fin n) (Fin n) ℝ) (B : Matrix (Fin m) (Fin n) ℝ) (v : Fin m → ℝ) :
    v ⬝ᵥ (B * P * Bᵀ) *ᵥ v = (Bᵀ *ᵥ v) ⬝ᵥ P *ᵥ (Bᵀ *ᵥ v) := by
  rw [← Matrix.mulVec_mulVec, ← Matrix.mulVec_mulVec, Matrix.dotProduct_mulVec, ← Matrix.mulVec_transpose]

theorem corrP_quad {H : Matrix (Fin m) (Fin n) ℝ} {P R} (hP : P.PosSemidef) (hR : R.PosDef) (y : Fin n → ℝ) (g : Fin m → ℝ) :
    y ⬝ᵥ corrP H P R *ᵥ y ≤ (y - Hᵀ *ᵥ g) ⬝ᵥ P *ᵥ (y - Hᵀ *ᵥ g) + g ⬝ᵥ R *ᵥ g := by
  have hS := innovCov_pd (H := H) hP hR
  by_cases hy : y ⬝ᵥ y = 0
  · have : y = 0 := dotProduct_self_eq_zero.1 hy
    subst this
    rw [zero_dotProduct]
    exact add_nonneg (quad_nonneg hP _) (quad_nonneg hR.posSemidef _)
  · have := quad_nonneg (optimal (Minikalman.psd_symm hP) (pd_symm hR) hS (Matrix.vecMulVec ((y ⬝ᵥ y)⁻¹ • y) g)) y
    rw [Matrix.sub_mulVec, dotProduct_sub, obs_quad_add, obs_quad_congr, obs_quad_congr] at this
    have e : (Matrix.vecMulVec ((y ⬝ᵥ y)⁻¹ • y) g)ᵀ *ᵥ y = g := by
      rw [Matrix.transpose_vecMulVec, Matrix.vecMulVec_mulVec]
      simp [hy]
    rw [Matrix.transpose_sub, Matrix.transpose_one, Matrix.transpose_mul, Matrix.sub_mulVec, Matrix.one_mulVec,
      ← Matrix.mulVec_mulVec, e] at this
    linarith

/-- Any combination of the measurements bounds the final variance. -/
theorem run_quad_le {ops : List (Op ℝ)} : ∀ {s s1 : State n ℝ}, s.run ops = some s1 → (∀ op ∈ ops, op.NonzeroLambda) →
    (∀ op ∈ ops, s.PsdData op) → (∀ op ∈ ops, KeepsCovariance op) → ∀ (v μ : Fin n → ℝ), μ ∈ s.span ops → ∃ κ b : ℝ, 0 ≤ κ ∧
      ∀ t : State n ℝ, Alike s t → t.Psd → ∃ t1, t.run ops = some t1 ∧
        v ⬝ᵥ t1.P *ᵥ v ≤ κ * ((s.back ops v - μ) ⬝ᵥ t.P *ᵥ (s.back ops v - μ)) + b := by
  induction ops with
  | nil =>
    intro s s1 _ _ _ _ v μ hμ
    refine ⟨1, 0, zero_le_one, fun t _ _ => ⟨t, rfl, ?_⟩⟩
    have : μ = 0 := (Submodule.mem_bot ℝ).1 hμ
    subst this
    simp [State.back]
  | cons op ops ih =>
    intro s s1 h hl hd hk v μ hμ
    simp only [State.run] at h
    cases e1 : s.step op with
    | none => rw [e1] at h; cases h
    | some s' =>
      rw [e1, Option.bind_some] at h
      simp only [State.span, e1] at hμ
      have ih' := ih h (fun o ho => hl o (by simp [ho])) (fun o ho => covData_congr e1 (hd o (by simp [ho])))
        (fun o ho => hk o (by simp [ho])) v
      have next : ∀ t : State n ℝ, Alike s t → t.Psd → ∃ t1, t.step op = some t1 ∧ Alike s' t1 ∧ t1.Psd := by
        intro t ha ht
        obtain ⟨t1, f1, f2⟩ := step_alike ha e1
        refine ⟨t1, f1, f2, step_cov_inv psd_closed f1 ht ?_ (psd_regular ht (hl op (by simp)))⟩
        have := hd op (by simp)
        rw [ha]
        exact this
      have eA : ∀ t : State n ℝ, Alike s t → t.A = s.A := fun t ha => by rw [ha]
      have eQ : ∀ t : State n ℝ, Alike s t → t.Q = s.Q := fun t ha => by rw [ha]
      have eO : ∀ t : State n ℝ, Alike s t → t.obs = s.obs := fun t ha => by rw [ha]
      have eC : ∀ t : State n ℝ, Alike s t → t.ctl = s.ctl := fun t ha => by rw [ha]
      simp only [State.back, e1]
      -- calls that leave the covariance as it is
      have same : (∀ t t1 : State n ℝ, Alike s t → t.step op = some t1 → t1.P = t.P) → μ ∈ s'.span ops →
          ∃ κ b : ℝ, 0 ≤ κ ∧ ∀ t : State n ℝ, Alike s t → t.Psd → ∃ t1, t.run (op :: ops) = some t1 ∧
            v ⬝ᵥ t1.P *ᵥ v ≤ κ * ((s'.back ops v - μ) ⬝ᵥ t.P *ᵥ (s'.back ops v - μ)) + b := by
        intro hp hm
        obtain ⟨κ, b, hκ, hb⟩ := ih' μ hm
        refine ⟨κ, b, hκ, fun t ha ht => ?_⟩
        obtain ⟨t1, f1, f2, f3⟩ := next t ha ht
        obtain ⟨t2, g1, g2⟩ := hb t1 f2 f3
        refine ⟨t2, by rw [State.run, f1, Option.bind_some, g1], ?_⟩
        rwa [hp t t1 ha f1] at g2
      have moved : ∀ a : ℝ, 0 ≤ a → (∀ t t1 : State n ℝ, Alike s t → t.step op = some t1 → t1.P = a • (s.A * t.P * s.Aᵀ) + s.Q) →
          μ ∈ (s'.span ops).map (Matrix.toLin' s.Aᵀ) →
          ∃ κ b : ℝ, 0 ≤ κ ∧ ∀ t : State n ℝ, Alike s t → t.Psd → ∃ t1, t.run (op :: ops) = some t1 ∧
            v ⬝ᵥ t1.P *ᵥ v ≤ κ * ((s.Aᵀ *ᵥ s'.back ops v - μ) ⬝ᵥ t.P *ᵥ (s.Aᵀ *ᵥ s'.back ops v - μ)) + b := by
        intro a ha0 hp hm
        obtain ⟨μ', hm', rfl⟩ := Submodule.mem_map.1 hm
        obtain ⟨κ, b, hκ, hb⟩ := ih' μ' hm'
        refine ⟨κ * a, κ * ((s'.back ops v - μ') ⬝ᵥ s.Q *ᵥ (s'.back ops v - μ')) + b, mul_nonneg hκ ha0, fun t ha ht => ?_⟩
        obtain ⟨t1, f1, f2, f3⟩ := next t ha ht
        obtain ⟨t2, g1, g2⟩ := hb t1 f2 f3
        refine ⟨t2, by rw [State.run, f1, Option.bind_some, g1], ?_⟩
        rw [hp t t1 ha f1, obs_quad_add, Matrix.smul_mulVec, dotProduct_smul, obs_quad_congr, smul_eq_mul, Matrix.mulVec_sub] at g2
        rw [Matrix.toLin'_apply]
        linarith
      cases op with
      | predict =>
        refine moved 1 zero_le_one (fun t t1 ha hs => ?_) hμ
        cases hs
        show t.A * t.P * t.Aᵀ + t.Q = _
        rw [one_smul, eA t ha, eQ t ha]
      | predictTuned a =>
        refine moved (a ^ 2)⁻¹ (by positivity) (fun t t1 ha hs => ?_) hμ
        cases hs
        show predPTuned a t.A t.P t.Q = _
        rw [eA t ha, eQ t ha]
        rfl
      | control i =>
        obtain ⟨c, ec, -⟩ := option_map_some e1
        obtain ⟨κ, b, hκ, hb⟩ := ih' μ hμ
        refine ⟨κ, κ * ((s'.back ops v - μ) ⬝ᵥ (c.2.B * c.2.Q * c.2.Bᵀ) *ᵥ (s'.back ops v - μ)) + b, hκ, fun t ha ht => ?_⟩
        obtain ⟨t1, f1, f2, f3⟩ := next t ha ht
        obtain ⟨t2, g1, g2⟩ := hb t1 f2 f3
        refine ⟨t2, by rw [State.run, f1, Option.bind_some, g1], ?_⟩
        have : t1.P = t.P + c.2.B * c.2.Q * c.2.Bᵀ := by
          simp only [State.step, eC t ha, ec, Option.map_some, Option.some.injEq] at f1
          rw [← f1]
          rfl
        rw [this, obs_quad_add] at g2
        linarith
      | correct i =>
        obtain ⟨o, eo, -⟩ := option_map_some e1
        simp only [eo] at hμ
        obtain ⟨μ', hm', μ'', ⟨g, rfl⟩, rfl⟩ := Submodule.mem_sup.1 hμ
        obtain ⟨κ, b, hκ, hb⟩ := ih' μ' hm'
        refine ⟨κ, κ * (g ⬝ᵥ o.2.R *ᵥ g) + b, hκ, fun t ha ht => ?_⟩
        obtain ⟨t1, f1, f2, f3⟩ := next t ha ht
        obtain ⟨t2, g1, g2⟩ := hb t1 f2 f3
        refine ⟨t2, by rw [State.run, f1, Option.bind_some, g1], ?_⟩
        have hR : o.2.R.PosDef := ht.obs o (by rw [eO t ha]; exact List.mem_of_getElem? eo)
        have : t1.P = corrP o.2.H t.P o.2.R := by
          simp only [State.step, eO t ha, eo, Option.map_some, Option.some.injEq] at f1
          rw [← f1]
        rw [this] at g2
        have h3 := mul_le_mul_of_nonneg_left (corrP_quad (H := o.2.H) ht.P hR (s'.back ops v - μ') g) hκ
        rw [Matrix.toLin'_apply, ← sub_sub]
        linarith
      | setP v => exact (hk (.setP v) (by simp)).elim
      | setX v => exact same (fun t t1 ha hs => by cases hs; rfl) hμ
      | setA v => exact same (fun t t1 ha hs => by cases hs; rfl) hμ
      | setQ v => exact same (fun t t1 ha hs => by cases hs; rfl) hμ
      | _ => exact same (fun t t1 ha hs => by obtain ⟨c, _, rfl⟩ := option_map_some hs; rfl) hμ

/-- A determined combination has a bounded variance. -/
theorem determined_bounded {s s1 : State n ℝ} {ops : List (Op ℝ)} (h : s.run ops = some s1) (hl : ∀ op ∈ ops, op.NonzeroLambda)
    (hd : ∀ op ∈ ops, s.PsdData op) (hk : ∀ op ∈ ops, KeepsCovariance op) {v : Fin n → ℝ} (hv : s.Determines ops v) :
    ∃ b : ℝ, ∀ t : State n ℝ, Alike s t → t.Psd → ∃ t1, t.run ops = some t1 ∧ v ⬝ᵥ t1.P *ᵥ v ≤ b := by
  obtain ⟨κ, b, _, hb⟩ := run_quad_le h hl hd hk v _ (back_mem h hv)
  refine ⟨b, fun t ha ht => ?_⟩
  obtain ⟨t1, h1, h2⟩ := hb t ha ht
  refine ⟨t1, h1, ?_⟩
  rw [sub_self, zero_dotProduct, mul_zero, zero_add] at h2
  exact h2

/-- Bounded variances bound the covariance matrix. -/
theorem psd_le_of_diag {M : Matrix (Fin n) (Fin n) ℝ} (hM : M.PosSemidef) {b : Fin n → ℝ} (hb : ∀ i, M i i ≤ b i) :
    (Matrix.diagonal (fun _ : Fin n => (n : ℝ) * ∑ i, |b i|) - M).PosSemidef := by
  have hd : ∀ i, 0 ≤ M i i := fun i => by
    have := quad_nonneg hM (Pi.single i 1)
    rwa [single_one_dotProduct, Matrix.mulVec_single_one] at this
  have hi : ∀ i, M i i ≤ ∑ i, |b i| := fun i => (hb i).trans ((le_abs_self _).trans
    (Finset.single_le_sum (f := fun i => |b i|) (fun i _ => abs_nonneg _) (Finset.mem_univ i)))
  generalize (∑ i, |b i|) = β at hi
  have hij : ∀ i j, |M i j| ≤ β := by
    intro i j
    have e := Minikalman.psd_symm hM
    have h1 := quad_nonneg hM (Pi.single i 1 + Pi.single j 1)
    have h2 := quad_nonneg hM (Pi.single i 1 + -Pi.single j 1)
    rw [quad_add_symm M e] at h1 h2
    have a1 : ∀ k l : Fin n, (Pi.single k 1 : Fin n → ℝ) ⬝ᵥ M *ᵥ Pi.single l 1 = M k l := fun k l => by
      rw [single_one_dotProduct, Matrix.mulVec_single_one]; rfl
    rw [Matrix.mulVec_neg, dotProduct_neg, dotProduct_neg, neg_dotProduct] at h2
    rw [a1, a1, a1] at h1 h2
    have := hi i
    have := hi j
    exact abs_le.2 ⟨by linarith, by linarith⟩
  refine psd_of_quad ?_ fun v => ?_
  · rw [Matrix.transpose_sub, Matrix.diagonal_transpose, Minikalman.psd_symm hM]
  · have hq : v ⬝ᵥ M *ᵥ v = ∑ i, ∑ j, M i j * (v i * v j) := by
      simp only [dotProduct, Matrix.mulVec, Finset.mul_sum]
      exact Finset.sum_congr rfl fun i _ => Finset.sum_congr rfl fun j _ => by ring
    have hD : v ⬝ᵥ Matrix.diagonal (fun _ : Fin n => (n : ℝ) * β) *ᵥ v = ∑ i : Fin n, ∑ j : Fin n, β * ((v i ^ 2 + v j ^ 2) / 2) := by
      have : ∑ i : Fin n, ∑ j : Fin n, β * ((v i ^ 2 + v j ^ 2) / 2) = β * ((n : ℝ) * ∑ i, v i ^ 2) := by
        simp only [div_eq_inv_mul, ← Finset.mul_sum, Finset.sum_add_distrib, Finset.sum_const, Finset.card_univ, Fintype.card_fin,
          nsmul_eq_mul]
        ring
      rw [this]
      simp only [dotProduct, Matrix.mulVec_diagonal]
      rw [← mul_assoc, Finset.mul_sum]
      exact Finset.sum_congr rfl fun i _ => by ring
    rw [Matrix.sub_mulVec, dotProduct_sub, hq, hD, sub_nonneg]
    refine Finset.sum_le_sum fun i _ => Finset.sum_le_sum fun j _ => ?_
    calc M i j * (v i * v j) ≤ |M i j| * |v i * v j| := by rw [← abs_mul]; exact le_abs_self _
      _ ≤ β * |v i * v j| := mul_le_mul_of_nonneg_right (hij i j) (abs_nonneg _)
      _ ≤ _ := mul_le_mul_of_nonneg_left (abs_le.2 ⟨by nlinarith [sq_nonneg (v i + v j)], by nlinarith [sq_nonneg (v i - v j)]⟩)
        ((abs_nonneg _).trans (hij i j))

theorem observable_bounded {s s1 : State n ℝ} {ops : List (Op ℝ)} (h : s.run ops = some s1) (hl : ∀ op ∈ ops, op.NonzeroLambda)
    (hd : ∀ op ∈ ops, s.PsdData op) (hk : ∀ op ∈ ops, KeepsCovariance op) (hv : s.Observable ops) :
    ∃ β : ℝ, 0 ≤ β ∧ ∀ t : State n ℝ, Alike s t → t.Psd → ∃ t1, t.run ops = some t1 ∧
      (Matrix.diagonal (fun _ : Fin n => β) - t1.P).PosSemidef := by
  have := fun i : Fin n => determined_bounded h hl hd hk ((observable_iff s ops).1 hv (Pi.single i 1))
  choose b hb using this
  refine ⟨(n : ℝ) * ∑ i, |b i|, mul_nonneg (Nat.cast_nonneg _) (Finset.sum_nonneg fun i _ => abs_nonneg _), fun t ha ht => ?_⟩
  have hex : ∃ t1, t.run ops = some t1 := by
    rcases Nat.eq_zero_or_pos n with rfl | hn
    · obtain ⟨_, _, _, hb'⟩ := run_quad_le h hl hd hk 0 0 (Submodule.zero_mem _)
      obtain ⟨t1, h1, _⟩ := hb' t ha ht
      exact ⟨t1, h1⟩
    · obtain ⟨t1, h1, _⟩ := hb ⟨0, hn⟩ t ha ht
      exact ⟨t1, h1⟩
  obtain ⟨t1, h1⟩ := hex
  have hd' : ∀ op ∈ ops, t.PsdData op := fun op ho => by
    have := hd op ho
    rw [ha]
    exact this
  refine ⟨t1, h1, psd_le_of_diag (run_cov_inv psd_closed h1 ht hd' (psd_regularRun ht hl hd')).P fun i => ?_⟩
  obtain ⟨t2, h2, h3⟩ := hb i t ha ht
  rw [h1] at h2
  cases h2
  rwa [single_one_dotProduct, Matrix.mulVec_single_one] at h3

/-! ## The converse -/

theorem outer_psd (e : Fin n → ℝ) {c : ℝ} (hc : 0 ≤ c) : (c • Matrix.vecMulVec e e).PosSemidef := by
  refine Matrix.PosSemidef.smul ?_ hc
  have := Matrix.posSemidef_vecMulVec_self_star (R := ℝ) e
  rwa [star_trivial] at this

theorem mul_outer (A : Matrix (Fin n) (Fin n) ℝ) (e : Fin n → ℝ) :
    A * Matrix.vecMulVec e e * Aᵀ = Matrix.vecMulVec (A *ᵥ e) (A *ᵥ e) := by
  rw [Matrix.mul_vecMulVec, Matrix.vecMulVec_mul, Matrix.vecMul_transpose]

theorem unseen_grows {ops : List (Op ℝ)} : ∀ {s s1 : State n ℝ}, s.run ops = some s1 → (∀ op ∈ ops, op.NonzeroLambda) →
    (∀ op ∈ ops, s.PsdData op) → (∀ op ∈ ops, KeepsCovariance op) → ∀ (e : Fin n → ℝ), s.Unseen ops e → ∃ κ : ℝ, 0 < κ ∧
      ∀ (t : State n ℝ) (c : ℝ), 0 ≤ c → Alike s t → t.Psd → (t.P - c • Matrix.vecMulVec e e).PosSemidef → ∃ t1, t.run ops = some t1 ∧
        (t1.P - (c * κ) • Matrix.vecMulVec (s.carried ops e) (s.carried ops e)).PosSemidef := by
  induction ops with
  | nil =>
    intro s s1 _ _ _ _ e _
    exact ⟨1, one_pos, fun t c _ _ _ hP => ⟨t, rfl, by rwa [mul_one]⟩⟩
  | cons op ops ih =>
    intro s s1 h hl hd hk e he
    simp only [State.run] at h
    cases e1 : s.step op with
    | none => rw [e1] at h; cases h
    | some s' =>
      rw [e1, Option.bind_some] at h
      simp only [State.Unseen, e1, Option.some.injEq, forall_eq'] at he
      obtain ⟨κ, hκ, hb⟩ := ih h (fun o ho => hl o (by simp [ho])) (fun o ho => covData_congr e1 (hd o (by simp [ho])))
        (fun o ho => hk o (by simp [ho])) _ he.2
      simp only [State.carried, e1]
      have key : (∃ a : ℝ, 0 < a ∧ ∀ (t t1 : State n ℝ) (c : ℝ), 0 ≤ c → Alike s t → t.Psd →
          (t.P - c • Matrix.vecMulVec e e).PosSemidef → t.step op = some t1 →
          (t1.P - (c * a) • Matrix.vecMulVec (s.dev e op) (s.dev e op)).PosSemidef) → ∃ κ : ℝ, 0 < κ ∧
          ∀ (t : State n ℝ) (c : ℝ), 0 ≤ c → Alike s t → t.Psd → (t.P - c • Matrix.vecMulVec e e).PosSemidef →
            ∃ t1, t.run (op :: ops) = some t1 ∧ (t1.P - (c * κ) • Matrix.vecMulVec (s'.carried ops (s.dev e op))
              (s'.carried ops (s.dev e op))).PosSemidef := by
        rintro ⟨a, ha0, hs⟩
        refine ⟨a * κ, mul_pos ha0 hκ, fun t c hc ha ht hP => ?_⟩
        obtain ⟨t1, f1, f2⟩ := step_alike ha e1
        have f3 : t1.Psd := by
          refine step_cov_inv psd_closed f1 ht ?_ (psd_regular ht (hl op (by simp)))
          have := hd op (by simp)
          rw [ha]
          exact this
        obtain ⟨t2, g1, g2⟩ := hb t1 (c * a) (mul_nonneg hc ha0.le) f2 f3 (hs t t1 c hc ha ht hP f1)
        exact ⟨t2, by rw [State.run, f1, Option.bind_some, g1], by rwa [← mul_assoc]⟩
      refine key ?_
      have eA : ∀ t : State n ℝ, Alike s t → t.A = s.A := fun t ha => by rw [ha]
      have eO : ∀ t : State n ℝ, Alike s t → t.obs = s.obs := fun t ha => by rw [ha]
      have moved : ∀ (t : State n ℝ) (c a : ℝ), 0 ≤ a → t.Psd → (t.P - c • Matrix.vecMulVec e e).PosSemidef →
          (a • (t.A * t.P * t.Aᵀ) + t.Q - (c * a) • Matrix.vecMulVec (t.A *ᵥ e) (t.A *ᵥ e)).PosSemidef := by
        intro t c a ha0 ht hP
        have := ((psd_congr hP t.A).smul ha0).add ht.Q
        rw [Matrix.mul_sub, Matrix.sub_mul, Matrix.mul_smul, Matrix.smul_mul, mul_outer, smul_sub, smul_smul, mul_comm a c] at this
        rwa [add_sub_right_comm]
      cases op with
      | predict =>
        refine ⟨1, one_pos, fun t t1 c hc ha ht hP hs => ?_⟩
        cases hs
        have := moved t c 1 zero_le_one ht hP
        rw [one_smul, eA t ha] at this
        show (t.A * t.P * t.Aᵀ + t.Q - _).PosSemidef
        rw [eA t ha]
        exact this
      | predictTuned a =>
        have h0 : a ≠ 0 := hl (.predictTuned a) (by simp)
        refine ⟨(a ^ 2)⁻¹, by positivity, fun t t1 c hc ha ht hP hs => ?_⟩
        cases hs
        have := moved t c (a ^ 2)⁻¹ (by positivity) ht hP
        rw [eA t ha] at this
        show (predPTuned a t.A t.P t.Q - _).PosSemidef
        rw [eA t ha]
        exact this
      | control i =>
        refine ⟨1, one_pos, fun t t1 c hc ha ht hP hs => ?_⟩
        obtain ⟨d, ed, rfl⟩ := option_map_some hs
        rw [mul_one]
        show (t.P + d.2.B * d.2.Q * d.2.Bᵀ - c • Matrix.vecMulVec e e).PosSemidef
        rw [add_sub_right_comm]
        exact hP.add (psd_congr (ht.ctl _ (List.mem_of_getElem? ed)) _)
      | correct i =>
        refine ⟨1, one_pos, fun t t1 c hc ha ht hP hs => ?_⟩
        obtain ⟨o, eo, rfl⟩ := option_map_some hs
        rw [mul_one]
        have hR := ht.obs _ (List.mem_of_getElem? eo)
        have hE := outer_psd e hc
        have hH : o.2.H *ᵥ e = 0 := he.1 o (by rw [← eO t ha]; exact eo)
        have h1 : corrP o.2.H (c • Matrix.vecMulVec e e) o.2.R = c • Matrix.vecMulVec e e := by
          rw [corrP, Matrix.mul_assoc, Matrix.mul_smul, Matrix.mul_vecMulVec, hH, Matrix.zero_vecMulVec, smul_zero, Matrix.mul_zero,
            sub_zero]
        have h2 := corrP_mono (H := o.2.H) (Minikalman.psd_symm hE) (Minikalman.psd_symm ht.P) (pd_symm hR) (pd_symm hR)
          (innovCov_pd hE hR) (innovCov_pd ht.P hR) hP (by rw [sub_self]; exact .zero)
        rw [h1] at h2
        exact h2
      | setP v => exact (hk (.setP v) (by simp)).elim
      | setX v => exact ⟨1, one_pos, fun t t1 c hc ha ht hP hs => by cases hs; rwa [mul_one]⟩
      | setA v => exact ⟨1, one_pos, fun t t1 c hc ha ht hP hs => by cases hs; rwa [mul_one]⟩
      | setQ v => exact ⟨1, one_pos, fun t t1 c hc ha ht hP hs => by cases hs; rwa [mul_one]⟩
      | _ => exact ⟨1, one_pos, fun t t1 c hc ha ht hP hs => by obtain ⟨_, _, rfl⟩ := option_map_some hs; rwa [mul_one]⟩

theorem outer_quad (f v : Fin n → ℝ) (c : ℝ) : v ⬝ᵥ (c • Matrix.vecMulVec f f) *ᵥ v = c * (v ⬝ᵥ f) ^ 2 := by
  rw [Matrix.smul_mulVec, dotProduct_smul, Matrix.vecMulVec_mulVec]
  simp only [dotProduct_comm f v, dotProduct_smul, smul_eq_mul, MulOpposite.smul_eq_mul_unop, MulOpposite.unop_op]
  ring

theorem undetermined_unbounded {s s1 : State n ℝ} {ops : List (Op ℝ)} (h : s.run ops = some s1)
    (hl : ∀ op ∈ ops, op.NonzeroLambda) (hd : ∀ op ∈ ops, s.PsdData op) (hk : ∀ op ∈ ops, KeepsCovariance op) {v : Fin n → ℝ}
    (hv : ¬s.Determines ops v) (b : ℝ) :
    ∃ P0 : Matrix (Fin n) (Fin n) ℝ, P0.PosSemidef ∧ ∀ t : State n ℝ, Alike s t → t.Psd → (t.P - P0).PosSemidef →
      ∃ t1, t.run ops = some t1 ∧ b < v ⬝ᵥ t1.P *ᵥ v := by
  rw [determines_iff h] at hv
  push Not at hv
  obtain ⟨e, he, hne⟩ := hv
  obtain ⟨κ, hκ, hg⟩ := unseen_grows h hl hd hk e he
  have hp : 0 < κ * (v ⬝ᵥ s.carried ops e) ^ 2 := mul_pos hκ (by positivity)
  have hc : 0 ≤ (|b| + 1) / (κ * (v ⬝ᵥ s.carried ops e) ^ 2) := by positivity
  refine ⟨_, outer_psd e hc, fun t ha ht hP => ?_⟩
  obtain ⟨t1, h1, h2⟩ := hg t _ hc ha ht hP
  refine ⟨t1, h1, ?_⟩
  have := quad_le h2 v
  have := quad_nonneg h2 v
  rw [Matrix.sub_mulVec, dotProduct_sub, outer_quad, mul_assoc, div_mul_cancel₀ _ hp.ne'] at this
  have := le_abs_self b
  linarith

/-! ## Periodic operation -/

/-- If `N` applications of a map of covariances bound everything, its iterates from zero converge to a fixed covariance. -/
theorem bounded_fixed {f : Matrix (Fin n) (Fin n) ℝ → Matrix (Fin n) (Fin n) ℝ} (hf : CovMap f) {N : Nat}
    {B : Matrix (Fin n) (Fin n) ℝ} (hB : ∀ P, P.PosSemidef → (B - f^[N] P).PosSemidef) :
    ∃ L, L.PosSemidef ∧ f L = L ∧ (B - L).PosSemidef := by
  have h0 : (f 0 - 0).PosSemidef := by rw [sub_zero]; exact hf.psd .zero
  have up := iter_increasing hf .zero h0
  have ups : ∀ k d : Nat, (f^[k + d] 0 - f^[k] 0).PosSemidef := by
    intro k d
    induction d with
    | zero => rw [add_zero, sub_self]; exact .zero
    | succ d ih => exact psd_sub_trans ih (up (k + d))
  obtain ⟨L, h1, h2, h3, _⟩ := increasing_converges (F := fun k => f^[k] 0) (B := B) (fun k => (hf.iter k).psd .zero) (fun k => by
    refine psd_sub_trans (ups k N) ?_
    rw [Nat.add_comm, Function.iterate_add_apply]
    exact hB _ ((hf.iter k).psd .zero)) up
  exact ⟨L, h2, fixed_of_limit hf h1 h2, h3⟩

theorem keeps_steps {op : Op ℝ} (h : StepOrData op) : KeepsCovariance op := by
  cases op <;> first | exact h.elim | trivial

/-- Cycles that determine the state bound the covariance, whatever it was before. -/
theorem cycles_bounded {s s1 : State n ℝ} (hs : s.Psd) {cyc : Nat → List (Op ℝ)} (hc : Periodic cyc)
    (hl : ∀ op ∈ cyc 0, op.NonzeroLambda) {N : Nat} (h : s.run (cycles cyc N) = some s1) (ho : s.Observable (cycles cyc N)) :
    ∃ β : ℝ, 0 ≤ β ∧ ∀ P, P.PosSemidef → (Matrix.diagonal (fun _ : Fin n => β) - (covRun s (cyc 0))^[N] P).PosSemidef := by
  have hsteps : ∀ op ∈ cycles cyc N, StepOrData op := fun op hop => by
    obtain ⟨j, hj⟩ := mem_cycles hop
    exact hc.stepsAll j op hj
  have hlam : ∀ op ∈ cycles cyc N, op.NonzeroLambda := fun op hop => by
    obtain ⟨j, hj⟩ := mem_cycles hop
    obtain ⟨o, ho, hd⟩ := forall₂_mem_right (hc.same j) hj
    exact lambda_data hd (hl o ho)
  obtain ⟨β, b0, hβ⟩ := observable_bounded h hlam (fun op hop => psdData_steps s (hsteps op hop))
    (fun op hop => keeps_steps (hsteps op hop)) ho
  refine ⟨β, b0, fun P hP => ?_⟩
  obtain ⟨t1, r1, r2⟩ := hβ { s with P := P } rfl ⟨hP, hs.Q, hs.ctl, hs.obs⟩
  rw [(run_cov hsteps r1).2, covRun_cycles hc, (SameModel.refl s s.x P).covRun] at r2
  exact r2

end Spec
end Minikalman
