import Verif.Spec.Late
import Verif.Proofs.Order
import Verif.Proofs.Coordinates

/-! # Measurements that are processed later: helper lemmas -/

set_option linter.unusedSectionVars false

namespace Minikalman
namespace Spec

open Matrix

variable {n m : Nat}

theorem evolve_affine (s : State n ℝ) (op : Op ℝ) :
    ∃ (Φ : Matrix (Fin n) (Fin n) ℝ) (c : Fin n → ℝ), ∀ ξ, s.evolve op ξ = Φ *ᵥ ξ + c := by
  cases op with
  | predict => exact ⟨s.A, 0, fun ξ => by simp [State.evolve]⟩
  | predictTuned => exact ⟨s.A, 0, fun ξ => by simp [State.evolve]⟩
  | control j =>
    simp only [State.evolve]
    cases s.ctl[j]? with
    | none => exact ⟨1, 0, fun ξ => by simp⟩
    | some c => exact ⟨1, c.2.B *ᵥ c.2.u, fun ξ => by simp⟩
  | _ => exact ⟨1, 0, fun ξ => by simp [State.evolve]⟩

theorem evolved_affine (ops : List (Op ℝ)) (s : State n ℝ) :
    ∃ (Φ : Matrix (Fin n) (Fin n) ℝ) (c : Fin n → ℝ), ∀ ξ, s.evolved ops ξ = Φ *ᵥ ξ + c := by
  induction ops generalizing s with
  | nil => exact ⟨1, 0, fun ξ => by simp [State.evolved]⟩
  | cons op ops ih =>
    simp only [State.evolved]
    cases s.step op with
    | none => exact ⟨1, 0, fun ξ => by simp⟩
    | some s' =>
      obtain ⟨Φ, c, h⟩ := ih s'
      obtain ⟨Ψ, d, h'⟩ := evolve_affine s op
      refine ⟨Φ * Ψ, Φ *ᵥ d + c, fun ξ => ?_⟩
      simp only [h, h', Matrix.mulVec_add, Matrix.mulVec_mulVec, add_assoc]

/-- Two affine functions that agree have the same matrix and the same offset. -/
theorem affine_ext {H H' : Matrix (Fin m) (Fin n) ℝ} {a b : Fin m → ℝ} (h : ∀ ξ, H' *ᵥ ξ - a = H *ᵥ ξ - b) :
    H' = H ∧ a = b := by
  have h0 := h 0
  simp only [Matrix.mulVec_zero, zero_sub, neg_inj] at h0
  subst h0
  exact ⟨Matrix.ext_iff_mulVec.2 fun v => by simpa using h v, rfl⟩

/-- The first filter has made use of the measurement `(H, z, R)`, the second one has not. -/
structure Owes (i : Nat) (R : Matrix (Fin m) (Fin m) ℝ) (H : Matrix (Fin m) (Fin n) ℝ) (z : Fin m → ℝ)
    (s₁ s₂ : State n ℝ) : Prop where
  A : s₁.A = s₂.A
  Q : s₁.Q = s₂.Q
  ctl : s₁.ctl = s₂.ctl
  obs : s₁.obs = s₂.obs
  x : s₁.x = corrX H s₂.P R s₂.x z
  P : s₁.P = corrP H s₂.P R
  has : ∃ o : Obs n m ℝ, s₂.obs[i]? = some ⟨m, o⟩ ∧ o.R = R

section Noise
variable {A P Q : Matrix (Fin n) (Fin n) ℝ} {H' : Matrix (Fin m) (Fin n) ℝ} {R : Matrix (Fin m) (Fin m) ℝ}

theorem seen_zero (hQ : Qᵀ = Q) (h : H' * Q = 0) : Q * H'ᵀ = 0 := by
  have := congrArg Matrix.transpose h
  rwa [Matrix.transpose_mul, hQ, Matrix.transpose_zero] at this

theorem gain_pred (hQ : Qᵀ = Q) (h : H' * Q = 0) : gain H' (predP A P Q) R = A * gain (H' * A) P R := by
  have h1 : innovCov H' (predP A P Q) R = innovCov (H' * A) P R := by
    unfold innovCov predP
    rw [Matrix.mul_add, h, add_zero]
    simp only [Matrix.transpose_mul, Matrix.mul_assoc]
  unfold gain
  rw [h1]
  unfold predP
  rw [Matrix.add_mul, seen_zero hQ h, add_zero]
  simp only [Matrix.transpose_mul, Matrix.mul_assoc]

theorem corrX_pred (hQ : Qᵀ = Q) (h : H' * Q = 0) (x : Fin n → ℝ) (z : Fin m → ℝ) :
    A *ᵥ corrX (H' * A) P R x z = corrX H' (predP A P Q) R (A *ᵥ x) z := by
  unfold corrX
  rw [gain_pred hQ h, Matrix.mulVec_add, Matrix.mulVec_mulVec, Matrix.mulVec_mulVec]

theorem corrP_pred (hQ : Qᵀ = Q) (h : H' * Q = 0) :
    predP A (corrP (H' * A) P R) Q = corrP H' (predP A P Q) R := by
  unfold corrP
  rw [gain_pred hQ h]
  unfold predP
  have h1 : A * gain (H' * A) P R * H' * (A * P * Aᵀ + Q) = A * (gain (H' * A) P R * (H' * A) * P) * Aᵀ := by
    rw [Matrix.mul_assoc _ H', Matrix.mul_add, h, add_zero]
    simp only [Matrix.mul_assoc]
  rw [h1, Matrix.mul_sub, Matrix.sub_mul]
  abel

end Noise

theorem corrX_shift (H : Matrix (Fin m) (Fin n) ℝ) (P : Matrix (Fin n) (Fin n) ℝ) (R : Matrix (Fin m) (Fin m) ℝ)
    (x d : Fin n → ℝ) (z : Fin m → ℝ) : corrX H P R (x + d) (z + H *ᵥ d) = corrX H P R x z + d := by
  unfold corrX
  rw [Matrix.mulVec_add, add_sub_add_right_eq_sub]
  abel

theorem set_ne_get {α : Type} {s : List α} {i j : Nat} {a : α} (h : j ≠ i) : (s.set j a)[i]? = s[i]? := by
  rw [List.getElem?_set_ne h]

theorem owes_step {i : Nat} {R : Matrix (Fin m) (Fin m) ℝ} {H H' : Matrix (Fin m) (Fin n) ℝ} {z z' : Fin m → ℝ}
    {s₁ s₂ s₂' : State n ℝ} (h : Owes i R H z s₁ s₂) (hs : s₂.Psd) {op : Op ℝ}
    (hop : op.LeavesOut i) (hstep : s₂.step op = some s₂') (hn : ∀ d, s₂.Displaces op d → H' *ᵥ d = 0)
    (hm : ∀ ξ, H' *ᵥ s₂.evolve op ξ - z' = H *ᵥ ξ - z) :
    ∃ s₁', s₁.step op = some s₁' ∧ Owes i R H' z' s₁' s₂' := by
  obtain ⟨o, ho, hR⟩ := h.has
  have same : (∀ ξ, s₂.evolve op ξ = ξ) → H' = H ∧ z' = z := fun e => affine_ext fun ξ => by rw [← hm ξ, e ξ]
  cases op <;> simp only [Op.LeavesOut] at hop
  case predict =>
    simp only [State.step, Option.some.injEq] at hstep ⊢
    subst hstep
    refine ⟨_, rfl, ?_⟩
    obtain ⟨rfl, rfl⟩ := affine_ext (H := H) (H' := H' * s₂.A) (a := z') (b := z) fun ξ => by
      rw [← Matrix.mulVec_mulVec]; exact hm ξ
    have h0 : H' * s₂.Q = 0 := Matrix.ext_iff_mulVec.2 fun v => by
      rw [← Matrix.mulVec_mulVec, hn _ ⟨v, rfl⟩, Matrix.zero_mulVec]
    have hQ := psd_symm hs.Q
    refine ⟨h.A, h.Q, h.ctl, h.obs, ?_, ?_, ⟨o, ho, hR⟩⟩
    · simp only [h.A, h.x, corrX_pred hQ h0]
    · simp only [h.A, h.P, h.Q, corrP_pred hQ h0]
  case control j =>
    simp only [State.step, Option.map_eq_some_iff] at hstep ⊢
    obtain ⟨c, hc, rfl⟩ := hstep
    refine ⟨_, ⟨c, by rw [h.ctl]; exact hc, rfl⟩, ?_⟩
    have h1 : ∀ ξ, H' *ᵥ ξ - (z' - H' *ᵥ (c.2.B *ᵥ c.2.u)) = H *ᵥ ξ - z := by
      intro ξ
      have := hm ξ
      simp only [State.evolve, hc, Matrix.mulVec_add] at this
      rw [← this]
      abel
    obtain ⟨rfl, h2⟩ := affine_ext h1
    have h3 : z' = z + H' *ᵥ (c.2.B *ᵥ c.2.u) := by rw [← h2]; abel
    have h0 : H' * (c.2.B * c.2.Q * c.2.Bᵀ) = 0 := Matrix.ext_iff_mulVec.2 fun v => by
      rw [← Matrix.mulVec_mulVec, ← Matrix.mulVec_mulVec, ← Matrix.mulVec_mulVec,
        hn _ ⟨c, hc, c.2.Bᵀ *ᵥ v, rfl⟩, Matrix.zero_mulVec]
    have hQ := psd_symm (psd_congr (hs.ctl c (List.mem_of_getElem? hc)) c.2.B)
    have e1 : ∀ P, ctlP c.2.B c.2.Q P = predP 1 P (c.2.B * c.2.Q * c.2.Bᵀ) := fun P => by simp [ctlP, predP]
    refine ⟨h.A, h.Q, h.ctl, h.obs, ?_, ?_, ⟨o, ho, hR⟩⟩
    · have := corrX_pred (A := 1) (P := s₂.P) (R := R) hQ h0 s₂.x z
      simp only [Matrix.one_mulVec, Matrix.mul_one] at this
      simp only [h.x, h3, ctlX, e1, corrX_shift, ← this]
    · have := corrP_pred (A := 1) (P := s₂.P) (R := R) hQ h0
      simp only [Matrix.mul_one] at this
      simp only [h.P, e1, this]
  case correct j =>
    obtain ⟨rfl, rfl⟩ := same fun _ => rfl
    simp only [State.step, Option.map_eq_some_iff] at hstep ⊢
    obtain ⟨d, hd, rfl⟩ := hstep
    refine ⟨_, ⟨d, by rw [h.obs]; exact hd, rfl⟩, ?_⟩
    have hRp : R.PosDef := by rw [← hR]; exact hs.obs _ (List.mem_of_getElem? ho)
    have := corr_swap (H₁ := H') (H₂ := d.2.H) hs.P hRp (hs.obs d (List.mem_of_getElem? hd)) s₂.x z' d.2.z
    refine ⟨h.A, h.Q, h.ctl, h.obs, ?_, ?_, ⟨o, ho, hR⟩⟩
    · simp only [h.x, h.P]; exact this.2
    · simp only [h.P]; exact this.1
  case setA v =>
    obtain ⟨rfl, rfl⟩ := same fun _ => rfl
    simp only [State.step, Option.some.injEq] at hstep ⊢
    subst hstep
    exact ⟨_, rfl, ⟨rfl, h.Q, h.ctl, h.obs, h.x, h.P, ⟨o, ho, hR⟩⟩⟩
  case setQ v =>
    obtain ⟨rfl, rfl⟩ := same fun _ => rfl
    simp only [State.step, Option.some.injEq] at hstep ⊢
    subst hstep
    exact ⟨_, rfl, ⟨h.A, rfl, h.ctl, h.obs, h.x, h.P, ⟨o, ho, hR⟩⟩⟩
  case setU j v | setQc j v =>
    obtain ⟨rfl, rfl⟩ := same fun _ => rfl
    simp only [State.step, Option.map_eq_some_iff] at hstep ⊢
    obtain ⟨c, hc, rfl⟩ := hstep
    exact ⟨_, ⟨c, by rw [h.ctl]; exact hc, rfl⟩, ⟨h.A, h.Q, by simp only [h.ctl], h.obs, h.x, h.P, ⟨o, ho, hR⟩⟩⟩
  case setB j v =>
    obtain ⟨rfl, rfl⟩ := same fun _ => rfl
    simp only [State.step, Option.map_eq_some_iff] at hstep ⊢
    obtain ⟨c, hc, rfl⟩ := hstep
    exact ⟨_, ⟨c, by rw [h.ctl]; exact hc, rfl⟩, ⟨h.A, h.Q, by simp only [h.ctl], h.obs, h.x, h.P, ⟨o, ho, hR⟩⟩⟩
  case setZ j v | setH j v | setR j v =>
    obtain ⟨rfl, rfl⟩ := same fun _ => rfl
    simp only [State.step, Option.map_eq_some_iff] at hstep ⊢
    obtain ⟨c, hc, rfl⟩ := hstep
    exact ⟨_, ⟨c, by rw [h.obs]; exact hc, rfl⟩, ⟨h.A, h.Q, h.ctl, by simp only [h.obs], h.x, h.P,
      ⟨o, by simp only [set_ne_get hop, ho], hR⟩⟩⟩

theorem owes_run {i : Nat} {R : Matrix (Fin m) (Fin m) ℝ} {H' : Matrix (Fin m) (Fin n) ℝ} {z' : Fin m → ℝ}
    {ops : List (Op ℝ)} {H : Matrix (Fin m) (Fin n) ℝ} {z : Fin m → ℝ} {s₁ s₂ s₂' : State n ℝ}
    (h : Owes i R H z s₁ s₂) (hs : s₂.Psd) (hn : s₂.Unaffected H' ops) (hops : ∀ op ∈ ops, op.LeavesOut i)
    (hd : ∀ op ∈ ops, s₂.PsdData op) (hrun : s₂.run ops = some s₂')
    (hm : ∀ ξ, H' *ᵥ s₂.evolved ops ξ - z' = H *ᵥ ξ - z) :
    ∃ s₁', s₁.run ops = some s₁' ∧ Owes i R H' z' s₁' s₂' := by
  induction ops generalizing s₁ s₂ H z with
  | nil =>
    cases hrun
    obtain ⟨rfl, rfl⟩ := affine_ext hm
    exact ⟨s₁, rfl, h⟩
  | cons op ops ih =>
    simp only [State.run] at hrun
    cases h1 : s₂.step op with
    | none => rw [h1] at hrun; cases hrun
    | some t =>
      rw [h1] at hrun
      have hop := hops op (by simp)
      obtain ⟨Φ, c, hΦ⟩ := evolved_affine ops t
      simp only [State.evolved, h1] at hm
      obtain ⟨t₁, e1, e2⟩ := owes_step (H' := H' * Φ) (z' := z' - H' *ᵥ c) h hs hop h1 (fun d hd => by
        have := (hn t h1).2 d hd 0
        simp only [hΦ, zero_add, Matrix.mulVec_add, Matrix.mulVec_zero] at this
        rw [← Matrix.mulVec_mulVec]
        exact add_eq_right.1 this) fun ξ => by
        rw [← hm ξ, hΦ, Matrix.mulVec_add, Matrix.mulVec_mulVec]; abel
      have hl : op.NonzeroLambda := by cases op <;> trivial
      obtain ⟨s₁', e3, e4⟩ := ih e2 (step_cov_inv psd_closed h1 hs (hd op (by simp)) (psd_regular hs hl))
        (hn t h1).1 (fun o ho => hops o (by simp [ho]))
        (fun o ho => covData_congr h1 (hd o (by simp [ho]))) hrun fun ξ => by
          rw [hΦ, Matrix.mulVec_add, Matrix.mulVec_mulVec]; abel
      exact ⟨s₁', by simp only [State.run, e1, Option.bind_some, e3], e4⟩

/-- With invertible transition matrices nothing is forgotten. -/
theorem evolved_isUnit {i : Nat} {ops : List (Op ℝ)} (hops : ∀ op ∈ ops, op.LeavesOut i)
    (hu : ∀ v, Op.setA v ∈ ops → IsUnit (matOf v : Matrix (Fin n) (Fin n) ℝ).det) (s : State n ℝ)
    (hA : IsUnit s.A.det) :
    ∃ (Φ : Matrix (Fin n) (Fin n) ℝ) (c : Fin n → ℝ), IsUnit Φ.det ∧ ∀ ξ, s.evolved ops ξ = Φ *ᵥ ξ + c := by
  have one : IsUnit (1 : Matrix (Fin n) (Fin n) ℝ).det := by rw [Matrix.det_one]; exact isUnit_one
  induction ops generalizing s with
  | nil => exact ⟨1, 0, one, fun ξ => by simp [State.evolved]⟩
  | cons op ops ih =>
    simp only [State.evolved]
    cases h1 : s.step op with
    | none => exact ⟨1, 0, one, fun ξ => by simp⟩
    | some s' =>
      have hop := hops op (by simp)
      have hA' : IsUnit s'.A.det := by
        cases op <;> simp only [Op.LeavesOut] at hop <;>
          simp only [State.step, Option.some.injEq, Option.map_eq_some_iff] at h1
        case setA v => subst h1; exact hu v (by simp)
        case predict => subst h1; exact hA
        all_goals obtain ⟨c, _, rfl⟩ := h1; exact hA
      obtain ⟨Φ, c, hΦ, h⟩ := ih (fun o ho => hops o (by simp [ho])) (fun v hv => hu v (by simp [hv])) s' hA'
      have : ∃ (Ψ : Matrix (Fin n) (Fin n) ℝ) (d : Fin n → ℝ), IsUnit Ψ.det ∧ ∀ ξ, s.evolve op ξ = Ψ *ᵥ ξ + d := by
        cases op with
        | predict => exact ⟨s.A, 0, hA, fun ξ => by simp [State.evolve]⟩
        | predictTuned => exact ⟨s.A, 0, hA, fun ξ => by simp [State.evolve]⟩
        | control j =>
          simp only [State.evolve]
          cases s.ctl[j]? with
          | none => exact ⟨1, 0, one, fun ξ => by simp⟩
          | some c => exact ⟨1, c.2.B *ᵥ c.2.u, one, fun ξ => by simp⟩
        | _ => exact ⟨1, 0, one, fun ξ => by simp [State.evolve]⟩
      obtain ⟨Ψ, d, hΨ, h'⟩ := this
      refine ⟨Φ * Ψ, Φ *ᵥ d + c, by rw [Matrix.det_mul]; exact hΦ.mul hΨ, fun ξ => ?_⟩
      simp only [h, h', Matrix.mulVec_add, Matrix.mulVec_mulVec, add_assoc]

theorem noiseless_step {i : Nat} {s s' : State n ℝ} (hn : s.Noiseless) {op : Op ℝ} (hop : op.LeavesOut i)
    (hq : ∀ v, op ≠ .setQ v) (hqc : ∀ j v, op ≠ .setQc j v) (hstep : s.step op = some s') : s'.Noiseless := by
  cases op <;> simp only [Op.LeavesOut] at hop <;>
    simp only [State.step, Option.some.injEq, Option.map_eq_some_iff] at hstep
  case predict | setA => subst hstep; exact ⟨hn.Q, hn.ctl⟩
  case control | correct | setZ | setH | setR => obtain ⟨c, _, rfl⟩ := hstep; exact ⟨hn.Q, hn.ctl⟩
  case setU | setB =>
    obtain ⟨c, hc, rfl⟩ := hstep
    refine ⟨hn.Q, fun d hd => ?_⟩
    rcases List.mem_or_eq_of_mem_set hd with h | rfl
    · exact hn.ctl d h
    · exact hn.ctl c (List.mem_of_getElem? hc)
  case setQ v => exact absurd rfl (hq v)
  case setQc j v => exact absurd rfl (hqc j v)

/-- Without process noise nothing is affected. -/
theorem noiseless_unaffected {i : Nat} {ops : List (Op ℝ)} (hops : ∀ op ∈ ops, op.LeavesOut i)
    (hq : ∀ v, Op.setQ v ∉ ops) (hqc : ∀ j v, Op.setQc j v ∉ ops) (H' : Matrix (Fin m) (Fin n) ℝ) {s : State n ℝ}
    (hn : s.Noiseless) : s.Unaffected H' ops := by
  induction ops generalizing s with
  | nil => trivial
  | cons op ops ih =>
    intro s' hs'
    refine ⟨ih (fun o ho => hops o (by simp [ho])) (fun v h => hq v (by simp [h])) (fun j v h => hqc j v (by simp [h]))
      (noiseless_step hn (hops op (by simp)) (fun v h => hq v (by simp [h])) (fun j v h => hqc j v (by simp [h])) hs'),
      fun d hd ξ => ?_⟩
    have : d = 0 := by
      cases op with
      | predict => obtain ⟨v, rfl⟩ := hd; rw [hn.Q, Matrix.zero_mulVec]
      | predictTuned => obtain ⟨v, rfl⟩ := hd; rw [hn.Q, Matrix.zero_mulVec]
      | control j =>
        obtain ⟨c, hc, v, rfl⟩ := hd
        rw [hn.ctl c (List.mem_of_getElem? hc), Matrix.zero_mulVec, Matrix.mulVec_zero]
      | _ => exact hd.elim
    rw [this, add_zero]

end Spec
end Minikalman
