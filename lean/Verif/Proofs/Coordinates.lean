import Verif.Spec.Coordinates
import Verif.Proofs.History

/-! # Change of coordinates: helper lemmas -/

set_option linter.unusedSectionVars false

namespace Minikalman
namespace Spec

open Matrix

variable {n n' l m : Nat}

theorem predP_changed {T : Matrix (Fin n') (Fin n) ℝ} {A P Q : Matrix (Fin n) (Fin n) ℝ}
    {A' : Matrix (Fin n') (Fin n') ℝ} (hA : A' * T = T * A) :
    A' * (T * P * Tᵀ) * A'ᵀ = T * (A * P * Aᵀ) * Tᵀ := by
  have h1 : A' * (T * P * Tᵀ) * A'ᵀ = (A' * T) * P * (A' * T)ᵀ := by
    simp only [Matrix.transpose_mul, Matrix.mul_assoc]
  rw [h1, hA]
  simp only [Matrix.transpose_mul, Matrix.mul_assoc]

theorem innov_changed {T : Matrix (Fin n') (Fin n) ℝ} {P : Matrix (Fin n) (Fin n) ℝ} {H : Matrix (Fin m) (Fin n) ℝ}
    {R M : Matrix (Fin m) (Fin m) ℝ} {H' : Matrix (Fin m) (Fin n') ℝ} (hH : H' * T = M * H) :
    innovCov H' (T * P * Tᵀ) (M * R * Mᵀ) = M * innovCov H P R * Mᵀ := by
  have h1 : H' * (T * P * Tᵀ) * H'ᵀ = (H' * T) * P * (H' * T)ᵀ := by
    simp only [Matrix.transpose_mul, Matrix.mul_assoc]
  unfold innovCov
  rw [h1, hH, Matrix.mul_add, Matrix.add_mul]
  simp only [Matrix.transpose_mul, Matrix.mul_assoc]

theorem gain_changed {T : Matrix (Fin n') (Fin n) ℝ} {P : Matrix (Fin n) (Fin n) ℝ} {H : Matrix (Fin m) (Fin n) ℝ}
    {R M : Matrix (Fin m) (Fin m) ℝ} {H' : Matrix (Fin m) (Fin n') ℝ} (hH : H' * T = M * H) (hM : IsUnit M.det) :
    gain H' (T * P * Tᵀ) (M * R * Mᵀ) * M = T * gain H P R := by
  have hMt : IsUnit Mᵀ.det := by rwa [Matrix.det_transpose]
  have h1 : T * P * Tᵀ * H'ᵀ = T * (P * Hᵀ) * Mᵀ := by
    have : T * P * Tᵀ * H'ᵀ = T * P * (H' * T)ᵀ := by simp only [Matrix.transpose_mul, Matrix.mul_assoc]
    rw [this, hH]
    simp only [Matrix.transpose_mul, Matrix.mul_assoc]
  unfold gain
  rw [innov_changed hH, h1, Matrix.mul_inv_rev, Matrix.mul_inv_rev]
  calc T * (P * Hᵀ) * Mᵀ * (Mᵀ⁻¹ * ((innovCov H P R)⁻¹ * M⁻¹)) * M
      = T * (P * Hᵀ) * (Mᵀ * Mᵀ⁻¹) * (innovCov H P R)⁻¹ * (M⁻¹ * M) := by simp only [Matrix.mul_assoc]
    _ = T * (P * Hᵀ * (innovCov H P R)⁻¹) := by
      rw [Matrix.mul_nonsing_inv _ hMt, Matrix.nonsing_inv_mul _ hM, Matrix.mul_one, Matrix.mul_one]
      simp only [Matrix.mul_assoc]

theorem corrX_changed {T : Matrix (Fin n') (Fin n) ℝ} {P : Matrix (Fin n) (Fin n) ℝ} {H : Matrix (Fin m) (Fin n) ℝ}
    {R M : Matrix (Fin m) (Fin m) ℝ} {H' : Matrix (Fin m) (Fin n') ℝ} (hH : H' * T = M * H) (hM : IsUnit M.det)
    (x : Fin n → ℝ) (z : Fin m → ℝ) :
    corrX H' (T * P * Tᵀ) (M * R * Mᵀ) (T *ᵥ x) (M *ᵥ z) = T *ᵥ corrX H P R x z := by
  unfold corrX
  rw [Matrix.mulVec_mulVec, hH, ← Matrix.mulVec_mulVec, ← Matrix.mulVec_sub, Matrix.mulVec_mulVec,
    gain_changed hH hM, ← Matrix.mulVec_mulVec, Matrix.mulVec_add]

theorem corrP_changed {T : Matrix (Fin n') (Fin n) ℝ} {P : Matrix (Fin n) (Fin n) ℝ} {H : Matrix (Fin m) (Fin n) ℝ}
    {R M : Matrix (Fin m) (Fin m) ℝ} {H' : Matrix (Fin m) (Fin n') ℝ} (hH : H' * T = M * H) (hM : IsUnit M.det) :
    corrP H' (T * P * Tᵀ) (M * R * Mᵀ) = T * corrP H P R * Tᵀ := by
  have h1 : gain H' (T * P * Tᵀ) (M * R * Mᵀ) * H' * (T * P * Tᵀ) = T * (gain H P R * H * P) * Tᵀ := by
    calc gain H' (T * P * Tᵀ) (M * R * Mᵀ) * H' * (T * P * Tᵀ)
        = gain H' (T * P * Tᵀ) (M * R * Mᵀ) * (H' * T) * (P * Tᵀ) := by simp only [Matrix.mul_assoc]
      _ = gain H' (T * P * Tᵀ) (M * R * Mᵀ) * M * (H * (P * Tᵀ)) := by rw [hH]; simp only [Matrix.mul_assoc]
      _ = T * (gain H P R * H * P) * Tᵀ := by rw [gain_changed hH hM]; simp only [Matrix.mul_assoc]
  unfold corrP
  rw [h1, Matrix.mul_sub, Matrix.sub_mul]

theorem innov_changed_posDef {T : Matrix (Fin n') (Fin n) ℝ} {P : Matrix (Fin n) (Fin n) ℝ}
    {H : Matrix (Fin m) (Fin n) ℝ} {R M : Matrix (Fin m) (Fin m) ℝ} {H' : Matrix (Fin m) (Fin n') ℝ}
    (hH : H' * T = M * H) (hM : IsUnit M.det) (hS : (H * P * Hᵀ + R).PosDef) :
    (H' * (T * P * Tᵀ) * H'ᵀ + M * R * Mᵀ).PosDef := by
  have h := innov_changed (P := P) (R := R) hH
  unfold innovCov at h
  rw [h]
  have hMt : Function.Injective Mᵀ.mulVec :=
    Matrix.mulVec_injective_of_isUnit ((Matrix.isUnit_iff_isUnit_det _).2 (by rwa [Matrix.det_transpose]))
  have := hS.conjTranspose_mul_mul_same hMt
  rwa [Matrix.conjTranspose_eq_transpose_of_trivial, Matrix.transpose_transpose] at this

theorem ctlX_changed {T : Matrix (Fin n') (Fin n) ℝ} {B : Matrix (Fin n) (Fin l) ℝ} {W : Matrix (Fin l) (Fin l) ℝ}
    {B' : Matrix (Fin n') (Fin l) ℝ} (hB : B' * W = T * B) (x : Fin n → ℝ) (u : Fin l → ℝ) :
    ctlX B' (W *ᵥ u) (T *ᵥ x) = T *ᵥ ctlX B u x := by
  unfold ctlX
  rw [Matrix.mulVec_mulVec, hB, Matrix.mulVec_add, Matrix.mulVec_mulVec]

theorem ctlP_changed {T : Matrix (Fin n') (Fin n) ℝ} {B : Matrix (Fin n) (Fin l) ℝ} {W : Matrix (Fin l) (Fin l) ℝ}
    {B' : Matrix (Fin n') (Fin l) ℝ} (hB : B' * W = T * B) (P : Matrix (Fin n) (Fin n) ℝ)
    (Q : Matrix (Fin l) (Fin l) ℝ) : ctlP B' (W * Q * Wᵀ) (T * P * Tᵀ) = T * ctlP B Q P * Tᵀ := by
  have h1 : B' * (W * Q * Wᵀ) * B'ᵀ = (B' * W) * Q * (B' * W)ᵀ := by
    simp only [Matrix.transpose_mul, Matrix.mul_assoc]
  unfold ctlP
  rw [h1, hB, Matrix.mul_add, Matrix.add_mul]
  simp only [Matrix.transpose_mul, Matrix.mul_assoc]

/-! ## Common scale of the covariances -/

theorem predP_smul (c : ℝ) (A P Q : Matrix (Fin n) (Fin n) ℝ) : predP A (c • P) (c • Q) = c • predP A P Q := by
  unfold predP
  rw [Matrix.mul_smul, Matrix.smul_mul, smul_add]

theorem predPTuned_smul (c a : ℝ) (A P Q : Matrix (Fin n) (Fin n) ℝ) :
    predPTuned a A (c • P) (c • Q) = c • predPTuned a A P Q := by
  unfold predPTuned
  rw [Matrix.mul_smul, Matrix.smul_mul, smul_add, smul_comm]

theorem ctlP_smul (c : ℝ) (B : Matrix (Fin n) (Fin l) ℝ) (Q : Matrix (Fin l) (Fin l) ℝ) (P : Matrix (Fin n) (Fin n) ℝ) :
    ctlP B (c • Q) (c • P) = c • ctlP B Q P := by
  unfold ctlP
  rw [Matrix.mul_smul, Matrix.smul_mul, smul_add]

theorem innovCov_smul (c : ℝ) (H : Matrix (Fin m) (Fin n) ℝ) (P : Matrix (Fin n) (Fin n) ℝ)
    (R : Matrix (Fin m) (Fin m) ℝ) : innovCov H (c • P) (c • R) = c • innovCov H P R := by
  unfold innovCov
  rw [Matrix.mul_smul, Matrix.smul_mul, smul_add]

theorem gain_smul {c : ℝ} (hc : c ≠ 0) {H : Matrix (Fin m) (Fin n) ℝ} {P : Matrix (Fin n) (Fin n) ℝ}
    {R : Matrix (Fin m) (Fin m) ℝ} (hS : IsUnit (innovCov H P R).det) : gain H (c • P) (c • R) = gain H P R := by
  have h1 : (c • innovCov H P R)⁻¹ = c⁻¹ • (innovCov H P R)⁻¹ := by
    refine Matrix.inv_eq_left_inv ?_
    rw [Matrix.smul_mul, Matrix.mul_smul, smul_smul, inv_mul_cancel₀ hc, one_smul, Matrix.nonsing_inv_mul _ hS]
  unfold gain
  rw [innovCov_smul, h1, Matrix.smul_mul, Matrix.smul_mul, Matrix.mul_smul, smul_smul, mul_inv_cancel₀ hc, one_smul]

theorem corrX_smul {c : ℝ} (hc : c ≠ 0) {H : Matrix (Fin m) (Fin n) ℝ} {P : Matrix (Fin n) (Fin n) ℝ}
    {R : Matrix (Fin m) (Fin m) ℝ} (hS : IsUnit (innovCov H P R).det) (x : Fin n → ℝ) (z : Fin m → ℝ) :
    corrX H (c • P) (c • R) x z = corrX H P R x z := by
  unfold corrX
  rw [gain_smul hc hS]

theorem corrP_smul {c : ℝ} (hc : c ≠ 0) {H : Matrix (Fin m) (Fin n) ℝ} {P : Matrix (Fin n) (Fin n) ℝ}
    {R : Matrix (Fin m) (Fin m) ℝ} (hS : IsUnit (innovCov H P R).det) :
    corrP H (c • P) (c • R) = c • corrP H P R := by
  unfold corrP
  rw [gain_smul hc hS, Matrix.mul_smul, smul_sub]

/-- A partner of an entry in a list of the same length. -/
theorem partner {α β : Type} {s : List α} {t : List β} (h : t.length = s.length) {i : Nat} {a : α}
    (ha : s[i]? = some a) : ∃ b, t[i]? = some b := by
  have hi : i < t.length := by rw [h]; exact (List.getElem?_eq_some_iff.1 ha).1
  exact ⟨t[i], List.getElem?_eq_getElem hi⟩

theorem dims_get {α : Nat → Type} {s : List ((l : Nat) × α l)} {i : Nat} {a : (l : Nat) × α l}
    (h : s[i]? = some a) : (s.map Sigma.fst)[i]? = some a.1 := by
  rw [List.getElem?_map, h]; rfl

/-- Replacing related entries. -/
theorem changed_set {α β : Type} {Q : Nat → α → β → Prop} {s : List α} {t : List β} (hl : t.length = s.length)
    (h : ∀ i a b, s[i]? = some a → t[i]? = some b → Q i a b) (k : Nat) {a : α} {b : β} (hab : Q k a b) :
    ∀ i a' b', (s.set k a)[i]? = some a' → (t.set k b)[i]? = some b' → Q i a' b' := by
  intro i a' b' h1 h2
  rw [List.getElem?_set] at h1 h2
  by_cases hk : k = i
  · subst hk
    rw [if_pos rfl] at h1 h2
    split at h1
    · split at h2
      · cases h1; cases h2; exact hab
      · cases h2
    · cases h1
  · rw [if_neg hk] at h1 h2
    exact h i a' b' h1 h2

theorem step_changed {g : Coord n n'} (hc : 0 < g.c) (hM : ∀ i m, IsUnit (g.M i m).det) {s s1 : State n ℝ} {s' : State n' ℝ}
    (h : s.Changed g s') {op op' : Op ℝ} (ho : OpChanged g (s.ctl.map Sigma.fst) (s.obs.map Sigma.fst) op op')
    (hr : s.Regular op) (hs : s.step op = some s1) :
    s'.Regular op' ∧ ∃ s1', s'.step op' = some s1' ∧ s1.Changed g s1' := by
  have aux : ∀ {α : Type} {o : Option α} {f : α → State n ℝ}, o.map f = some s1 → ∃ a, o = some a ∧ f a = s1 := by
    intro α o f h
    cases o with
    | none => cases h
    | some a => exact ⟨a, rfl, Option.some.inj h⟩
  cases ho with
  | predict =>
    cases hs
    refine ⟨trivial, _, rfl, ?_, h.A, ?_, h.Q, h.ctlLen, h.obsLen, h.ctl, h.obs⟩
    · show s'.A *ᵥ s'.x = g.T *ᵥ (s.A *ᵥ s.x)
      rw [h.x, Matrix.mulVec_mulVec, h.A, Matrix.mulVec_mulVec]
    · show predP s'.A s'.P s'.Q = g.c • (g.T * predP s.A s.P s.Q * g.Tᵀ)
      rw [h.P, h.Q, predP_smul]
      unfold predP
      rw [predP_changed (Q := s.Q) h.A, Matrix.mul_add, Matrix.add_mul]
  | predictTuned a =>
    cases hs
    refine ⟨hr, _, rfl, ?_, h.A, ?_, h.Q, h.ctlLen, h.obsLen, h.ctl, h.obs⟩
    · show s'.A *ᵥ s'.x = g.T *ᵥ (s.A *ᵥ s.x)
      rw [h.x, Matrix.mulVec_mulVec, h.A, Matrix.mulVec_mulVec]
    · show predPTuned a s'.A s'.P s'.Q = g.c • (g.T * predPTuned a s.A s.P s.Q * g.Tᵀ)
      rw [h.P, h.Q, predPTuned_smul]
      unfold predPTuned
      rw [predP_changed (Q := s.Q) h.A, Matrix.mul_add, Matrix.add_mul, Matrix.mul_smul, Matrix.smul_mul]
  | control i =>
    obtain ⟨c, hi, rfl⟩ := aux hs
    obtain ⟨d, hd⟩ := partner h.ctlLen hi
    cases h.ctl i _ _ hi hd with | @mk l c d hB hu hQ =>
    refine ⟨trivial, { s' with x := ctlX d.B d.u s'.x, P := ctlP d.B d.Q s'.P },
      by simp only [State.step, hd]; rfl, ?_, h.A, ?_, h.Q, h.ctlLen, h.obsLen, h.ctl, h.obs⟩
    · show ctlX _ _ s'.x = _
      rw [hu, h.x]
      exact ctlX_changed hB _ _
    · show ctlP _ _ s'.P = _
      rw [hQ, h.P, ctlP_smul, ctlP_changed hB]
  | correct i =>
    obtain ⟨o, hi, rfl⟩ := aux hs
    obtain ⟨p, hp⟩ := partner h.obsLen hi
    have hS := hr _ hi
    cases h.obs i _ _ hi hp with | @mk m o p hH hz hR =>
    have hS' : IsUnit (innovCov p.H (g.T * s.P * g.Tᵀ) (g.M i m * o.R * (g.M i m)ᵀ)).det :=
      pd_det (innov_changed_posDef hH (hM _ _) hS)
    refine ⟨?_, { s' with x := corrX p.H s'.P p.R s'.x p.z, P := corrP p.H s'.P p.R },
      by simp only [State.step, hp]; rfl, ?_, h.A, ?_, h.Q, h.ctlLen, h.obsLen, h.ctl, h.obs⟩
    · intro q hq
      rw [hp] at hq
      cases hq
      show (p.H * s'.P * p.Hᵀ + p.R).PosDef
      rw [hR, h.P]
      have := innovCov_smul g.c p.H (g.T * s.P * g.Tᵀ) (g.M i m * o.R * (g.M i m)ᵀ)
      unfold innovCov at this
      rw [this]
      exact (innov_changed_posDef hH (hM _ _) hS).smul hc
    · show corrX _ s'.P _ s'.x _ = _
      rw [hz, hR, h.x, h.P, corrX_smul hc.ne' hS']
      exact corrX_changed hH (hM _ _) _ _
    · show corrP _ s'.P _ = _
      rw [hR, h.P, corrP_smul hc.ne' hS', corrP_changed hH (hM _ _)]
  | setX v v' hv =>
    cases hs
    exact ⟨trivial, _, rfl, hv, h.A, h.P, h.Q, h.ctlLen, h.obsLen, h.ctl, h.obs⟩
  | setA v v' hv =>
    cases hs
    exact ⟨trivial, _, rfl, h.x, hv, h.P, h.Q, h.ctlLen, h.obsLen, h.ctl, h.obs⟩
  | setP v v' hv =>
    cases hs
    exact ⟨trivial, _, rfl, h.x, h.A, hv, h.Q, h.ctlLen, h.obsLen, h.ctl, h.obs⟩
  | setQ v v' hv =>
    cases hs
    exact ⟨trivial, _, rfl, h.x, h.A, h.P, hv, h.ctlLen, h.obsLen, h.ctl, h.obs⟩
  | setU i v v' hv =>
    obtain ⟨c, hi, rfl⟩ := aux hs
    obtain ⟨d, hd⟩ := partner h.ctlLen hi
    have hv := hv _ (dims_get hi)
    cases h.ctl i _ _ hi hd with | @mk l c d hB hu hQ =>
    exact ⟨trivial, { s' with ctl := s'.ctl.set i ⟨l, { d with u := vecOf v' }⟩ },
      by simp only [State.step, hd]; rfl, h.x, h.A, h.P, h.Q, (by simp only [List.length_set]; exact h.ctlLen),
      h.obsLen, changed_set h.ctlLen h.ctl i (a := ⟨l, { c with u := vecOf v }⟩)
        (b := ⟨l, { d with u := vecOf v' }⟩) (.mk hB hv hQ), h.obs⟩
  | setB i v v' hv =>
    obtain ⟨c, hi, rfl⟩ := aux hs
    obtain ⟨d, hd⟩ := partner h.ctlLen hi
    have hv := hv _ (dims_get hi)
    cases h.ctl i _ _ hi hd with | @mk l c d hB hu hQ =>
    exact ⟨trivial, { s' with ctl := s'.ctl.set i ⟨l, { d with B := matOf v' }⟩ },
      by simp only [State.step, hd]; rfl, h.x, h.A, h.P, h.Q, (by simp only [List.length_set]; exact h.ctlLen),
      h.obsLen, changed_set h.ctlLen h.ctl i (a := ⟨l, { c with B := matOf v }⟩)
        (b := ⟨l, { d with B := matOf v' }⟩) (.mk hv hu hQ), h.obs⟩
  | setQc i v v' hv =>
    obtain ⟨c, hi, rfl⟩ := aux hs
    obtain ⟨d, hd⟩ := partner h.ctlLen hi
    have hv := hv _ (dims_get hi)
    cases h.ctl i _ _ hi hd with | @mk l c d hB hu hQ =>
    exact ⟨trivial, { s' with ctl := s'.ctl.set i ⟨l, { d with Q := matOf v' }⟩ },
      by simp only [State.step, hd]; rfl, h.x, h.A, h.P, h.Q, (by simp only [List.length_set]; exact h.ctlLen),
      h.obsLen, changed_set h.ctlLen h.ctl i (a := ⟨l, { c with Q := matOf v }⟩)
        (b := ⟨l, { d with Q := matOf v' }⟩) (.mk hB hu hv), h.obs⟩
  | setZ i v v' hv =>
    obtain ⟨c, hi, rfl⟩ := aux hs
    obtain ⟨d, hd⟩ := partner h.obsLen hi
    have hv := hv _ (dims_get hi)
    cases h.obs i _ _ hi hd with | @mk m c d hB hu hQ =>
    exact ⟨trivial, { s' with obs := s'.obs.set i ⟨m, { d with z := vecOf v' }⟩ },
      by simp only [State.step, hd]; rfl, h.x, h.A, h.P, h.Q, h.ctlLen,
      (by simp only [List.length_set]; exact h.obsLen), h.ctl, changed_set h.obsLen h.obs i (a := ⟨m, { c with z := vecOf v }⟩)
        (b := ⟨m, { d with z := vecOf v' }⟩) (.mk hB hv hQ)⟩
  | setH i v v' hv =>
    obtain ⟨c, hi, rfl⟩ := aux hs
    obtain ⟨d, hd⟩ := partner h.obsLen hi
    have hv := hv _ (dims_get hi)
    cases h.obs i _ _ hi hd with | @mk m c d hB hu hQ =>
    exact ⟨trivial, { s' with obs := s'.obs.set i ⟨m, { d with H := matOf v' }⟩ },
      by simp only [State.step, hd]; rfl, h.x, h.A, h.P, h.Q, h.ctlLen,
      (by simp only [List.length_set]; exact h.obsLen), h.ctl, changed_set h.obsLen h.obs i (a := ⟨m, { c with H := matOf v }⟩)
        (b := ⟨m, { d with H := matOf v' }⟩) (.mk hv hu hQ)⟩
  | setR i v v' hv =>
    obtain ⟨c, hi, rfl⟩ := aux hs
    obtain ⟨d, hd⟩ := partner h.obsLen hi
    have hv := hv _ (dims_get hi)
    cases h.obs i _ _ hi hd with | @mk m c d hB hu hQ =>
    exact ⟨trivial, { s' with obs := s'.obs.set i ⟨m, { d with R := matOf v' }⟩ },
      by simp only [State.step, hd]; rfl, h.x, h.A, h.P, h.Q, h.ctlLen,
      (by simp only [List.length_set]; exact h.obsLen), h.ctl, changed_set h.obsLen h.obs i (a := ⟨m, { c with R := matOf v }⟩)
        (b := ⟨m, { d with R := matOf v' }⟩) (.mk hB hu hv)⟩

theorem run_changed {g : Coord n n'} (hc : 0 < g.c) (hM : ∀ i m, IsUnit (g.M i m).det) {s s1 : State n ℝ} {s' : State n' ℝ}
    (h : s.Changed g s') {ops ops' : List (Op ℝ)}
    (ho : List.Forall₂ (OpChanged g (s.ctl.map Sigma.fst) (s.obs.map Sigma.fst)) ops ops')
    (hr : s.RegularRun ops) (hs : s.run ops = some s1) :
    s'.RegularRun ops' ∧ ∃ s1', s'.run ops' = some s1' ∧ s1.Changed g s1' := by
  induction ops generalizing s s' ops' with
  | nil => cases ho; cases hs; exact ⟨trivial, _, rfl, h⟩
  | cons op ops ih =>
    cases ho with
    | @cons _ op' _ ops' ho1 ho2 =>
      simp only [State.run] at hs
      cases hst : s.step op with
      | none => rw [hst] at hs; cases hs
      | some s2 =>
        rw [hst, Option.bind_some] at hs
        obtain ⟨r1, s2', e1, c1⟩ := step_changed hc hM h ho1 hr.1 hst
        have hd := spec_step_dims hst
        rw [← hd.1, ← hd.2] at ho2
        obtain ⟨r2, s3', e2, c2⟩ := ih c1 ho2 (hr.2 _ hst) hs
        refine ⟨⟨r1, ?_⟩, s3', ?_, c2⟩
        · intro t ht
          rw [e1] at ht
          cases ht
          exact r2
        · simp only [State.run, e1, Option.bind_some, e2]

end Spec
end Minikalman
