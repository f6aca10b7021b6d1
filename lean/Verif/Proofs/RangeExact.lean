import Verif.Spec.Range
import Verif.Spec.Variance
import Verif.Proofs.History

/-!
# The range of the estimate of a single state in exact arithmetic
-/

namespace Minikalman

open Matrix

/-- The state and the measurements of the textbook filter are within the range. -/
structure Spec.State.InRange (s : Spec.State 1 ℝ) (L H : ℝ) : Prop where
  x : L ≤ s.x 0 ∧ s.x 0 ≤ H
  A : Spec.Steady L H (s.A 0 0)
  obs : ∀ o ∈ s.obs, ∃ p : Spec.Obs 1 1 ℝ, o = ⟨1, p⟩ ∧ p.H = Spec.direct 0 ∧ L ≤ p.z 0 ∧ p.z 0 ≤ H

/-- The calls, by the first cell of the new data. -/
def FirstRanged (L H : ℝ) : Op ℝ → Prop
  | .setZ _ v => L ≤ (Spec.vecOf v : Fin 1 → ℝ) 0 ∧ (Spec.vecOf v : Fin 1 → ℝ) 0 ≤ H
  | .setX v => L ≤ (Spec.vecOf v : Fin 1 → ℝ) 0 ∧ (Spec.vecOf v : Fin 1 → ℝ) 0 ≤ H
  | .setA v => Spec.Steady L H ((Spec.matOf v : Matrix (Fin 1) (Fin 1) ℝ) 0 0)
  | .control _ => False
  | .setH _ _ => False
  | _ => True

theorem first_mem {v : List ℝ} (h : 1 ≤ v.length) : (v[0]?).getD 0 ∈ v := by
  cases v with
  | nil => simp at h
  | cons a v => simp

theorem firstRanged {w : World 1 ℝ} (hv : w.Valid) {L H : ℝ} {op : Op ℝ} (hop : op.WellFormed w) (ht : Spec.RangedExact L H op) : FirstRanged L H op := by
  cases op with
  | setZ i v =>
    have hop : (w.obs[i]?.map fun o => o.2.z.data.length) = some v.length := hop
    cases hg : w.obs[i]? with
    | none => rw [hg] at hop; cases hop
    | some o =>
      rw [hg] at hop
      have hlen : o.2.z.data.length = v.length := Option.some.inj hop
      obtain ⟨h0, ho⟩ := hv.obs o (List.mem_of_getElem? hg)
      have : o.1 * 1 ≤ o.2.z.data.length := ho.z
      exact ht _ (first_mem (by omega))
  | setX v =>
    have hop : v.length = w.kf.x.data.length := hop
    have : 1 * 1 ≤ w.kf.x.data.length := hv.kf.x
    exact ht _ (first_mem (by omega))
  | setA v =>
    have hop : v.length = w.kf.A.data.length := hop
    have : 1 * 1 ≤ w.kf.A.data.length := hv.kf.A
    exact ht _ (first_mem (by omega))
  | control => exact ht.elim
  | setH => exact ht.elim
  | _ => trivial

theorem predict_inRange {L H a x : ℝ} (hs : Spec.Steady L H a) (h1 : L ≤ x) (h2 : x ≤ H) : L ≤ a * x ∧ a * x ≤ H := by
  rcases hs with rfl | ⟨h0, h3, h4, h5⟩
  · rw [one_mul]; exact ⟨h1, h2⟩
  · rcases le_total 0 x with h | h
    · have := mul_nonneg h0 h
      have := mul_le_of_le_one_left h h3
      constructor <;> linarith
    · have := mul_nonpos_of_nonneg_of_nonpos h0 h
      have := mul_le_mul_of_nonneg_right h3 (neg_nonneg.2 h)
      constructor <;> linarith

theorem mulVec_one {A : Matrix (Fin 1) (Fin 1) ℝ} {x : Fin 1 → ℝ} : (A *ᵥ x) 0 = A 0 0 * x 0 := by
  simp [Matrix.mulVec, dotProduct]

/-- The corrected state of the textbook filter with one state and a direct measurement. -/
theorem corrX_one {P R : Matrix (Fin 1) (Fin 1) ℝ} {x z : Fin 1 → ℝ} :
    Spec.corrX (Spec.direct 0) P R x z 0 = x 0 + P 0 0 / (P 0 0 + R 0 0) * (z 0 - x 0) := by
  have hd : (Spec.direct (T := ℝ) (0 : Fin 1)) = 1 := by
    ext i j
    rw [Subsingleton.elim i 0, Subsingleton.elim j 0]
    rfl
  unfold Spec.corrX Spec.gain Spec.innovCov
  rw [hd, Matrix.transpose_one, Matrix.mul_one, Matrix.one_mul, Matrix.mul_one, Matrix.one_mulVec, Pi.add_apply, mulVec_one, inv_subsingleton,
    Matrix.mul_diagonal, Ring.inverse_eq_inv', Matrix.add_apply, Pi.sub_apply, div_eq_mul_inv]

theorem step_inRange {s s' : Spec.State 1 ℝ} {L H : ℝ} {op : Op ℝ} (hp : s.Psd) (hs : s.InRange L H) (ht : FirstRanged L H op)
    (h : s.step op = some s') : s'.InRange L H := by
  have aux : ∀ {α : Type} {o : Option α} {f : α → Spec.State 1 ℝ}, o.map f = some s' → ∃ a, o = some a ∧ f a = s' := by
    intro α o f h
    cases o with
    | none => cases h
    | some a => exact ⟨a, rfl, Option.some.inj h⟩
  have hset : ∀ (i : Nat) (q : Spec.Obs 1 1 ℝ), q.H = Spec.direct 0 → L ≤ q.z 0 → q.z 0 ≤ H →
      ∀ o ∈ s.obs.set i ⟨1, q⟩, ∃ p : Spec.Obs 1 1 ℝ, o = ⟨1, p⟩ ∧ p.H = Spec.direct 0 ∧ L ≤ p.z 0 ∧ p.z 0 ≤ H := by
    intro i q h1 h2 h3 o ho
    rcases List.mem_or_eq_of_mem_set ho with ho | rfl
    · exact hs.obs o ho
    · exact ⟨q, rfl, h1, h2, h3⟩
  cases op with
  | predict =>
    cases h
    exact ⟨by show _ ≤ (s.A *ᵥ s.x) 0 ∧ (s.A *ᵥ s.x) 0 ≤ _; rw [mulVec_one]; exact predict_inRange hs.A hs.x.1 hs.x.2, hs.A, hs.obs⟩
  | predictTuned lambda =>
    cases h
    exact ⟨by show _ ≤ (s.A *ᵥ s.x) 0 ∧ (s.A *ᵥ s.x) 0 ≤ _; rw [mulVec_one]; exact predict_inRange hs.A hs.x.1 hs.x.2, hs.A, hs.obs⟩
  | control i => exact ht.elim
  | correct i =>
    obtain ⟨o, ho, h⟩ := aux h
    subst h
    have hm := List.mem_of_getElem? ho
    have hR := hp.obs o hm
    obtain ⟨p, rfl, hH, hz1, hz2⟩ := hs.obs o hm
    refine ⟨?_, hs.A, hs.obs⟩
    show L ≤ Spec.corrX p.H s.P p.R s.x p.z 0 ∧ Spec.corrX p.H s.P p.R s.x p.z 0 ≤ H
    rw [hH, corrX_one]
    have hr0 : 0 < p.R 0 0 := hR.diag_pos
    have hp0 : 0 ≤ s.P 0 0 := hp.P.diag_nonneg
    have hK0 : 0 ≤ s.P 0 0 / (s.P 0 0 + p.R 0 0) := div_nonneg hp0 (by linarith)
    have hK1 : s.P 0 0 / (s.P 0 0 + p.R 0 0) ≤ 1 := (div_le_one (by linarith)).2 (by linarith)
    have hx := hs.x
    generalize s.P 0 0 / (s.P 0 0 + p.R 0 0) = K at hK0 hK1
    have e : s.x 0 + K * (p.z 0 - s.x 0) = (1 - K) * s.x 0 + K * p.z 0 := by ring
    rw [e]
    have h1 := mul_le_mul_of_nonneg_left hx.1 (sub_nonneg.2 hK1)
    have h2 := mul_le_mul_of_nonneg_left hx.2 (sub_nonneg.2 hK1)
    have h3 := mul_le_mul_of_nonneg_left hz1 hK0
    have h4 := mul_le_mul_of_nonneg_left hz2 hK0
    constructor <;> linarith
  | setX v => cases h; exact ⟨ht, hs.A, hs.obs⟩
  | setA v => cases h; exact ⟨hs.x, ht, hs.obs⟩
  | setP v => cases h; exact ⟨hs.x, hs.A, hs.obs⟩
  | setQ v => cases h; exact ⟨hs.x, hs.A, hs.obs⟩
  | setU i v => obtain ⟨c, _, h⟩ := aux h; subst h; exact ⟨hs.x, hs.A, hs.obs⟩
  | setB i v => obtain ⟨c, _, h⟩ := aux h; subst h; exact ⟨hs.x, hs.A, hs.obs⟩
  | setQc i v => obtain ⟨c, _, h⟩ := aux h; subst h; exact ⟨hs.x, hs.A, hs.obs⟩
  | setZ i v =>
    obtain ⟨o, ho, h⟩ := aux h
    subst h
    obtain ⟨p, rfl, hH, _, _⟩ := hs.obs o (List.mem_of_getElem? ho)
    exact ⟨hs.x, hs.A, hset i { p with z := Spec.vecOf v } hH ht.1 ht.2⟩
  | setH i v => exact ht.elim
  | setR i v =>
    obtain ⟨o, ho, h⟩ := aux h
    subst h
    obtain ⟨p, rfl, hH, hz1, hz2⟩ := hs.obs o (List.mem_of_getElem? ho)
    exact ⟨hs.x, hs.A, hset i { p with R := Spec.matOf v } hH hz1 hz2⟩

theorem run_inRange {s s' : Spec.State 1 ℝ} {L H : ℝ} {ops : List (Op ℝ)} (hp : s.Psd) (hs : s.InRange L H) (ht : ∀ op ∈ ops, FirstRanged L H op)
    (hl : ∀ op ∈ ops, op.NonzeroLambda) (hd : ∀ op ∈ ops, s.PsdData op) (h : s.run ops = some s') : s'.InRange L H := by
  induction ops generalizing s with
  | nil => cases h; exact hs
  | cons op ops ih =>
    simp only [Spec.State.run] at h
    cases e : s.step op with
    | none => rw [e] at h; cases h
    | some s1 =>
      rw [e] at h
      exact ih (step_cov_inv psd_closed e hp (hd op (by simp)) (psd_regular hp (hl op (by simp)))) (step_inRange hp hs (ht op (by simp)) e)
        (fun o ho => ht o (by simp [ho])) (fun o ho => hl o (by simp [ho])) (fun o ho => covData_congr e (hd o (by simp [ho]))) h

end Minikalman
