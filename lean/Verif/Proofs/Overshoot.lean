import Verif.Spec.Overshoot
import Verif.Proofs.ExtendedHistory
import Verif.Proofs.RangeExact

/-! # No overshooting: helper lemmas -/

namespace Minikalman
namespace Spec

open Matrix

/-- The gain of a filter with one state and one measured number. -/
theorem gain_one {P R H : Matrix (Fin 1) (Fin 1) ℝ} : gain H P R 0 0 = P 0 0 * H 0 0 / (P 0 0 * (H 0 0 * H 0 0) + R 0 0) := by
  unfold gain innovCov
  rw [inv_subsingleton, Matrix.mul_diagonal, Ring.inverse_eq_inv', ← div_eq_mul_inv]
  simp only [Matrix.mul_apply, Matrix.add_apply, Matrix.transpose_apply, Fin.sum_univ_one]
  ring_nf

/-- A correction moves the state towards the point the measurement comes from, and not beyond. -/
theorem between {P R H x y D : ℝ} (hP : 0 ≤ P) (hR : 0 < R) (h1 : x ≤ y → 0 ≤ H * D ∧ H * D ≤ H * H * (y - x))
    (h2 : y ≤ x → 0 ≤ H * -D ∧ H * -D ≤ H * H * (x - y)) :
    min x y ≤ x + P * H / (P * (H * H) + R) * D ∧ x + P * H / (P * (H * H) + R) * D ≤ max x y := by
  have hS : 0 < P * (H * H) + R := by have := mul_nonneg hP (mul_self_nonneg H); linarith
  have key : ∀ d e : ℝ, 0 ≤ e → 0 ≤ H * d → H * d ≤ H * H * e →
      0 ≤ P * H / (P * (H * H) + R) * d ∧ P * H / (P * (H * H) + R) * d ≤ e := by
    intro d e he g1 g2
    have e1 : P * H / (P * (H * H) + R) * d = P * (H * d) / (P * (H * H) + R) := by ring
    rw [e1]
    refine ⟨div_nonneg (mul_nonneg hP g1) hS.le, (div_le_iff₀ hS).2 ?_⟩
    have := mul_le_mul_of_nonneg_left g2 hP
    have := mul_nonneg hR.le he
    nlinarith
  rcases le_total x y with h | h
  · obtain ⟨g1, g2⟩ := h1 h
    obtain ⟨k1, k2⟩ := key D (y - x) (by linarith) g1 g2
    rw [min_eq_left h, max_eq_right h]
    constructor <;> linarith
  · obtain ⟨g1, g2⟩ := h2 h
    obtain ⟨k1, k2⟩ := key (-D) (x - y) (by linarith) g1 g2
    rw [min_eq_right h, max_eq_left h]
    rw [mul_neg] at k1 k2
    constructor <;> linarith

theorem const_one (x : Fin 1 → ℝ) : (fun _ => x 0) = x := by
  funext i; rw [Subsingleton.elim i 0]

/-- The new state after a correction. -/
theorem xcorr_between {L U : ℝ} {P H R : Matrix (Fin 1) (Fin 1) ℝ} {x z : Fin 1 → ℝ} {F : (Fin 1 → ℝ) → Fin 1 → ℝ} (hP : P.PosSemidef) (hR : R.PosDef)
    (hF : NotSteeper L U (H 0 0) (fun a => F (fun _ => a) 0)) (hx : L ≤ x 0 ∧ x 0 ≤ U) {y : ℝ} (hy : L ≤ y ∧ y ≤ U) (hz : F (fun _ => y) 0 = z 0) :
    min (x 0) y ≤ (x + gain H P R *ᵥ (z - F x)) 0 ∧ (x + gain H P R *ᵥ (z - F x)) 0 ≤ max (x 0) y := by
  have hr0 : 0 < R 0 0 := hR.diag_pos
  have hp0 : 0 ≤ P 0 0 := hP.diag_nonneg
  rw [Pi.add_apply, mulVec_one, gain_one, Pi.sub_apply]
  refine between hp0 hr0 (fun h => ?_) (fun h => ?_)
  · have := hF (x 0) y hx.1 h hy.2
    simpa only [const_one, hz] using this
  · have := hF y (x 0) hy.1 h hx.2
    simpa only [const_one, hz, neg_sub] using this

theorem xstep_inRange {s s' : State 1 ℝ} {L U : ℝ} {op : XOp 1 ℝ} (hp : s.Psd) (hs : L ≤ s.x 0 ∧ s.x 0 ≤ U) (ht : s.XInRange L U op)
    (h : s.xstep op = some s') : L ≤ s'.x 0 ∧ s'.x 0 ≤ U := by
  cases op with
  | predict F => cases h; exact ht _ hs.1 hs.2
  | predictTuned a F => cases h; exact ht _ hs.1 hs.2
  | correct i F =>
    simp only [State.xstep] at h
    cases hi : s.obs[i]? with
    | none => rw [hi] at h; cases h
    | some o =>
      rw [hi] at h
      cases h
      obtain ⟨p, rfl, hF, y, h1, h2, h3⟩ := ht o hi
      obtain ⟨k1, k2⟩ := xcorr_between hp.P (hp.obs _ (List.mem_of_getElem? hi)) hF hs ⟨h1, h2⟩ h3
      exact ⟨(le_min hs.1 h1).trans k1, k2.trans (max_le hs.2 h2)⟩
  | assign a =>
    have h : s.step a.toOp = some s' := h
    cases a with
    | x v => cases h; exact ht
    | A v => cases h; exact hs
    | P v => cases h; exact hs
    | Q v => cases h; exact hs
    | z i v =>
      simp only [Assign.toOp, State.step] at h
      cases hi : s.obs[i]? with
      | none => rw [hi] at h; cases h
      | some o => rw [hi] at h; cases h; exact hs
    | H i v =>
      simp only [Assign.toOp, State.step] at h
      cases hi : s.obs[i]? with
      | none => rw [hi] at h; cases h
      | some o => rw [hi] at h; cases h; exact hs
    | R i v =>
      simp only [Assign.toOp, State.step] at h
      cases hi : s.obs[i]? with
      | none => rw [hi] at h; cases h
      | some o => rw [hi] at h; cases h; exact hs

theorem xrun_inRange {s s' : State 1 ℝ} {L U : ℝ} {ops : List (XOp 1 ℝ)} (hp : s.Psd) (hs : L ≤ s.x 0 ∧ s.x 0 ≤ U) (ht : s.XInRangeRun L U ops)
    (hl : ∀ op ∈ ops, op.linear.NonzeroLambda) (hd : ∀ op ∈ ops, s.PsdData op.linear) (h : s.xrun ops = some s') :
    L ≤ s'.x 0 ∧ s'.x 0 ≤ U := by
  induction ops generalizing s with
  | nil => cases h; exact hs
  | cons op ops ih =>
    simp only [State.xrun] at h
    cases hst : s.xstep op with
    | none => rw [hst] at h; cases h
    | some s1 =>
      rw [hst, Option.bind_some] at h
      exact ih (xstep_cov_inv psd_closed hst hp (hd op (by simp)) (psd_regular hp (hl op (by simp)))) (xstep_inRange hp hs ht.1 hst) (ht.2 _ hst)
        (fun o ho => hl o (by simp [ho])) (fun o ho => xcovData_congr hst (hd o (by simp [ho]))) h

end Spec
end Minikalman
