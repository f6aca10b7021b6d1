import Verif.Proofs.Riccati
import Verif.Proofs.FloatNil
import Verif.Proofs.RoundingChol

/-!
# Residuals after a correction, and measurements without positive variance
-/

set_option linter.unusedSectionVars false

namespace Minikalman

open Matrix

variable {n m : Nat}

section Exact
variable {H : Matrix (Fin m) (Fin n) ℝ} {P : Matrix (Fin n) (Fin n) ℝ} {R : Matrix (Fin m) (Fin m) ℝ}

/-- `H K = 1 - R S⁻¹`. -/
theorem obs_gain (hS : IsUnit (Spec.innovCov H P R).det) :
    H * Spec.gain H P R = 1 - R * (Spec.innovCov H P R)⁻¹ := by
  have e : H * P * Hᵀ = Spec.innovCov H P R - R := by rw [Spec.innovCov, add_sub_cancel_right]
  rw [Spec.gain, ← Matrix.mul_assoc, ← Matrix.mul_assoc, e, Matrix.sub_mul, Matrix.mul_nonsing_inv _ hS]

theorem residual_x (hS : IsUnit (Spec.innovCov H P R).det) (x : Fin n → ℝ) (z : Fin m → ℝ) :
    z - H *ᵥ Spec.corrX H P R x z = R *ᵥ ((Spec.innovCov H P R)⁻¹ *ᵥ (z - H *ᵥ x)) := by
  rw [Spec.corrX, Matrix.mulVec_add, Matrix.mulVec_mulVec, obs_gain hS, Matrix.sub_mulVec, Matrix.one_mulVec,
    Matrix.mulVec_mulVec]
  abel

theorem residual_P (hS : IsUnit (Spec.innovCov H P R).det) :
    H * Spec.corrP H P R = R * (Spec.innovCov H P R)⁻¹ * (H * P) := by
  rw [Spec.corrP, Matrix.mul_sub, Matrix.mul_assoc (Spec.gain H P R), ← Matrix.mul_assoc H (Spec.gain H P R), obs_gain hS,
    Matrix.sub_mul, Matrix.one_mul, sub_sub_cancel]

end Exact

section Float
variable {fmt : Format}

open Bin

theorem recip_mul_zero (a : Bin fmt) : ¬ (Bin.recip (a * 0)).Finite := by
  by_cases h : a.Finite
  · obtain ⟨h1, h2⟩ := mul_nil h nil_zero
    obtain ⟨s, e⟩ := recip_zero h1 h2
    rw [e]; exact id
  · cases a with
    | nan => exact id
    | inf s => cases s <;> exact id
    | fin => exact absurd trivial h

/-- A pivot whose reciprocal is not finite spoils the inverse. -/
theorem inverse_pivot {t inverse inv : Mat m m (Bin fmt)} {L W : Matrix (Fin m) (Fin m) (Bin fmt)} {p : Fin m}
    (ht : t.Reps L) (hp : ¬ (Bin.recip (L p p)).Finite) (hv : inverse.Valid) (hi : t.invertLCholesky inverse = .ok inv)
    (hW : inv.Reps W) : ¬ (W p p).Finite := by
  obtain ⟨M, X, hX, _, hM, hT⟩ := invert_any_matrix p.pos (fun i j _ => ht i j) hv hi
  have e : W p p = X p p := Option.some.inj ((hW _ _).symm.trans (hX _ _))
  obtain ⟨d, h1, h2⟩ := hT.entry p p le_rfl
  rw [e, h2]
  intro hf
  have hd := (mul_finite hf).2
  have e2 : d = Bin.recip (L p p) := (Except.ok.inj h1).symm
  rw [e2] at hd
  exact hp hd

/-- A pivot whose reciprocal is not finite spoils the whole estimate. -/
theorem correct_pivot (bld : Build) {f f' : RegularKalman n (Bin fmt)} {o o' : RegularObservation n m (Bin fmt)} {x A P Q H z R}
    {L : Matrix (Fin m) (Fin m) (Bin fmt)} {p : Fin m}
    (hn : 0 < n) (hf : f.Reps x A P Q) (ho : o.Reps H z R) (h : f.correct bld o = .ok (f', o'))
    (hL : o'.S.Reps L) (hp : ¬ (Bin.recip (L p p)).Finite) :
    ∃ x' P', f'.x.RepsV x' ∧ f'.P.Reps P' ∧ (∀ i, ¬ (x' i).Finite) ∧ ∀ i j, ¬ (P' i j).Finite := by
  obtain ⟨y1, y2, h1, h2, h3, h4⟩ := innovation_any hn ho.valid ho.H ho.z hf.x
  unfold RegularKalman.correct RegularObservation.correct at h
  simp only [h1, h2, res_bind_ok] at h
  obtain ⟨⟨o1, x1, P1⟩, hu, h⟩ := bind_ok h
  cases h
  obtain ⟨_, s, b, W, hs, hc, hv, hi, hW, _, h7, h8⟩ := update_any bld (o := { o with y := y2 }) p.pos
    (obs_with_y_valid ho.valid h4) ho.H ho.R hf.P hf.x h3 _ hu
  have hWn := inverse_pivot hL hp (obs_with_y_valid ho.valid h4).tempSInv hi hW
  let ra := (Bin.roundedInverse fmt).toRounded
  have hK : ∀ i, ¬ (Spec.mulSeq (Spec.mulSeq P Hᵀ) W i p).Finite := fun i hk => hWn (ra.mulSeq_fin hk p).2
  refine ⟨_, _, h7, h8, fun i hx => ?_, fun i j hp => ?_⟩
  · exact hK i (ra.mulVecSeq_fin (add_finite hx).2 p).1
  · exact hK i (ra.mulSeq_fin (sub_finite hp).2 p).1

/-- The buffer `S` after a correction is the decomposition of the computed innovation covariance. -/
theorem correct_factor (bld : Build) {f f' : RegularKalman n (Bin fmt)} {o o' : RegularObservation n m (Bin fmt)} {x A P Q H z R}
    (hn : 0 < n) (hm : 0 < m) (hf : f.Reps x A P Q) (ho : o.Reps H z R) (h : f.correct bld o = .ok (f', o')) :
    ∃ (s : Mat m m (Bin fmt)) (b : Bool), s.Reps (Spec.mulSeq (Spec.mulSeq H P) Hᵀ + R) ∧
      s.choleskyDecomposeLower bld = .ok (o'.S, b) := by
  obtain ⟨y1, y2, h1, h2, h3, h4⟩ := innovation_any hn ho.valid ho.H ho.z hf.x
  unfold RegularKalman.correct RegularObservation.correct at h
  simp only [h1, h2, res_bind_ok] at h
  obtain ⟨⟨o1, x1, P1⟩, hu, h⟩ := bind_ok h
  cases h
  obtain ⟨_, s, b, W, hs, hc, _⟩ := update_any bld (o := { o with y := y2 }) hm
    (obs_with_y_valid ho.valid h4) ho.H ho.R hf.P hf.x h3 _ hu
  exact ⟨s, b, hs, hc⟩

theorem zero_mul_recip {a : Bin fmt} (h : a.Finite) (h0 : a.val = 0) (d : Bin fmt) : ¬ (Bin.recip (a * d)).Finite := by
  by_cases hd : d.Finite
  · obtain ⟨h1, h2⟩ := nil_mul ⟨h, h0⟩ hd
    obtain ⟨s, e⟩ := recip_zero h1 h2
    rw [e]; exact id
  · cases d with
    | nan => cases a <;> exact id
    | inf s =>
      cases a with
      | nan => exact id
      | inf _ => cases h
      | fin s' k hk =>
        have hk0 : k = 0 := by
          rw [Bin.val_fin] at h0
          revert h0
          cases s' <;> simp [Bin.sgn]
        subst hk0
        cases s <;> cases s' <;> exact id
    | fin => exact absurd trivial hd

/-- A measurement whose innovation covariance has a zero pivot, or a first pivot that is not positive. -/
theorem correct_singular (bld : Build) {f f' : RegularKalman n (Bin fmt)} {o o' : RegularObservation n m (Bin fmt)} {x A P Q H z R}
    {L : Matrix (Fin m) (Fin m) (Bin fmt)} {p : Fin m}
    (hn : 0 < n) (hf : f.Reps x A P Q) (ho : o.Reps H z R) (h : f.correct bld o = .ok (f', o')) (hL : o'.S.Reps L)
    (hb : ∀ c, c < p → MDT.le (Spec.cholRest (Spec.mulSeq (Spec.mulSeq H P) Hᵀ + R) L c c) 0 = false)
    (hp : MDT.le (Spec.cholRest (Spec.mulSeq (Spec.mulSeq H P) Hᵀ + R) L p p) 0 = true)
    (h0 : p.1 = 0 ∨ (Spec.cholRest (Spec.mulSeq (Spec.mulSeq H P) Hᵀ + R) L p p).Finite ∧
      (Spec.cholRest (Spec.mulSeq (Spec.mulSeq H P) Hᵀ + R) L p p).val = 0) :
    ∃ x' P', f'.x.RepsV x' ∧ f'.P.Reps P' ∧ (∀ i, ¬ (x' i).Finite) ∧ ∀ i j, ¬ (P' i j).Finite := by
  refine correct_pivot bld hn hf ho h hL (p := p) ?_
  obtain ⟨s, b, hs, hc⟩ := correct_factor bld hn p.pos hf ho h
  cases b with
  | true =>
    obtain ⟨L', h1, _, _, h3, _⟩ := chol_any_reps bld hs.valid (fun i j _ => hs i j) hc
    obtain rfl := hL.unique h1
    rw [(h3 p).1] at hp; cases hp
  | false =>
    obtain ⟨L', q, h1, _, h2, h3, _, ⟨d, h4, h5⟩, _⟩ := chol_any_fail_reps bld hs.valid (fun i j _ => hs i j) hc
    obtain rfl := hL.unique h1
    have e : p = q := by
      rcases lt_trichotomy p q with hpq | hpq | hpq
      · rw [(h3 p hpq).1] at hp; cases hp
      · exact hpq
      · rw [hb q hpq] at h2; cases h2
    subst e
    rw [h4]
    rcases h0 with h0 | ⟨h0, h0'⟩
    · rcases h5 with ⟨_, rfl⟩ | ⟨q, hq, _⟩
      · exact recip_mul_zero _
      · omega
    · exact zero_mul_recip h0 h0' d

theorem correct_reps (bld : Build) {f f' : RegularKalman n (Bin fmt)} {o o' : RegularObservation n m (Bin fmt)} {x A P Q H z R}
    (hn : 0 < n) (hm : 0 < m) (hf : f.Reps x A P Q) (ho : o.Reps H z R) (h : f.correct bld o = .ok (f', o')) :
    ∃ x' P', f'.x.RepsV x' ∧ f'.P.Reps P' := by
  obtain ⟨y1, y2, h1, h2, h3, h4⟩ := innovation_any hn ho.valid ho.H ho.z hf.x
  unfold RegularKalman.correct RegularObservation.correct at h
  simp only [h1, h2, res_bind_ok] at h
  obtain ⟨⟨o1, x1, P1⟩, hu, h⟩ := bind_ok h
  cases h
  obtain ⟨_, s, b, W, _, _, _, _, _, _, h7, h8⟩ := update_any bld (o := { o with y := y2 }) hm
    (obs_with_y_valid ho.valid h4) ho.H ho.R hf.P hf.x h3 _ hu
  exact ⟨_, _, h7, h8⟩

theorem correct_S (bld : Build) {f f' : RegularKalman n (Bin fmt)} {o o' : RegularObservation n m (Bin fmt)} {x A P Q H z R}
    (hn : 0 < n) (hm : 0 < m) (hf : f.Reps x A P Q) (ho : o.Reps H z R) (h : f.correct bld o = .ok (f', o')) :
    ∃ L, o'.S.Reps L := by
  obtain ⟨s, b, hs, hc⟩ := correct_factor bld hn hm hf ho h
  cases b with
  | true => exact (chol_any_reps bld hs.valid (fun i j _ => hs i j) hc).imp fun _ h => h.1
  | false => exact (chol_any_fail_reps bld hs.valid (fun i j _ => hs i j) hc).imp fun _ h => h.choose_spec.1

end Float
end Minikalman
