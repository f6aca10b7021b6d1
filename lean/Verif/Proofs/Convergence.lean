import Verif.Spec.Convergence
import Verif.Proofs.ExtendedHistory
import Verif.Proofs.WorstCase

/-! # Local convergence of the extended filter -/

set_option linter.unusedSectionVars false

namespace Minikalman
namespace Spec

open Matrix

variable {n m k : Nat}

theorem dot_self_nonneg (v : Fin k → ℝ) : 0 ≤ v ⬝ᵥ v := Finset.sum_nonneg fun i _ => mul_self_nonneg (v i)

theorem len_nonneg (v : Fin k → ℝ) : 0 ≤ len v := Real.sqrt_nonneg _

theorem len_sq (v : Fin k → ℝ) : len v ^ 2 = v ⬝ᵥ v := Real.sq_sqrt (dot_self_nonneg v)

theorem len_neg (v : Fin k → ℝ) : len (-v) = len v := by simp [len]

theorem len_sub_comm (u v : Fin k → ℝ) : len (u - v) = len (v - u) := by rw [← len_neg, neg_sub]

theorem dot_sq_le (y v : Fin k → ℝ) : (y ⬝ᵥ v) ^ 2 ≤ (y ⬝ᵥ y) * (v ⬝ᵥ v) := by
  have := Finset.sum_mul_sq_le_sq_mul_sq Finset.univ y v
  simpa [dotProduct, sq] using this

theorem scaled_one (c : ℝ) (y : Fin k → ℝ) : y ⬝ᵥ (c • (1 : Matrix (Fin k) (Fin k) ℝ)) *ᵥ y = c * (y ⬝ᵥ y) := by
  rw [Matrix.smul_mulVec, Matrix.one_mulVec, dotProduct_smul, smul_eq_mul]

theorem lower_quad {c : ℝ} {M : Matrix (Fin k) (Fin k) ℝ} (h : (M - c • (1 : Matrix (Fin k) (Fin k) ℝ)).PosSemidef) (y : Fin k → ℝ) :
    c * (y ⬝ᵥ y) ≤ y ⬝ᵥ M *ᵥ y := by
  have := quad_nonneg h y
  rw [Matrix.sub_mulVec, dotProduct_sub, scaled_one] at this
  linarith

theorem upper_quad {c : ℝ} {M : Matrix (Fin k) (Fin k) ℝ} (h : (c • (1 : Matrix (Fin k) (Fin k) ℝ) - M).PosSemidef) (y : Fin k → ℝ) :
    y ⬝ᵥ M *ᵥ y ≤ c * (y ⬝ᵥ y) := by
  have := quad_nonneg h y
  rw [Matrix.sub_mulVec, dotProduct_sub, scaled_one] at this
  linarith

/-- A short vector is within few standard deviations of a large covariance. -/
theorem within_short {c d : ℝ} (hc : 0 < c) {M : Matrix (Fin k) (Fin k) ℝ}
    (h : ∀ y : Fin k → ℝ, c * (y ⬝ᵥ y) ≤ y ⬝ᵥ M *ᵥ y) {v : Fin k → ℝ} (hv : len v ≤ d) : Within ((d / √c) ^ 2) M v := by
  intro y
  have h1 := dot_sq_le y v
  have h2 : v ⬝ᵥ v ≤ d ^ 2 := by
    rw [← len_sq]
    exact pow_le_pow_left₀ (len_nonneg v) hv 2
  have h3 := h y
  have h0 := dot_self_nonneg y
  rw [div_pow, Real.sq_sqrt hc.le]
  calc (y ⬝ᵥ v) ^ 2 ≤ (y ⬝ᵥ y) * d ^ 2 := h1.trans (mul_le_mul_of_nonneg_left h2 h0)
    _ = d ^ 2 / c * (c * (y ⬝ᵥ y)) := by field_simp
    _ ≤ _ := mul_le_mul_of_nonneg_left h3 (by positivity)

/-- A vector within few standard deviations of a small covariance is short. -/
theorem short_within {p N : ℝ} (hp : 0 < p) (hN : 0 ≤ N) {M : Matrix (Fin k) (Fin k) ℝ}
    (h : (p • (1 : Matrix (Fin k) (Fin k) ℝ) - M).PosSemidef) {v : Fin k → ℝ} (hv : Within (N ^ 2) M v) : len v ≤ √p * N := by
  have h1 := hv v
  have h2 := upper_quad h v
  have h0 := dot_self_nonneg v
  have h3 : (v ⬝ᵥ v) ^ 2 ≤ N ^ 2 * (p * (v ⬝ᵥ v)) := h1.trans (mul_le_mul_of_nonneg_left h2 (sq_nonneg N))
  have h4 : v ⬝ᵥ v ≤ p * N ^ 2 := by
    rcases h0.eq_or_lt with h | h
    · rw [← h]; positivity
    · have : (v ⬝ᵥ v) * (v ⬝ᵥ v) ≤ p * N ^ 2 * (v ⬝ᵥ v) := by nlinarith
      exact le_of_mul_le_mul_right this h
  unfold len
  calc √(v ⬝ᵥ v) ≤ √(p * N ^ 2) := Real.sqrt_le_sqrt h4
    _ = √p * N := by rw [Real.sqrt_mul hp.le, Real.sqrt_sq hN]

theorem Within.triangle {a b : ℝ} (ha : 0 ≤ a) (hb : 0 ≤ b) {M : Matrix (Fin k) (Fin k) ℝ} {u v : Fin k → ℝ}
    (h1 : Within (a ^ 2) M u) (h2 : Within (b ^ 2) M v) : Within ((a + b) ^ 2) M (u + v) := by
  intro y
  have e1 := h1 y
  have e2 := h2 y
  rw [dotProduct_add]
  generalize y ⬝ᵥ u = s at *
  generalize y ⬝ᵥ v = t at *
  generalize y ⬝ᵥ M *ᵥ y = w at *
  by_cases hw : 0 ≤ w
  · have f1 : |s| ≤ a * √w := by
      rw [← Real.sqrt_sq_eq_abs]
      calc √(s ^ 2) ≤ √(a ^ 2 * w) := Real.sqrt_le_sqrt e1
        _ = a * √w := by rw [Real.sqrt_mul (sq_nonneg a), Real.sqrt_sq ha]
    have f2 : |t| ≤ b * √w := by
      rw [← Real.sqrt_sq_eq_abs]
      calc √(t ^ 2) ≤ √(b ^ 2 * w) := Real.sqrt_le_sqrt e2
        _ = b * √w := by rw [Real.sqrt_mul (sq_nonneg b), Real.sqrt_sq hb]
    have f3 : |s + t| ≤ (a + b) * √w := by
      rw [add_mul]
      exact (abs_add_le s t).trans (add_le_add f1 f2)
    calc (s + t) ^ 2 = |s + t| ^ 2 := (sq_abs _).symm
      _ ≤ ((a + b) * √w) ^ 2 := pow_le_pow_left₀ (abs_nonneg _) f3 2
      _ = (a + b) ^ 2 * w := by rw [mul_pow, Real.sq_sqrt hw]
  · have hw' : w < 0 := not_le.1 hw
    have ha0 : a = 0 := by
      by_contra hne
      have : 0 < a ^ 2 := by positivity
      nlinarith [sq_nonneg s]
    have hb0 : b = 0 := by
      by_contra hne
      have : 0 < b ^ 2 := by positivity
      nlinarith [sq_nonneg t]
    subst ha0 hb0
    have hs : s = 0 := by nlinarith
    have ht : t = 0 := by nlinarith
    simp [hs, ht]

theorem Within.le {a b : ℝ} {M : Matrix (Fin k) (Fin k) ℝ} (hM : M.PosSemidef) (hab : a ≤ b) {v : Fin k → ℝ} (h : Within a M v) :
    Within b M v := fun y => (h y).trans (mul_le_mul_of_nonneg_right hab (quad_nonneg hM y))

/-- What the disturbance and the curvature together amount to. -/
theorem remainder_within {B : Bounds} (hB : B.Valid) {N c : ℝ} (hN : 0 ≤ N) (hc : 0 < c) {f : (Fin n → ℝ) → Fin m → ℝ}
    {J : Matrix (Fin m) (Fin n) ℝ} {x ξ : Fin n → ℝ} {w : Fin m → ℝ} {P : Matrix (Fin n) (Fin n) ℝ} {M : Matrix (Fin m) (Fin m) ℝ}
    (hf : Curved B.κ f J x ξ) (hw : len w ≤ B.ε) (hp : (B.p • (1 : Matrix (Fin n) (Fin n) ℝ) - P).PosSemidef)
    (hx : Within (N ^ 2) P (x - ξ)) (hM : ∀ y : Fin m → ℝ, c * (y ⬝ᵥ y) ≤ y ⬝ᵥ M *ᵥ y) :
    Within (((B.κ * B.p * N ^ 2 + B.ε) / √c) ^ 2) M (f ξ + w - (f x + J *ᵥ (ξ - x))) := by
  have h1 : len (ξ - x) ≤ √B.p * N := by
    rw [len_sub_comm]
    exact short_within hB.p hN hp hx
  have h2 : len (f ξ - (f x + J *ᵥ (ξ - x))) ≤ B.κ * B.p * N ^ 2 := by
    refine hf.trans ?_
    have : len (ξ - x) ^ 2 ≤ B.p * N ^ 2 := by
      calc len (ξ - x) ^ 2 ≤ (√B.p * N) ^ 2 := pow_le_pow_left₀ (len_nonneg _) h1 2
        _ = B.p * N ^ 2 := by rw [mul_pow, Real.sq_sqrt hB.p.le]
    calc B.κ * len (ξ - x) ^ 2 ≤ B.κ * (B.p * N ^ 2) := mul_le_mul_of_nonneg_left this hB.κ
      _ = _ := by ring
  have hk : 0 ≤ B.κ * B.p * N ^ 2 := mul_nonneg (mul_nonneg hB.κ hB.p.le) (sq_nonneg N)
  have := Within.triangle (div_nonneg hk (Real.sqrt_nonneg c)) (div_nonneg hB.ε (Real.sqrt_nonneg c)) (within_short hc hM h2)
    (within_short hc hM hw)
  rw [← add_div] at this
  have e : f ξ - (f x + J *ᵥ (ξ - x)) + w = f ξ + w - (f x + J *ᵥ (ξ - x)) := by abel
  rwa [e] at this

/-- A prediction, in units of the reported standard deviation. -/
noncomputable def Bounds.predicted (B : Bounds) (N : ℝ) : ℝ := B.forget * N + (B.κ * B.p * N ^ 2 + B.ε) / √B.q

/-- A correction, in units of the reported standard deviation. -/
noncomputable def Bounds.corrected (B : Bounds) (N : ℝ) : ℝ := N + (B.κ * B.p * N ^ 2 + B.ε) / √B.r

theorem Bounds.Valid.noise {B : Bounds} (hB : B.Valid) (N : ℝ) : 0 ≤ B.κ * B.p * N ^ 2 + B.ε :=
  add_nonneg (mul_nonneg (mul_nonneg hB.κ hB.p.le) (sq_nonneg N)) hB.ε

theorem Bounds.Valid.predicted {B : Bounds} (hB : B.Valid) {N : ℝ} (hN : 0 ≤ N) : 0 ≤ B.predicted N :=
  add_nonneg (mul_nonneg (Real.sqrt_nonneg _) hN) (div_nonneg (hB.noise N) (Real.sqrt_nonneg _))

theorem Bounds.Valid.corrected {B : Bounds} (hB : B.Valid) {N : ℝ} (hN : 0 ≤ N) : 0 ≤ B.corrected N :=
  add_nonneg hN (div_nonneg (hB.noise N) (Real.sqrt_nonneg _))

theorem forget_nonneg {B : Bounds} (hB : B.Valid) {M Q P : Matrix (Fin n) (Fin n) ℝ} (hM : M.PosSemidef)
    (hq : (Q - B.q • (1 : Matrix (Fin n) (Fin n) ℝ)).PosSemidef) (hp : (B.p • (1 : Matrix (Fin n) (Fin n) ℝ) - P).PosSemidef)
    (hP : P = M + Q) (y : Fin n → ℝ) : y ⬝ᵥ M *ᵥ y ≤ (1 - B.q / B.p) * (y ⬝ᵥ P *ᵥ y) ∧ B.q * (y ⬝ᵥ y) ≤ y ⬝ᵥ P *ᵥ y := by
  have h1 := lower_quad hq y
  have h2 := upper_quad hp y
  have h3 := quad_nonneg hM y
  have hp0 := hB.p
  have hq0 := hB.q
  have h5 : y ⬝ᵥ P *ᵥ y = y ⬝ᵥ M *ᵥ y + y ⬝ᵥ Q *ᵥ y := by rw [hP, Matrix.add_mulVec, dotProduct_add]
  have h6 : B.q / B.p * (y ⬝ᵥ P *ᵥ y) ≤ B.q * (y ⬝ᵥ y) := by
    calc B.q / B.p * (y ⬝ᵥ P *ᵥ y) ≤ B.q / B.p * (B.p * (y ⬝ᵥ y)) := mul_le_mul_of_nonneg_left h2 (by positivity)
      _ = _ := by field_simp
  constructor
  · rw [sub_mul, one_mul]; linarith
  · linarith

/-- The prediction step: `M` is what is left of the old covariance. -/
theorem predicted_within {B : Bounds} (hB : B.Valid) {N : ℝ} (hN : 0 ≤ N) {g : (Fin n → ℝ) → Fin n → ℝ}
    {A M Q P P1 : Matrix (Fin n) (Fin n) ℝ} {x ξ w : Fin n → ℝ} (hM : M.PosSemidef) (hw : len w ≤ B.ε) (hg : Curved B.κ g A x ξ)
    (hq : (Q - B.q • (1 : Matrix (Fin n) (Fin n) ℝ)).PosSemidef) (hp : (B.p • (1 : Matrix (Fin n) (Fin n) ℝ) - P).PosSemidef)
    (hp1 : (B.p • (1 : Matrix (Fin n) (Fin n) ℝ) - P1).PosSemidef) (hP1 : P1 = M + Q) (hAM : (M - A * P * Aᵀ).PosSemidef)
    (hx : Within (N ^ 2) P (x - ξ)) : Within (B.predicted N ^ 2) P1 (g x - (g ξ + w)) := by
  have hl := forget_nonneg hB hM hq hp1 hP1
  have h1 : Within ((B.forget * N) ^ 2) P1 (A *ᵥ (x - ξ)) := by
    intro y
    have h2 := (hx.congr A).mono (sq_nonneg N) hAM y
    have h3 := (hl y).1
    have h0 := quad_nonneg hM y
    have h4 : 0 ≤ y ⬝ᵥ P1 *ᵥ y := by
      rw [hP1, Matrix.add_mulVec, dotProduct_add]
      have := lower_quad hq y
      have := mul_nonneg hB.q.le (dot_self_nonneg y)
      linarith
    by_cases hf : 0 ≤ 1 - B.q / B.p
    · rw [mul_pow, Bounds.forget, Real.sq_sqrt hf]
      calc (y ⬝ᵥ A *ᵥ (x - ξ)) ^ 2 ≤ N ^ 2 * (y ⬝ᵥ M *ᵥ y) := h2
        _ ≤ N ^ 2 * ((1 - B.q / B.p) * (y ⬝ᵥ P1 *ᵥ y)) := mul_le_mul_of_nonneg_left h3 (sq_nonneg N)
        _ = _ := by ring
    · have : y ⬝ᵥ M *ᵥ y ≤ 0 := h3.trans (mul_nonpos_of_nonpos_of_nonneg (le_of_not_ge hf) h4)
      have h5 : y ⬝ᵥ M *ᵥ y = 0 := le_antisymm this h0
      rw [h5, mul_zero] at h2
      exact h2.trans (mul_nonneg (sq_nonneg _) h4)
  have h2 := remainder_within hB hN hB.q hg hw hp hx fun y => (hl y).2
  have h3 := h1.triangle (mul_nonneg (Real.sqrt_nonneg _) hN) (div_nonneg (hB.noise N) (Real.sqrt_nonneg _)) h2.neg
  have e : A *ᵥ (x - ξ) + -(g ξ + w - (g x + A *ᵥ (ξ - x))) = g x - (g ξ + w) := by
    rw [Matrix.mulVec_sub, Matrix.mulVec_sub]; abel
  rwa [e] at h3

/-- The correction step. -/
theorem corrected_within {B : Bounds} (hB : B.Valid) {N : ℝ} (hN : 0 ≤ N) {h : (Fin n → ℝ) → Fin m → ℝ}
    {H : Matrix (Fin m) (Fin n) ℝ} {R : Matrix (Fin m) (Fin m) ℝ} {P : Matrix (Fin n) (Fin n) ℝ} {x ξ : Fin n → ℝ} {z v : Fin m → ℝ}
    (hP : P.PosSemidef) (hR : R.PosDef) (hv : len v ≤ B.ε) (hz : z = h ξ + v) (hh : Curved B.κ h H x ξ)
    (hr : (R - B.r • (1 : Matrix (Fin m) (Fin m) ℝ)).PosSemidef) (hp : (B.p • (1 : Matrix (Fin n) (Fin n) ℝ) - P).PosSemidef)
    (hx : Within (N ^ 2) P (x - ξ)) :
    Within (B.corrected N ^ 2) (corrP H P R) (x + gain H P R *ᵥ (z - h x) - ξ) := by
  have h2 := remainder_within hB hN hB.r hh hv hp hx (lower_quad hr)
  have hd : 0 ≤ (B.κ * B.p * N ^ 2 + B.ε) / √B.r := div_nonneg (hB.noise N) (Real.sqrt_nonneg _)
  have h3 := correct_within (H := H) (sq_nonneg N) (sq_nonneg _) hP hR hx h2
  have e : x + gain H P R *ᵥ (z - h x) - ξ =
      (1 - gain H P R * H) *ᵥ (x - ξ) + gain H P R *ᵥ (h ξ + v - (h x + H *ᵥ (ξ - x))) := by
    rw [hz, Matrix.sub_mulVec, Matrix.one_mulVec, ← Matrix.mulVec_mulVec, Matrix.mulVec_sub H, Matrix.mulVec_sub H]
    simp only [Matrix.mulVec_sub, Matrix.mulVec_add]
    abel
  rw [e]
  refine h3.le ?_ ?_
  · exact corrP_psd hP hR.posSemidef (pd_det (innovCov_pd hP hR))
  · unfold Bounds.corrected
    nlinarith [mul_nonneg hN hd]

/-- The error, in units of the reported standard deviation, follows the two recursions. -/
theorem tracked_within {B : Bounds} (hB : B.Valid) {I : Nat → Nat → ℝ → Prop}
    (hI : ∀ j c N, 0 ≤ N → I j c N → I (j + 1) B.b (B.predicted N)) (hI' : ∀ j c N, 0 ≤ N → I j (c + 1) N → I j c (B.corrected N))
    {s : State n ℝ} {ξ ξ' : Fin n → ℝ} {c k : Nat} {ops : List (XOp n ℝ)} (ht : Tracked B s ξ c ops k ξ') :
    ∀ {j : Nat} {N : ℝ}, 0 ≤ N → I j c N → s.Psd → (∀ op ∈ ops, op.linear.NonzeroLambda) → (∀ op ∈ ops, s.PsdData op.linear) →
      (B.p • (1 : Matrix (Fin n) (Fin n) ℝ) - s.P).PosSemidef → Within (N ^ 2) s.P (s.x - ξ) →
      ∃ s1 c' N', s.xrun ops = some s1 ∧ 0 ≤ N' ∧ I (j + k) c' N' ∧ (B.p • (1 : Matrix (Fin n) (Fin n) ℝ) - s1.P).PosSemidef ∧
        Within (N' ^ 2) s1.P (s1.x - ξ') := by
  induction ht with
  | nil => exact fun h0 hi _ _ _ hp hw => ⟨_, _, _, rfl, h0, hi, hp, hw⟩
  | @predict s s1 ξ ξ' c ops k g w hw hg hq h hp1 ht ih =>
    intro j N h0 hi hs hl hd hp hx
    have hs1 := xstep_cov_inv psd_closed h hs (hd _ (by simp)) (psd_regular hs (hl _ (by simp)))
    have e : s1 = { s with x := g s.x, P := predP s.A s.P s.Q } := (Option.some.inj h).symm
    obtain ⟨s2, c', N', r1, r2, r3, r4, r5⟩ := ih (hB.predicted h0) (hI _ _ _ h0 hi) hs1 (fun o ho => hl o (by simp [ho]))
      (fun o ho => xcovData_congr h (hd o (by simp [ho]))) hp1 (by
        subst e
        exact predicted_within hB h0 (psd_congr hs.P s.A) hw hg hq hp hp1 rfl (by rw [sub_self]; exact Matrix.PosSemidef.zero) hx)
    exact ⟨s2, c', N', by simp only [State.xrun, h]; exact r1, r2, by rwa [Nat.add_right_comm, Nat.add_assoc] at r3, r4, r5⟩
  | @predictTuned s s1 ξ ξ' c ops k lambda hla g w hw hg hq h hp1 ht ih =>
    intro j N h0 hi hs hl hd hp hx
    have hs1 := xstep_cov_inv psd_closed h hs (hd _ (by simp)) (psd_regular hs (hl _ (by simp)))
    have e : s1 = { s with x := g s.x, P := predPTuned lambda s.A s.P s.Q } := (Option.some.inj h).symm
    obtain ⟨s2, c', N', r1, r2, r3, r4, r5⟩ := ih (hB.predicted h0) (hI _ _ _ h0 hi) hs1 (fun o ho => hl o (by simp [ho]))
      (fun o ho => xcovData_congr h (hd o (by simp [ho]))) hp1 (by
        subst e
        have hla0 : lambda ≠ 0 := hl (.predictTuned lambda g) (by simp)
        have k1 : (predPTuned lambda s.A s.P s.Q - s.Q).PosSemidef := by
          rw [predPTuned, add_sub_cancel_right]
          exact (psd_congr hs.P s.A).smul (by positivity)
        have k2 : (predPTuned lambda s.A s.P s.Q - s.Q - s.A * s.P * s.Aᵀ).PosSemidef := by
          have := predPTuned_antitone (A := s.A) (Q := s.Q) hs.P (abs_pos.2 hla0) (show |lambda| ≤ |(1 : ℝ)| by rwa [abs_one])
          rw [predPTuned_one, predP] at this
          rwa [show predPTuned lambda s.A s.P s.Q - s.Q - s.A * s.P * s.Aᵀ = predPTuned lambda s.A s.P s.Q - (s.A * s.P * s.Aᵀ + s.Q)
            by abel]
        exact predicted_within hB h0 k1 hw hg hq hp hp1 (by simp) k2 hx)
    exact ⟨s2, c', N', by simp only [State.xrun, h]; exact r1, r2, by rwa [Nat.add_right_comm, Nat.add_assoc] at r3, r4, r5⟩
  | @correct s s1 ξ ξ' c ops k i hh m o ho v hv hz hc hr h ht ih =>
    intro j N h0 hi hs hl hd hp hx
    have hs1 := xstep_cov_inv psd_closed h hs (hd _ (by simp)) (psd_regular hs (hl _ (by simp)))
    have e : s1 = { s with x := s.x + gain o.H s.P o.R *ᵥ (o.z - hh m s.x), P := corrP o.H s.P o.R } := by
      simp only [State.xstep, ho] at h; exact (Option.some.inj h).symm
    have hR : o.R.PosDef := hs.obs _ (List.mem_of_getElem? ho)
    obtain ⟨s2, c', N', r1, r2, r3, r4, r5⟩ := ih (hB.corrected h0) (hI' _ _ _ h0 hi) hs1 (fun o ho => hl o (by simp [ho]))
      (fun o ho => xcovData_congr h (hd o (by simp [ho]))) (by
        subst e
        exact psd_sub_trans (corrP_le (Minikalman.psd_symm hs.P) (pd_symm hR) (innovCov_pd hs.P hR)) hp) (by
        subst e
        exact corrected_within hB h0 hs.P hR hv hz hc hr hp hx)
    exact ⟨s2, c', N', by simp only [State.xrun, h]; exact r1, r2, r3, r4, r5⟩
  | @assign s s1 ξ ξ' c ops k op hop h ht ih =>
    intro j N h0 hi hs hl hd hp hx
    have hs1 := xstep_cov_inv psd_closed h hs (hd _ (by simp)) (psd_regular hs (hl _ (by simp)))
    have h' : s.step op.toOp = some s1 := h
    have e : s1.x = s.x ∧ s1.P = s.P := by
      cases op <;> first
        | exact hop.elim
        | (cases h'; exact ⟨rfl, rfl⟩)
        | (obtain ⟨c, _, rfl⟩ := option_map_some h'; exact ⟨rfl, rfl⟩)
    obtain ⟨s2, c', N', r1, r2⟩ := ih h0 hi hs1 (fun o ho => hl o (by simp [ho]))
      (fun o ho => xcovData_congr h (hd o (by simp [ho]))) (by rwa [e.2]) (by rwa [e.1, e.2])
    exact ⟨s2, c', N', by simp only [State.xrun, h]; exact r1, r2⟩

/-! ## The two recursions -/

theorem Bounds.Valid.forget_lt {B : Bounds} (hB : B.Valid) : B.forget < 1 := by
  have : 1 - B.q / B.p < 1 := by have := div_pos hB.q hB.p; linarith
  unfold Bounds.forget
  rw [Real.sqrt_lt' one_pos]
  simpa using this

theorem rate_mono {B : Bounds} (hB : B.Valid) {N N0 : ℝ} (h : 0 ≤ N) (hN : N ≤ N0) : B.rate N ≤ B.rate N0 := by
  have hk : 0 ≤ B.κ * B.p := mul_nonneg hB.κ hB.p.le
  have hd : ∀ c : ℝ, B.κ * B.p * N / √c ≤ B.κ * B.p * N0 / √c := fun c =>
    div_le_div_of_nonneg_right (mul_le_mul_of_nonneg_left hN hk) (Real.sqrt_nonneg _)
  have hn : ∀ c : ℝ, 0 ≤ B.κ * B.p * N / √c := fun c => div_nonneg (mul_nonneg hk h) (Real.sqrt_nonneg _)
  have hf : 0 ≤ B.forget := Real.sqrt_nonneg _
  have h1 := hn B.q
  have h2 := hn B.r
  have h3 := hd B.q
  have h4 := hd B.r
  unfold Bounds.rate
  refine mul_le_mul (by linarith) (pow_le_pow_left₀ (by linarith) (by linarith) _) (pow_nonneg (by linarith) _) (by linarith)

/-- Without disturbances: the error shrinks geometrically. -/
theorem shrinks {B : Bounds} (hB : B.Valid) (hε : B.ε = 0) {N0 μ : ℝ} (h0 : 0 ≤ N0) (hμ : μ ≤ 1) (hμ0 : B.rate N0 ≤ μ) :
    (∀ j c N, 0 ≤ N → N * (1 + B.κ * B.p * N0 / √B.r) ^ c ≤ μ ^ j * N0 →
      B.predicted N * (1 + B.κ * B.p * N0 / √B.r) ^ B.b ≤ μ ^ (j + 1) * N0) ∧
    ∀ j c N, 0 ≤ N → N * (1 + B.κ * B.p * N0 / √B.r) ^ (c + 1) ≤ μ ^ j * N0 →
      B.corrected N * (1 + B.κ * B.p * N0 / √B.r) ^ c ≤ μ ^ j * N0 := by
  have hk : 0 ≤ B.κ * B.p := mul_nonneg hB.κ hB.p.le
  have hγ : 0 ≤ B.κ * B.p * N0 / √B.r := div_nonneg (mul_nonneg hk h0) (Real.sqrt_nonneg _)
  have hα : 0 ≤ B.κ * B.p * N0 / √B.q := div_nonneg (mul_nonneg hk h0) (Real.sqrt_nonneg _)
  have hf : 0 ≤ B.forget := Real.sqrt_nonneg _
  have hr0 : 0 ≤ B.rate N0 := mul_nonneg (add_nonneg hf hα) (pow_nonneg (by linarith) _)
  have hμ1 : 0 ≤ μ := hr0.trans hμ0
  have hle : ∀ (j c : Nat) N, 0 ≤ N → N * (1 + B.κ * B.p * N0 / √B.r) ^ c ≤ μ ^ j * N0 → N ≤ μ ^ j * N0 ∧ N ≤ N0 := by
    intro j c N hN h
    have h1 : 1 ≤ (1 + B.κ * B.p * N0 / √B.r) ^ c := one_le_pow₀ (by linarith)
    have h2 : N ≤ μ ^ j * N0 := (le_mul_of_one_le_right hN h1).trans h
    exact ⟨h2, h2.trans (mul_le_of_le_one_left h0 (pow_le_one₀ hμ1 hμ))⟩
  have hq : ∀ {N c : ℝ}, 0 ≤ N → N ≤ N0 → (B.κ * B.p * N ^ 2 + B.ε) / √c ≤ B.κ * B.p * N0 / √c * N := by
    intro N c hN hle
    rw [hε, add_zero, div_mul_eq_mul_div]
    refine div_le_div_of_nonneg_right ?_ (Real.sqrt_nonneg _)
    calc B.κ * B.p * N ^ 2 = B.κ * B.p * (N * N) := by ring
      _ ≤ B.κ * B.p * (N0 * N) := mul_le_mul_of_nonneg_left (mul_le_mul_of_nonneg_right hle hN) hk
      _ = _ := by ring
  constructor
  · intro j c N hN h
    obtain ⟨h1, h2⟩ := hle j c N hN h
    have h3 : B.predicted N ≤ (B.forget + B.κ * B.p * N0 / √B.q) * N := by
      rw [add_mul]
      exact add_le_add le_rfl (hq hN h2)
    have hpw : 0 ≤ (1 + B.κ * B.p * N0 / √B.r) ^ B.b := pow_nonneg (by linarith) _
    calc B.predicted N * (1 + B.κ * B.p * N0 / √B.r) ^ B.b
        ≤ (B.forget + B.κ * B.p * N0 / √B.q) * N * (1 + B.κ * B.p * N0 / √B.r) ^ B.b := mul_le_mul_of_nonneg_right h3 hpw
      _ = B.rate N0 * N := by unfold Bounds.rate; ring
      _ ≤ μ * (μ ^ j * N0) := mul_le_mul hμ0 h1 hN hμ1
      _ = _ := by ring
  · intro j c N hN h
    obtain ⟨h1, h2⟩ := hle j (c + 1) N hN h
    have h3 : B.corrected N ≤ (1 + B.κ * B.p * N0 / √B.r) * N := by
      rw [add_mul, one_mul]
      exact add_le_add le_rfl (hq hN h2)
    calc B.corrected N * (1 + B.κ * B.p * N0 / √B.r) ^ c
        ≤ (1 + B.κ * B.p * N0 / √B.r) * N * (1 + B.κ * B.p * N0 / √B.r) ^ c :=
          mul_le_mul_of_nonneg_right h3 (pow_nonneg (by linarith) _)
      _ = N * (1 + B.κ * B.p * N0 / √B.r) ^ (c + 1) := by ring
      _ ≤ _ := h

/-- With disturbances: the error stays bounded. -/
theorem stays {B : Bounds} (hB : B.Valid) {N0 : ℝ}
    (h : B.forget * N0 + (B.κ * B.p * N0 ^ 2 + B.ε) * (1 / √B.q + B.b / √B.r) ≤ N0) :
    (∀ c : Nat, ∀ N, 0 ≤ N → N + c * ((B.κ * B.p * N0 ^ 2 + B.ε) / √B.r) ≤ N0 →
      B.predicted N + B.b * ((B.κ * B.p * N0 ^ 2 + B.ε) / √B.r) ≤ N0) ∧
    ∀ c : Nat, ∀ N, 0 ≤ N → N + (c + 1 : Nat) * ((B.κ * B.p * N0 ^ 2 + B.ε) / √B.r) ≤ N0 →
      B.corrected N + c * ((B.κ * B.p * N0 ^ 2 + B.ε) / √B.r) ≤ N0 := by
  have hk : 0 ≤ B.κ * B.p := mul_nonneg hB.κ hB.p.le
  have hn := hB.noise N0
  have hd : ∀ c : ℝ, 0 ≤ (B.κ * B.p * N0 ^ 2 + B.ε) / √c := fun c => div_nonneg hn (Real.sqrt_nonneg _)
  have hq : ∀ {N c : ℝ}, 0 ≤ N → N ≤ N0 → (B.κ * B.p * N ^ 2 + B.ε) / √c ≤ (B.κ * B.p * N0 ^ 2 + B.ε) / √c := by
    intro N c hN hle
    refine div_le_div_of_nonneg_right (add_le_add (mul_le_mul_of_nonneg_left ?_ hk) le_rfl) (Real.sqrt_nonneg _)
    exact pow_le_pow_left₀ hN hle 2
  have hle : ∀ (c : Nat) N, N + c * ((B.κ * B.p * N0 ^ 2 + B.ε) / √B.r) ≤ N0 → N ≤ N0 := by
    intro c N h
    have := mul_nonneg (Nat.cast_nonneg (α := ℝ) c) (hd B.r)
    linarith
  constructor
  · intro c N hN h1
    have h2 := hle c N h1
    have h3 : B.predicted N ≤ B.forget * N0 + (B.κ * B.p * N0 ^ 2 + B.ε) / √B.q :=
      add_le_add (mul_le_mul_of_nonneg_left h2 (Real.sqrt_nonneg _)) (hq hN h2)
    have e : (B.κ * B.p * N0 ^ 2 + B.ε) * (1 / √B.q + B.b / √B.r) =
        (B.κ * B.p * N0 ^ 2 + B.ε) / √B.q + B.b * ((B.κ * B.p * N0 ^ 2 + B.ε) / √B.r) := by ring
    linarith
  · intro c N hN h1
    have h2 := hle _ N h1
    have h3 : B.corrected N ≤ N + (B.κ * B.p * N0 ^ 2 + B.ε) / √B.r := add_le_add le_rfl (hq hN h2)
    push_cast at h1
    linarith

/-- Small errors shrink at any rate above `forget`. -/
theorem exists_radius {B : Bounds} {μ : ℝ} (hμ : B.forget < μ) : ∃ N0 > 0, B.rate N0 ≤ μ := by
  have hc : ContinuousAt B.rate 0 := by
    unfold Bounds.rate
    fun_prop
  have h0 : B.rate 0 = B.forget := by simp [Bounds.rate]
  have hlt : B.rate 0 < μ := by rw [h0]; exact hμ
  have := (hc.eventually (gt_mem_nhds hlt)).filter_mono (nhdsWithin_le_nhds (s := Set.Ioi 0))
  obtain ⟨N0, h1, h2⟩ := (this.and self_mem_nhdsWithin).exists
  exact ⟨N0, h2, h1.le⟩

end Spec
end Minikalman
