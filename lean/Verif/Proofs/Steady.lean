import Verif.Spec.Steady
import Verif.Proofs.WorstCase
import Mathlib.Topology.Algebra.Order.LiminfLimsup
import Mathlib.Topology.Order.MonotoneConvergence

/-! # Periodic operation: helper lemmas -/

set_option linter.unusedSectionVars false

namespace Minikalman
namespace Spec

open Matrix Filter Topology

variable {n m k : Nat}

/-! ## Limits of matrices by their quadratic forms -/

theorem quad_add_symm (M : Matrix (Fin n) (Fin n) ℝ) (hM : Mᵀ = M) (u v : Fin n → ℝ) :
    (u + v) ⬝ᵥ M *ᵥ (u + v) = u ⬝ᵥ M *ᵥ u + 2 * (u ⬝ᵥ M *ᵥ v) + v ⬝ᵥ M *ᵥ v := by
  have e : v ⬝ᵥ M *ᵥ u = u ⬝ᵥ M *ᵥ v := by
    rw [Matrix.dotProduct_mulVec, ← Matrix.mulVec_transpose, hM, dotProduct_comm]
  rw [Matrix.mulVec_add, dotProduct_add, add_dotProduct, add_dotProduct, e]
  ring

theorem entry_quad (M : Matrix (Fin n) (Fin n) ℝ) (hM : Mᵀ = M) (i j : Fin n) :
    M i j = ((Pi.single i 1 + Pi.single j 1 : Fin n → ℝ) ⬝ᵥ M *ᵥ (Pi.single i 1 + Pi.single j 1) -
      (Pi.single i 1 : Fin n → ℝ) ⬝ᵥ M *ᵥ Pi.single i 1 - (Pi.single j 1 : Fin n → ℝ) ⬝ᵥ M *ᵥ Pi.single j 1) / 2 := by
  rw [quad_add_symm M hM]
  have : (Pi.single i 1 : Fin n → ℝ) ⬝ᵥ M *ᵥ Pi.single j 1 = M i j := by
    rw [single_one_dotProduct, Matrix.mulVec_single_one]; rfl
  rw [this]
  ring

theorem tendsto_entry {F : Nat → Matrix (Fin n) (Fin n) ℝ} {L : Matrix (Fin n) (Fin n) ℝ} (h : Tendsto F atTop (𝓝 L))
    (i j : Fin n) : Tendsto (fun k => F k i j) atTop (𝓝 (L i j)) :=
  (tendsto_pi_nhds.1 ((tendsto_pi_nhds.1 h) i)) j

theorem tendsto_of_entries {F : Nat → Matrix (Fin n) (Fin n) ℝ} {L : Matrix (Fin n) (Fin n) ℝ}
    (h : ∀ i j, Tendsto (fun k => F k i j) atTop (𝓝 (L i j))) : Tendsto F atTop (𝓝 L) :=
  tendsto_pi_nhds.2 fun i => tendsto_pi_nhds.2 fun j => h i j

theorem tendsto_quad {F : Nat → Matrix (Fin n) (Fin n) ℝ} {L : Matrix (Fin n) (Fin n) ℝ} (h : Tendsto F atTop (𝓝 L))
    (v : Fin n → ℝ) : Tendsto (fun k => v ⬝ᵥ F k *ᵥ v) atTop (𝓝 (v ⬝ᵥ L *ᵥ v)) := by
  have hc : Continuous fun M : Matrix (Fin n) (Fin n) ℝ => v ⬝ᵥ M *ᵥ v :=
    continuous_const.dotProduct (continuous_id.matrix_mulVec continuous_const)
  exact (hc.tendsto L).comp h

theorem tendsto_of_quad {F : Nat → Matrix (Fin n) (Fin n) ℝ} {L : Matrix (Fin n) (Fin n) ℝ} (hF : ∀ k, (F k)ᵀ = F k)
    (hL : Lᵀ = L) (h : ∀ v : Fin n → ℝ, Tendsto (fun k => v ⬝ᵥ F k *ᵥ v) atTop (𝓝 (v ⬝ᵥ L *ᵥ v))) : Tendsto F atTop (𝓝 L) := by
  refine tendsto_of_entries fun i j => ?_
  rw [entry_quad L hL i j]
  have := (((h (Pi.single i 1 + Pi.single j 1)).sub (h (Pi.single i 1))).sub (h (Pi.single j 1))).div_const 2
  refine this.congr fun k => ?_
  rw [← entry_quad (F k) (hF k) i j]

theorem psd_of_quad {M : Matrix (Fin n) (Fin n) ℝ} (hM : Mᵀ = M) (h : ∀ v : Fin n → ℝ, 0 ≤ v ⬝ᵥ M *ᵥ v) : M.PosSemidef := by
  refine Matrix.PosSemidef.of_dotProduct_mulVec_nonneg ?_ fun v => ?_
  · rwa [Matrix.IsHermitian, Matrix.conjTranspose_eq_transpose_of_trivial]
  · rw [star_trivial]; exact h v

theorem psd_limit {F : Nat → Matrix (Fin n) (Fin n) ℝ} {L : Matrix (Fin n) (Fin n) ℝ} (h : Tendsto F atTop (𝓝 L))
    (hF : ∀ k, (F k).PosSemidef) : L.PosSemidef := by
  refine psd_of_quad ?_ fun v => ge_of_tendsto' (tendsto_quad h v) fun k => quad_nonneg (hF k) v
  ext i j
  have h1 := tendsto_entry h j i
  have h2 := tendsto_entry h i j
  refine tendsto_nhds_unique h1 (h2.congr fun k => ?_)
  have := congrFun (congrFun (Minikalman.psd_symm (hF k)) j) i
  exact this

theorem quad_le {M N : Matrix (Fin n) (Fin n) ℝ} (h : (N - M).PosSemidef) (v : Fin n → ℝ) : v ⬝ᵥ M *ᵥ v ≤ v ⬝ᵥ N *ᵥ v := by
  have := quad_nonneg h v
  rwa [Matrix.sub_mulVec, dotProduct_sub, sub_nonneg] at this

/-- A decreasing sequence of positive semi-definite matrices converges. -/
theorem decreasing_converges {F : Nat → Matrix (Fin n) (Fin n) ℝ} (hF : ∀ k, (F k).PosSemidef)
    (hd : ∀ k, (F k - F (k + 1)).PosSemidef) :
    ∃ L, Tendsto F atTop (𝓝 L) ∧ L.PosSemidef ∧ ∀ k, (F k - L).PosSemidef := by
  have hq : ∀ v : Fin n → ℝ, ∃ l, Tendsto (fun k => v ⬝ᵥ F k *ᵥ v) atTop (𝓝 l) := by
    intro v
    refine ⟨_, tendsto_atTop_ciInf (antitone_nat_of_succ_le fun k => quad_le (hd k) v) ⟨0, ?_⟩⟩
    rintro _ ⟨k, rfl⟩
    exact quad_nonneg (hF k) v
  choose q hq using hq
  have hL : Tendsto F atTop (𝓝 (Matrix.of fun i j => (q (Pi.single i 1 + Pi.single j 1) - q (Pi.single i 1) -
      q (Pi.single j 1)) / 2)) := by
    refine tendsto_of_entries fun i j => ?_
    have := (((hq (Pi.single i 1 + Pi.single j 1)).sub (hq (Pi.single i 1))).sub (hq (Pi.single j 1))).div_const 2
    refine this.congr fun k => ?_
    rw [← entry_quad (F k) (Minikalman.psd_symm (hF k)) i j]
  have anti : ∀ k d, (F k - F (k + d)).PosSemidef := by
    intro k d
    induction d with
    | zero => rw [add_zero, sub_self]; exact Matrix.PosSemidef.zero
    | succ d ih => exact psd_sub_trans (hd (k + d)) ih
  refine ⟨_, hL, psd_limit hL hF, fun k => ?_⟩
  have h1 : Tendsto (fun d => F k - F (k + d)) atTop (𝓝 (F k - _)) :=
    tendsto_const_nhds.sub (hL.comp (tendsto_add_atTop_nat k |>.congr fun d => Nat.add_comm d k))
  exact psd_limit h1 (anti k)

/-- An increasing bounded sequence of positive semi-definite matrices converges. -/
theorem increasing_converges {F : Nat → Matrix (Fin n) (Fin n) ℝ} {B : Matrix (Fin n) (Fin n) ℝ} (hF : ∀ k, (F k).PosSemidef)
    (hB : ∀ k, (B - F k).PosSemidef) (hd : ∀ k, (F (k + 1) - F k).PosSemidef) :
    ∃ L, Tendsto F atTop (𝓝 L) ∧ L.PosSemidef ∧ (B - L).PosSemidef ∧ ∀ k, (L - F k).PosSemidef := by
  obtain ⟨L, h1, h2, h3⟩ := decreasing_converges (F := fun k => B - F k) hB fun k => by
    have := hd k
    rwa [← sub_sub_sub_cancel_left (F k) (F (k + 1)) B] at this
  have h4 : Tendsto F atTop (𝓝 (B - L)) := by
    have := (tendsto_const_nhds (x := B)).sub h1
    simpa using this
  refine ⟨B - L, h4, psd_limit h4 hF, by rwa [sub_sub_cancel], fun k => ?_⟩
  have := h3 k
  rwa [show B - L - F k = B - F k - L by abel]

/-- A sequence between two sequences with the same limit. -/
theorem squeeze {F G U : Nat → Matrix (Fin n) (Fin n) ℝ} {L : Matrix (Fin n) (Fin n) ℝ} (hF : ∀ k, (F k).PosSemidef)
    (hG : Tendsto G atTop (𝓝 L)) (hU : Tendsto U atTop (𝓝 L)) (hL : Lᵀ = L) (h1 : ∀ k, (F k - G k).PosSemidef)
    (h2 : ∀ k, (U k - F k).PosSemidef) : Tendsto F atTop (𝓝 L) :=
  tendsto_of_quad (fun k => Minikalman.psd_symm (hF k)) hL fun v =>
    tendsto_of_tendsto_of_tendsto_of_le_of_le (tendsto_quad hG v) (tendsto_quad hU v) (fun k => quad_le (h1 k) v)
      fun k => quad_le (h2 k) v

theorem psd_antisymm {M N : Matrix (Fin n) (Fin n) ℝ} (h1 : (N - M).PosSemidef) (h2 : (M - N).PosSemidef)
    (hM : Mᵀ = M) (hN : Nᵀ = N) : M = N := by
  ext i j
  rw [entry_quad M hM, entry_quad N hN]
  have h : ∀ v : Fin n → ℝ, v ⬝ᵥ M *ᵥ v = v ⬝ᵥ N *ᵥ v := fun v => le_antisymm (quad_le h1 v) (quad_le h2 v)
  rw [h, h, h]

/-- A positive definite matrix bounds every covariance, up to a factor. -/
theorem pd_bounds {Q M : Matrix (Fin n) (Fin n) ℝ} (hQ : Q.PosDef) (hM : M.PosSemidef) :
    ∃ c : ℝ, 0 ≤ c ∧ (c • Q - M).PosSemidef := by
  have hn : ∀ i, 0 ≤ Q⁻¹ i i := fun i => by
    have := quad_nonneg hQ.inv.posSemidef (Pi.single i 1)
    rwa [single_one_dotProduct, Matrix.mulVec_single_one] at this
  have hv : ∀ (v : Fin n → ℝ) i, v i ^ 2 ≤ Q⁻¹ i i * (v ⬝ᵥ Q *ᵥ v) := fun v i => by
    have := (within_iff (hn i) hQ (Pi.single i 1)).2 (by rw [single_one_dotProduct, Matrix.mulVec_single_one]; exact le_rfl) v
    rwa [dotProduct_single_one] at this
  refine ⟨∑ i, ∑ j, |M i j| * ((Q⁻¹ i i + Q⁻¹ j j) / 2), Finset.sum_nonneg fun i _ => Finset.sum_nonneg fun j _ =>
    mul_nonneg (abs_nonneg _) (by linarith [hn i, hn j]), psd_of_quad ?_ fun v => ?_⟩
  · rw [Matrix.transpose_sub, Matrix.transpose_smul, pd_symm hQ, Minikalman.psd_symm hM]
  · have hq : v ⬝ᵥ M *ᵥ v = ∑ i, ∑ j, M i j * (v i * v j) := by
      simp only [dotProduct, Matrix.mulVec, Finset.mul_sum]
      exact Finset.sum_congr rfl fun i _ => Finset.sum_congr rfl fun j _ => by ring
    rw [Matrix.sub_mulVec, dotProduct_sub, Matrix.smul_mulVec, dotProduct_smul, smul_eq_mul, hq, sub_nonneg, Finset.sum_mul]
    refine Finset.sum_le_sum fun i _ => ?_
    rw [Finset.sum_mul]
    refine Finset.sum_le_sum fun j _ => ?_
    have h1 := hv v i
    have h2 := hv v j
    calc M i j * (v i * v j) ≤ |M i j * (v i * v j)| := le_abs_self _
      _ = |M i j| * |v i * v j| := abs_mul _ _
      _ ≤ |M i j| * ((Q⁻¹ i i + Q⁻¹ j j) / 2 * (v ⬝ᵥ Q *ᵥ v)) := by
        refine mul_le_mul_of_nonneg_left (abs_le.2 ⟨?_, ?_⟩) (abs_nonneg _)
        · nlinarith [sq_nonneg (v i + v j)]
        · nlinarith [sq_nonneg (v i - v j)]
      _ = _ := by ring

theorem pd_within {M : Matrix (Fin n) (Fin n) ℝ} (hM : M.PosDef) (v : Fin n → ℝ) : ∃ c : ℝ, 0 ≤ c ∧ Within c M v :=
  ⟨_, quad_nonneg hM.inv.posSemidef v, (within_iff (quad_nonneg hM.inv.posSemidef v) hM v).2 le_rfl⟩

theorem smul_below {M : Matrix (Fin n) (Fin n) ℝ} (hM : M.PosSemidef) {a b : ℝ} (h : a ≤ b) : (b • M - a • M).PosSemidef := by
  rw [← sub_smul]
  exact hM.smul (sub_nonneg.2 h)

/-! ## What a step does to covariances -/

/-- A map of covariances that keeps positive semi-definiteness, is monotone, grows at most proportionally and is continuous. -/
structure CovMap (f : Matrix (Fin n) (Fin n) ℝ → Matrix (Fin n) (Fin n) ℝ) : Prop where
  psd : ∀ {P}, P.PosSemidef → (f P).PosSemidef
  mono : ∀ {P P'}, P.PosSemidef → (P' - P).PosSemidef → (f P' - f P).PosSemidef
  hom : ∀ {P} {a : ℝ}, P.PosSemidef → 1 ≤ a → (a • f P - f (a • P)).PosSemidef
  cont : ∀ {P}, P.PosSemidef → ContinuousAt f P

/-- It grows less than proportionally, and its values are positive definite. -/
structure StrictMap (f : Matrix (Fin n) (Fin n) ℝ → Matrix (Fin n) (Fin n) ℝ) : Prop where
  pd : ∀ {P}, P.PosSemidef → (f P).PosDef
  strict : ∀ {P} {a : ℝ}, P.PosSemidef → 1 < a → ∃ b, 1 ≤ b ∧ b < a ∧ (b • f P - f (a • P)).PosSemidef

variable {f g : Matrix (Fin n) (Fin n) ℝ → Matrix (Fin n) (Fin n) ℝ}

theorem CovMap.id : CovMap (fun P : Matrix (Fin n) (Fin n) ℝ => P) :=
  ⟨fun h => h, fun _ h => h, fun h _ => by rw [sub_self]; exact .zero, fun _ => continuousAt_id⟩

theorem CovMap.comp (hg : CovMap g) (hf : CovMap f) : CovMap fun P => g (f P) := by
  refine ⟨fun h => hg.psd (hf.psd h), fun h h' => hg.mono (hf.psd h) (hf.mono h h'), fun {P a} h ha => ?_, fun {P} h => ?_⟩
  · have h0 : (0 : ℝ) ≤ a := zero_le_one.trans ha
    exact psd_sub_trans (hg.mono (hf.psd (h.smul h0)) (hf.hom h ha)) (hg.hom (hf.psd h) ha)
  · exact ContinuousAt.comp (g := g) (hg.cont (hf.psd h)) (hf.cont h)

/-- First any map, then a strict one. -/
theorem StrictMap.comp_right (hgs : StrictMap g) (hg : CovMap g) (hf : CovMap f) : StrictMap fun P => g (f P) := by
  refine ⟨fun h => hgs.pd (hf.psd h), fun {P a} h ha => ?_⟩
  obtain ⟨b, h1, h2, h3⟩ := hgs.strict (hf.psd h) ha
  have h0 : (0 : ℝ) ≤ a := zero_le_one.trans ha.le
  exact ⟨b, h1, h2, psd_sub_trans (hg.mono (hf.psd (h.smul h0)) (hf.hom h ha.le)) h3⟩

/-- First a strict map, then one that keeps positive definiteness. -/
theorem StrictMap.comp_left (hfs : StrictMap f) (hg : CovMap g) (hpd : ∀ {P}, P.PosDef → (g P).PosDef) (hf : CovMap f) :
    StrictMap fun P => g (f P) := by
  refine ⟨fun h => hpd (hfs.pd h), fun {P a} h ha => ?_⟩
  obtain ⟨b, h1, h2, h3⟩ := hfs.strict h ha
  have h0 : (0 : ℝ) ≤ a := zero_le_one.trans ha.le
  exact ⟨b, h1, h2, psd_sub_trans (hg.mono (hf.psd (h.smul h0)) h3) (hg.hom (hf.psd h) h1)⟩

theorem predPTuned_map (lambda : ℝ) (A : Matrix (Fin n) (Fin n) ℝ) {Q} (hQ : Q.PosSemidef) :
    CovMap fun P => predPTuned lambda A P Q := by
  have z : (Q - Q).PosSemidef := by rw [sub_self]; exact .zero
  refine ⟨fun h => predPTuned_psd lambda h hQ, fun _ h => predPTuned_mono lambda h z, fun {P a} h ha => ?_, fun {P} h => ?_⟩
  · have : a • predPTuned lambda A P Q - predPTuned lambda A (a • P) Q = (a - 1) • Q := by
      simp only [predPTuned, Matrix.mul_smul, Matrix.smul_mul, smul_add, sub_smul, one_smul]
      rw [smul_comm a]
      abel
    rw [this]
    exact hQ.smul (sub_nonneg.2 ha)
  · refine Continuous.continuousAt ?_
    unfold predPTuned
    fun_prop

theorem predPTuned_strict (lambda : ℝ) (A : Matrix (Fin n) (Fin n) ℝ) {Q} (hQ : Q.PosDef) :
    StrictMap fun P => predPTuned lambda A P Q := by
  refine ⟨fun {P} h => Matrix.PosDef.posSemidef_add ((psd_congr h A).smul (by positivity)) hQ, fun {P a} h ha => ?_⟩
  obtain ⟨c, hc, hb⟩ := pd_bounds hQ ((psd_congr h A).smul (show (0 : ℝ) ≤ (lambda ^ 2)⁻¹ by positivity))
  have hc1 : 0 < c + 1 := by linarith
  refine ⟨(a * c + 1) / (c + 1), ?_, ?_, ?_⟩
  · rw [le_div_iff₀ hc1]; nlinarith
  · rw [div_lt_iff₀ hc1]; nlinarith
  · have : ((a * c + 1) / (c + 1)) • predPTuned lambda A P Q - predPTuned lambda A (a • P) Q
        = ((a - 1) / (c + 1)) • (c • Q - (lambda ^ 2)⁻¹ • (A * P * Aᵀ)) := by
      simp only [predPTuned, Matrix.mul_smul, Matrix.smul_mul]
      rw [smul_comm _ a]
      generalize (lambda ^ 2)⁻¹ • (A * P * Aᵀ) = X
      ext i j
      simp only [Matrix.sub_apply, Matrix.smul_apply, Matrix.add_apply, smul_eq_mul]
      field_simp
      ring
    rw [this]
    exact hb.smul (div_nonneg (by linarith) hc1.le)

theorem ctlP_map (B : Matrix (Fin n) (Fin m) ℝ) {Q} (hQ : Q.PosSemidef) : CovMap fun P => ctlP B Q P := by
  have z : (Q - Q).PosSemidef := by rw [sub_self]; exact .zero
  refine ⟨fun h => ctlP_psd h hQ, fun _ h => ctlP_mono h z, fun {P a} h ha => ?_, fun {P} h => ?_⟩
  · have : a • ctlP B Q P - ctlP B Q (a • P) = (a - 1) • (B * Q * Bᵀ) := by
      simp only [ctlP, smul_add, sub_smul, one_smul]
      abel
    rw [this]
    exact (psd_congr hQ B).smul (sub_nonneg.2 ha)
  · refine Continuous.continuousAt ?_
    unfold ctlP
    fun_prop

theorem corrP_smul_any (H : Matrix (Fin m) (Fin n) ℝ) (P : Matrix (Fin n) (Fin n) ℝ) (R) {a : ℝ} (ha : a ≠ 0) :
    corrP H (a • P) (a • R) = a • corrP H P R := by
  have h1 : innovCov H (a • P) (a • R) = a • innovCov H P R := by
    simp only [innovCov, Matrix.mul_smul, Matrix.smul_mul, smul_add]
  have h2 : gain H (a • P) (a • R) = gain H P R := by
    rw [gain, h1, gain, Matrix.smul_mul]
    by_cases hd : IsUnit (innovCov H P R).det
    · have : Invertible a := invertibleOfNonzero ha
      rw [Matrix.inv_smul _ a hd, Matrix.mul_smul, Matrix.smul_mul, smul_smul, invOf_mul_self, one_smul]
    · rw [Matrix.nonsing_inv_apply_not_isUnit _ hd, Matrix.nonsing_inv_apply_not_isUnit, Matrix.mul_zero, Matrix.mul_zero]
      rw [Matrix.det_smul]
      exact fun h => hd (isUnit_of_mul_isUnit_right h)
  simp only [corrP, h2, Matrix.mul_smul, smul_sub]

theorem inv_continuousAt {M : Matrix (Fin m) (Fin m) ℝ} (h : IsUnit M.det) :
    ContinuousAt (fun M : Matrix (Fin m) (Fin m) ℝ => M⁻¹) M := by
  have : (fun M : Matrix (Fin m) (Fin m) ℝ => M⁻¹) = fun M => (M.det)⁻¹ • M.adjugate := by
    funext M
    rw [Matrix.inv_def, Ring.inverse_eq_inv']
  rw [this]
  exact (ContinuousAt.inv₀ (Continuous.matrix_det continuous_id).continuousAt h.ne_zero).smul
    (Continuous.matrix_adjugate continuous_id).continuousAt

theorem ContinuousAt.matMul {X : Type} [TopologicalSpace X] {a b c : Nat} {F : X → Matrix (Fin a) (Fin b) ℝ}
    {G : X → Matrix (Fin b) (Fin c) ℝ} {x : X} (hF : ContinuousAt F x) (hG : ContinuousAt G x) :
    ContinuousAt (fun x => F x * G x) x :=
  ContinuousAt.comp (g := fun p : Matrix (Fin a) (Fin b) ℝ × Matrix (Fin b) (Fin c) ℝ => p.1 * p.2)
    (Continuous.matrix_mul continuous_fst continuous_snd).continuousAt (hF.prodMk hG)

theorem corrP_map (H : Matrix (Fin m) (Fin n) ℝ) {R} (hR : R.PosDef) : CovMap fun P => corrP H P R := by
  have z : (R - R).PosSemidef := by rw [sub_self]; exact .zero
  have hmono : ∀ {P P' R'}, P.PosSemidef → (P' - P).PosSemidef → (R' - R).PosSemidef →
      (corrP H P' R' - corrP H P R).PosSemidef := fun {P P' R'} h h' hr =>
    corrP_mono (Minikalman.psd_symm h) (Minikalman.psd_symm (psd_of_below h' h)) (pd_symm hR)
      (pd_symm (pd_of_below hr hR)) (innovCov_pd h hR) (innovCov_pd (psd_of_below h' h) (pd_of_below hr hR)) h' hr
  refine ⟨fun h => corrP_psd h hR.posSemidef (pd_det (innovCov_pd h hR)), fun h h' => hmono h h' z, fun {P a} h ha => ?_,
    fun {P} h => ?_⟩
  · have h0 : (0 : ℝ) < a := zero_lt_one.trans_le ha
    rw [← corrP_smul_any H P R h0.ne']
    refine hmono (h.smul h0.le) (by rw [sub_self]; exact .zero) ?_
    have := smul_below hR.posSemidef ha
    rwa [one_smul] at this
  · have hS : ContinuousAt (fun P => (innovCov H P R)⁻¹) P := by
      refine ContinuousAt.comp (g := fun M : Matrix (Fin m) (Fin m) ℝ => M⁻¹) (inv_continuousAt (pd_det (innovCov_pd h hR))) ?_
      refine Continuous.continuousAt ?_
      unfold innovCov
      fun_prop
    have hK : ContinuousAt (fun P => gain H P R) P :=
      ContinuousAt.matMul (ContinuousAt.matMul continuousAt_id continuousAt_const) hS
    exact continuousAt_id.sub (ContinuousAt.matMul (ContinuousAt.matMul hK continuousAt_const) continuousAt_id)

/-! ## Iterating a map of covariances -/

theorem CovMap.iter (hf : CovMap f) (k : Nat) : CovMap (f^[k]) := by
  induction k with
  | zero => exact CovMap.id
  | succ k ih => exact ih.comp hf

theorem fixed_of_limit (hf : CovMap f) {P L : Matrix (Fin n) (Fin n) ℝ} (h : Tendsto (fun k => f^[k] P) atTop (𝓝 L))
    (hL : L.PosSemidef) : f L = L := by
  have h1 : Tendsto (fun k => f (f^[k] P)) atTop (𝓝 (f L)) := (hf.cont hL).tendsto.comp h
  have h2 : Tendsto (fun k => f^[k + 1] P) atTop (𝓝 L) := h.comp (tendsto_add_atTop_nat 1)
  refine tendsto_nhds_unique (h1.congr fun k => ?_) h2
  rw [Function.iterate_succ_apply']

theorem iter_decreasing (hf : CovMap f) {P : Matrix (Fin n) (Fin n) ℝ} (hP : P.PosSemidef) (h : (P - f P).PosSemidef) (k : Nat) :
    (f^[k] P - f^[k + 1] P).PosSemidef := by
  rw [Function.iterate_succ_apply]
  exact (hf.iter k).mono (hf.psd hP) h

theorem iter_increasing (hf : CovMap f) {P : Matrix (Fin n) (Fin n) ℝ} (hP : P.PosSemidef) (h : (f P - P).PosSemidef) (k : Nat) :
    (f^[k + 1] P - f^[k] P).PosSemidef := by
  rw [Function.iterate_succ_apply]
  exact (hf.iter k).mono hP h

theorem iter_bounded (hf : CovMap f) {C : Matrix (Fin n) (Fin n) ℝ} (hC : C.PosSemidef) (h : (C - f C).PosSemidef) {a : ℝ}
    (ha : 1 ≤ a) {P : Matrix (Fin n) (Fin n) ℝ} (hP : P.PosSemidef) (hb : (a • C - P).PosSemidef) (k : Nat) :
    (a • C - f^[k] P).PosSemidef := by
  have h0 : (0 : ℝ) ≤ a := zero_le_one.trans ha
  induction k with
  | zero => exact hb
  | succ k ih =>
    rw [Function.iterate_succ_apply']
    refine psd_sub_trans (hf.mono ((hf.iter k).psd hP) ih) (psd_sub_trans (hf.hom hC ha) ?_)
    rw [← smul_sub]
    exact h.smul h0

theorem iter_decreasing_converges (hf : CovMap f) {P : Matrix (Fin n) (Fin n) ℝ} (hP : P.PosSemidef)
    (h : (P - f P).PosSemidef) :
    ∃ L, Tendsto (fun k => f^[k] P) atTop (𝓝 L) ∧ L.PosSemidef ∧ f L = L ∧ ∀ k, (f^[k] P - L).PosSemidef := by
  obtain ⟨L, h1, h2, h3⟩ := decreasing_converges (F := fun k => f^[k] P) (fun k => (hf.iter k).psd hP)
    (iter_decreasing hf hP h)
  exact ⟨L, h1, h2, fixed_of_limit hf h1 h2, h3⟩

theorem iter_zero_converges (hf : CovMap f) {C : Matrix (Fin n) (Fin n) ℝ} (hC : C.PosSemidef) (h : (C - f C).PosSemidef) :
    ∃ L, Tendsto (fun k => f^[k] 0) atTop (𝓝 L) ∧ L.PosSemidef ∧ f L = L ∧ (C - L).PosSemidef ∧
      (∀ k, (L - f^[k] 0).PosSemidef) ∧ ∀ k, (f^[k + 1] 0 - f^[k] 0).PosSemidef := by
  have h0 : (f 0 - 0).PosSemidef := by rw [sub_zero]; exact hf.psd .zero
  have hb : ∀ k, (C - f^[k] 0).PosSemidef := fun k => by
    have := iter_bounded hf hC h le_rfl .zero (by rw [one_smul, sub_zero]; exact hC) k
    rwa [one_smul] at this
  obtain ⟨L, h1, h2, h3, h4⟩ := increasing_converges (F := fun k => f^[k] 0) (fun k => (hf.iter k).psd .zero) hb
    (iter_increasing hf .zero h0)
  exact ⟨L, h1, h2, fixed_of_limit hf h1 h2, h3, h4, iter_increasing hf .zero h0⟩

/-- A strict map has at most one fixed covariance. -/
theorem fixed_below (hf : CovMap f) (hs : StrictMap f) {C D : Matrix (Fin n) (Fin n) ℝ} (hC : C.PosSemidef) (hD : D.PosSemidef)
    (eC : f C = C) (eD : f D = D) : (D - C).PosSemidef := by
  have hDp : D.PosDef := eD ▸ hs.pd hD
  -- the smallest factor that makes `D` as large as `C`
  let S : Set ℝ := {a | 1 ≤ a ∧ (a • D - C).PosSemidef}
  have hne : S.Nonempty := by
    obtain ⟨c, _, h⟩ := pd_bounds hDp hC
    exact ⟨max c 1, le_max_right _ _, psd_sub_trans h (smul_below hD (le_max_left _ _))⟩
  have hbd : BddBelow S := ⟨1, fun a ha => ha.1⟩
  have h1 : 1 ≤ sInf S := le_csInf hne fun a ha => ha.1
  have hmem : (sInf S • D - C).PosSemidef := by
    refine psd_of_quad ?_ fun v => ?_
    · rw [Matrix.transpose_sub, Matrix.transpose_smul, Minikalman.psd_symm hD, Minikalman.psd_symm hC]
    · have hDv := quad_nonneg hD v
      rw [Matrix.sub_mulVec, dotProduct_sub, Matrix.smul_mulVec, dotProduct_smul, smul_eq_mul, sub_nonneg]
      have hall : ∀ a ∈ S, v ⬝ᵥ C *ᵥ v ≤ a * (v ⬝ᵥ D *ᵥ v) := fun a ha => by
        have := quad_le ha.2 v
        rwa [Matrix.smul_mulVec, dotProduct_smul, smul_eq_mul] at this
      rcases hDv.eq_or_lt with h0 | h0
      · obtain ⟨a, ha⟩ := hne
        have := hall a ha
        rw [← h0, mul_zero] at this ⊢
        exact this
      · rw [← div_le_iff₀ h0]
        exact le_csInf hne fun a ha => by rw [div_le_iff₀ h0]; exact hall a ha
  rcases h1.eq_or_lt with h2 | h2
  · rwa [← h2, one_smul] at hmem
  · exfalso
    obtain ⟨b, b1, b2, b3⟩ := hs.strict hD h2
    rw [eD] at b3
    have := hf.mono hC hmem
    rw [eC] at this
    exact absurd (csInf_le hbd ⟨b1, psd_sub_trans this b3⟩) (not_le.2 b2)

/-- The iteration of a strict map converges to the same limit from everywhere, if there is a bound. -/
theorem strict_converges (hf : CovMap f) (hs : StrictMap f) {C : Matrix (Fin n) (Fin n) ℝ} (hC : C.PosSemidef)
    (h : (C - f C).PosSemidef) :
    ∃ L, L.PosDef ∧ f L = L ∧ (C - L).PosSemidef ∧ (∀ D, D.PosSemidef → f D = D → D = L) ∧
      ∀ P, P.PosSemidef → Tendsto (fun k => f^[k] P) atTop (𝓝 L) := by
  obtain ⟨L, h1, h2, h3, h4, _⟩ := iter_zero_converges hf hC h
  have hu : ∀ D, D.PosSemidef → f D = D → D = L := fun D hD eD =>
    psd_antisymm (fixed_below hf hs hD h2 eD h3) (fixed_below hf hs h2 hD h3 eD) (Minikalman.psd_symm hD)
      (Minikalman.psd_symm h2)
  have hLp : L.PosDef := h3 ▸ hs.pd h2
  refine ⟨L, hLp, h3, h4, hu, fun P hP => ?_⟩
  obtain ⟨c, _, hc⟩ := pd_bounds (pd_of_below h4 hLp) hP
  have ha : (1 : ℝ) ≤ max c 1 := le_max_right _ _
  have hcP : (max c 1 • C - P).PosSemidef := psd_sub_trans hc (smul_below hC (le_max_left _ _))
  have haC : (max c 1 • C).PosSemidef := hC.smul (zero_le_one.trans ha)
  obtain ⟨U, u1, u2, u3, _⟩ := iter_decreasing_converges hf haC (by
    refine psd_sub_trans (hf.hom hC ha) ?_
    rw [← smul_sub]
    exact h.smul (zero_le_one.trans ha))
  rw [hu U u2 u3] at u1
  exact squeeze (fun k => (hf.iter k).psd hP) h1 u1 (Minikalman.psd_symm h2)
    (fun k => (hf.iter k).mono .zero (by rwa [sub_zero])) fun k => (hf.iter k).mono hP hcP

/-! ## The covariance of a history without changes of the model -/

/-- The covariance after a call. -/
noncomputable def covStep (s : State n ℝ) : Op ℝ → Matrix (Fin n) (Fin n) ℝ → Matrix (Fin n) (Fin n) ℝ
  | .predict, P => predP s.A P s.Q
  | .predictTuned a, P => predPTuned a s.A P s.Q
  | .control i, P => s.ctl[i]?.elim P fun c => ctlP c.2.B c.2.Q P
  | .correct i, P => s.obs[i]?.elim P fun o => corrP o.2.H P o.2.R
  | _, P => P

noncomputable def covRun (s : State n ℝ) : List (Op ℝ) → Matrix (Fin n) (Fin n) ℝ → Matrix (Fin n) (Fin n) ℝ
  | [], P => P
  | op :: ops, P => covRun s ops (covStep s op P)

/-- Same matrices, noises and dimensions; states, covariances, inputs and measurements may differ. -/
structure SameModel (s t : State n ℝ) : Prop where
  A : t.A = s.A
  Q : t.Q = s.Q
  ctl : ∀ i : Nat, (t.ctl[i]?.map fun c => (⟨c.1, c.2.B, c.2.Q⟩ : (l : Nat) × Matrix (Fin n) (Fin l) ℝ × Matrix (Fin l) (Fin l) ℝ)) =
    s.ctl[i]?.map fun c => ⟨c.1, c.2.B, c.2.Q⟩
  obs : ∀ i : Nat, (t.obs[i]?.map fun o => (⟨o.1, o.2.H, o.2.R⟩ : (m : Nat) × Matrix (Fin m) (Fin n) ℝ × Matrix (Fin m) (Fin m) ℝ)) =
    s.obs[i]?.map fun o => ⟨o.1, o.2.H, o.2.R⟩

theorem SameModel.refl (s : State n ℝ) (x P) : SameModel s { s with x := x, P := P } :=
  ⟨rfl, rfl, fun _ => rfl, fun _ => rfl⟩

theorem SameModel.symm {s t : State n ℝ} (h : SameModel s t) : SameModel t s :=
  ⟨h.A.symm, h.Q.symm, fun i => (h.ctl i).symm, fun i => (h.obs i).symm⟩

theorem SameModel.trans {s t u : State n ℝ} (h : SameModel s t) (h' : SameModel t u) : SameModel s u :=
  ⟨h'.A.trans h.A, h'.Q.trans h.Q, fun i => (h'.ctl i).trans (h.ctl i), fun i => (h'.obs i).trans (h.obs i)⟩

theorem SameModel.cov {s t : State n ℝ} (h : SameModel s t) (op : Op ℝ) : covStep t op = covStep s op := by
  funext P
  cases op with
  | predict => simp only [covStep, h.A, h.Q]
  | predictTuned a => simp only [covStep, h.A, h.Q]
  | control i =>
    have := h.ctl i
    simp only [covStep]
    cases e1 : t.ctl[i]? with
    | none =>
      cases e2 : s.ctl[i]? with
      | none => rfl
      | some c => rw [e1, e2] at this; cases this
    | some d =>
      cases e2 : s.ctl[i]? with
      | none => rw [e1, e2] at this; cases this
      | some c =>
        rw [e1, e2] at this
        obtain ⟨l, B, u, Q⟩ := c
        obtain ⟨l', B', u', Q'⟩ := d
        cases this
        rfl
  | correct i =>
    have := h.obs i
    simp only [covStep]
    cases e1 : t.obs[i]? with
    | none =>
      cases e2 : s.obs[i]? with
      | none => rfl
      | some c => rw [e1, e2] at this; cases this
    | some d =>
      cases e2 : s.obs[i]? with
      | none => rw [e1, e2] at this; cases this
      | some c =>
        rw [e1, e2] at this
        obtain ⟨l, B, u, Q⟩ := c
        obtain ⟨l', B', u', Q'⟩ := d
        cases this
        rfl
  | _ => rfl

theorem SameModel.covRun {s t : State n ℝ} (h : SameModel s t) (ops : List (Op ℝ)) : covRun t ops = covRun s ops := by
  funext P
  induction ops generalizing P with
  | nil => rfl
  | cons op ops ih => rw [Spec.covRun, Spec.covRun, h.cov, ih]

theorem covStep_data (s : State n ℝ) {op op' : Op ℝ} (h : op.SameUpToData op') : covStep s op' = covStep s op := by
  cases h <;> rfl

theorem covRun_data (s : State n ℝ) {ops ops' : List (Op ℝ)} (h : List.Forall₂ Op.SameUpToData ops ops') :
    covRun s ops' = covRun s ops := by
  funext P
  induction h generalizing P with
  | nil => rfl
  | cons h _ ih => rw [covRun, covRun, covStep_data s h, ih]

theorem covRun_append (s : State n ℝ) (a b : List (Op ℝ)) (P : Matrix (Fin n) (Fin n) ℝ) :
    covRun s (a ++ b) P = covRun s b (covRun s a P) := by
  induction a generalizing P with
  | nil => rfl
  | cons op a ih => rw [List.cons_append, covRun, covRun, ih]

theorem step_cov {s s1 : State n ℝ} {op : Op ℝ} (ho : StepOrData op) (h : s.step op = some s1) :
    SameModel s s1 ∧ s1.P = covStep s op s.P := by
  cases op with
  | predict => cases h; exact ⟨.refl s _ _, rfl⟩
  | predictTuned a => cases h; exact ⟨.refl s _ _, rfl⟩
  | setX v => cases h; exact ⟨.refl s _ _, rfl⟩
  | control i =>
    obtain ⟨c, e, rfl⟩ := option_map_some h
    exact ⟨.refl s _ _, by simp only [covStep, e]; rfl⟩
  | correct i =>
    obtain ⟨c, e, rfl⟩ := option_map_some h
    exact ⟨.refl s _ _, by simp only [covStep, e]; rfl⟩
  | setU i v =>
    obtain ⟨c, e, rfl⟩ := option_map_some h
    refine ⟨⟨rfl, rfl, fun j => ?_, fun _ => rfl⟩, rfl⟩
    show ((s.ctl.set i _)[j]?.map _) = _
    rw [List.getElem?_set]
    split
    · rename_i hij
      subst hij
      split
      · rw [e]; rfl
      · rename_i hlt
        rw [List.getElem?_eq_none (not_lt.1 hlt)]
    · rfl
  | setZ i v =>
    obtain ⟨c, e, rfl⟩ := option_map_some h
    refine ⟨⟨rfl, rfl, fun _ => rfl, fun j => ?_⟩, rfl⟩
    show ((s.obs.set i _)[j]?.map _) = _
    rw [List.getElem?_set]
    split
    · rename_i hij
      subst hij
      split
      · rw [e]; rfl
      · rename_i hlt
        rw [List.getElem?_eq_none (not_lt.1 hlt)]
    · rfl
  | setA v => exact ho.elim
  | setP v => exact ho.elim
  | setQ v => exact ho.elim
  | setB i v => exact ho.elim
  | setQc i v => exact ho.elim
  | setH i v => exact ho.elim
  | setR i v => exact ho.elim

theorem run_cov {ops : List (Op ℝ)} : ∀ {s s1 : State n ℝ}, (∀ op ∈ ops, StepOrData op) → s.run ops = some s1 →
    SameModel s s1 ∧ s1.P = covRun s ops s.P := by
  induction ops with
  | nil => intro s s1 _ h; cases h; exact ⟨.refl s _ _, rfl⟩
  | cons op ops ih =>
    intro s s1 ho h
    simp only [State.run] at h
    cases e1 : s.step op with
    | none => rw [e1] at h; cases h
    | some t =>
      rw [e1, Option.bind_some] at h
      obtain ⟨a, b⟩ := step_cov (ho op (by simp)) e1
      obtain ⟨c, d⟩ := ih (fun o h => ho o (by simp [h])) h
      exact ⟨a.trans c, by rw [d, b, a.covRun, covRun]⟩

theorem option_some_of_map {α β γ : Type} {F : α → γ} {G : β → γ} {a : Option α} {b : Option β} (h : a.map F = b.map G) {y : β}
    (hb : b = some y) : ∃ x, a = some x := by
  subst hb
  cases a with
  | none => cases h
  | some x => exact ⟨x, rfl⟩

theorem step_exists {s t s1 : State n ℝ} {op op' : Op ℝ} (ho : StepOrData op) (hd : op.SameUpToData op') (hm : SameModel s t)
    (h : s.step op = some s1) : ∃ t1, t.step op' = some t1 := by
  have hc : ∀ i c, s.ctl[i]? = some c → ∃ d, t.ctl[i]? = some d := fun i c e => option_some_of_map (hm.ctl i) e
  have hob : ∀ i c, s.obs[i]? = some c → ∃ d, t.obs[i]? = some d := fun i c e => option_some_of_map (hm.obs i) e
  cases hd with
  | setX v v' => exact ⟨_, rfl⟩
  | setU i v v' =>
    obtain ⟨c, e, _⟩ := option_map_some h
    obtain ⟨d, e'⟩ := hc i c e
    exact ⟨_, by simp only [State.step, e']; rfl⟩
  | setZ i v v' =>
    obtain ⟨c, e, _⟩ := option_map_some h
    obtain ⟨d, e'⟩ := hob i c e
    exact ⟨_, by simp only [State.step, e']; rfl⟩
  | same =>
    cases op with
    | predict => exact ⟨_, rfl⟩
    | predictTuned a => exact ⟨_, rfl⟩
    | setX v => exact ⟨_, rfl⟩
    | control i =>
      obtain ⟨c, e, _⟩ := option_map_some h
      obtain ⟨d, e'⟩ := hc i c e
      exact ⟨_, by simp only [State.step, e']; rfl⟩
    | correct i =>
      obtain ⟨c, e, _⟩ := option_map_some h
      obtain ⟨d, e'⟩ := hob i c e
      exact ⟨_, by simp only [State.step, e']; rfl⟩
    | setU i v =>
      obtain ⟨c, e, _⟩ := option_map_some h
      obtain ⟨d, e'⟩ := hc i c e
      exact ⟨_, by simp only [State.step, e']; rfl⟩
    | setZ i v =>
      obtain ⟨c, e, _⟩ := option_map_some h
      obtain ⟨d, e'⟩ := hob i c e
      exact ⟨_, by simp only [State.step, e']; rfl⟩
    | setA v => exact ho.elim
    | setP v => exact ho.elim
    | setQ v => exact ho.elim
    | setB i v => exact ho.elim
    | setQc i v => exact ho.elim
    | setH i v => exact ho.elim
    | setR i v => exact ho.elim

theorem stepOrData_data {op op' : Op ℝ} (h : op.SameUpToData op') (ho : StepOrData op) : StepOrData op' := by
  cases h <;> trivial

theorem run_exists {ops ops' : List (Op ℝ)} (hd : List.Forall₂ Op.SameUpToData ops ops') : ∀ {s t s1 : State n ℝ},
    (∀ op ∈ ops, StepOrData op) → SameModel s t → s.run ops = some s1 → ∃ t1, t.run ops' = some t1 := by
  induction hd with
  | nil => intro s t s1 _ _ _; exact ⟨t, rfl⟩
  | @cons op op' ops ops' h _ ih =>
    intro s t s1 ho hm hr
    simp only [State.run] at hr
    cases e1 : s.step op with
    | none => rw [e1] at hr; cases hr
    | some u =>
      rw [e1, Option.bind_some] at hr
      obtain ⟨t1, e2⟩ := step_exists (ho op (by simp)) h hm e1
      have a := (step_cov (ho op (by simp)) e1).1
      have b := (step_cov (stepOrData_data h (ho op (by simp))) e2).1
      obtain ⟨t2, e3⟩ := ih (fun o h => ho o (by simp [h])) ((a.symm.trans hm).trans b) hr
      exact ⟨t2, by simp only [State.run, e2, Option.bind_some, e3]⟩

theorem covStep_map {s : State n ℝ} (hs : s.Psd) (op : Op ℝ) : CovMap (covStep s op) := by
  cases op with
  | predict =>
    have := predPTuned_map 1 s.A hs.Q
    simp only [predPTuned_one] at this
    exact this
  | predictTuned a => exact predPTuned_map a s.A hs.Q
  | control i =>
    cases e : s.ctl[i]? with
    | none =>
      have : covStep s (.control i) = fun P => P := by funext P; simp only [covStep, e]; rfl
      rw [this]; exact CovMap.id
    | some c =>
      have : covStep s (.control i) = fun P => ctlP c.2.B c.2.Q P := by funext P; simp only [covStep, e]; rfl
      rw [this]; exact ctlP_map _ (hs.ctl _ (List.mem_of_getElem? e))
  | correct i =>
    cases e : s.obs[i]? with
    | none =>
      have : covStep s (.correct i) = fun P => P := by funext P; simp only [covStep, e]; rfl
      rw [this]; exact CovMap.id
    | some c =>
      have : covStep s (.correct i) = fun P => corrP c.2.H P c.2.R := by funext P; simp only [covStep, e]; rfl
      rw [this]; exact corrP_map _ (hs.obs _ (List.mem_of_getElem? e))
  | _ => exact CovMap.id

theorem covRun_map {s : State n ℝ} (hs : s.Psd) (ops : List (Op ℝ)) : CovMap (covRun s ops) := by
  induction ops with
  | nil => exact CovMap.id
  | cons op ops ih => exact ih.comp (covStep_map hs op)

theorem covStep_pd {s : State n ℝ} (hs : s.Psd) (hQ : s.Q.PosDef) (op : Op ℝ) {P : Matrix (Fin n) (Fin n) ℝ} (hP : P.PosDef) :
    (covStep s op P).PosDef := by
  cases op with
  | predict =>
    have := (predPTuned_strict 1 s.A hQ).pd hP.posSemidef
    rwa [predPTuned_one] at this
  | predictTuned a => exact (predPTuned_strict a s.A hQ).pd hP.posSemidef
  | control i =>
    simp only [covStep]
    cases e : s.ctl[i]? with
    | none => exact hP
    | some c => exact hP.add_posSemidef (psd_congr (hs.ctl _ (List.mem_of_getElem? e)) _)
  | correct i =>
    simp only [covStep]
    cases e : s.obs[i]? with
    | none => exact hP
    | some c => exact corrP_pd hP (hs.obs _ (List.mem_of_getElem? e))
  | _ => exact hP

theorem covRun_pd {s : State n ℝ} (hs : s.Psd) (hQ : s.Q.PosDef) (ops : List (Op ℝ)) {P : Matrix (Fin n) (Fin n) ℝ}
    (hP : P.PosDef) : (covRun s ops P).PosDef := by
  induction ops generalizing P with
  | nil => exact hP
  | cons op ops ih => exact ih (covStep_pd hs hQ op hP)

theorem covRun_strict {s : State n ℝ} (hs : s.Psd) (hQ : s.Q.PosDef) {ops : List (Op ℝ)} (h : ∃ op ∈ ops, IsPredict op) :
    StrictMap (covRun s ops) := by
  induction ops with
  | nil => obtain ⟨op, h, _⟩ := h; cases h
  | cons op ops ih =>
    by_cases hp : IsPredict op
    · have : StrictMap (covStep s op) := by
        cases op with
        | predict =>
          have := predPTuned_strict 1 s.A hQ
          simp only [predPTuned_one] at this
          exact this
        | predictTuned a => exact predPTuned_strict a s.A hQ
        | _ => exact hp.elim
      exact this.comp_left (covRun_map hs ops) (covRun_pd hs hQ ops) (covStep_map hs op)
    · refine (ih ?_).comp_right (covRun_map hs ops) (covStep_map hs op)
      obtain ⟨o, ho, h⟩ := h
      rcases List.mem_cons.1 ho with rfl | ho
      · exact absurd h hp
      · exact ⟨o, ho, h⟩

/-! ## Cycles -/

theorem Periodic.stepsAll {cyc : Nat → List (Op ℝ)} (h : Periodic cyc) (k : Nat) : ∀ op ∈ cyc k, StepOrData op := by
  intro op hop
  obtain ⟨o, ho, hd⟩ := forall₂_mem_right (h.same k) hop
  exact stepOrData_data hd (h.steps o ho)

theorem mem_cycles {cyc : Nat → List (Op ℝ)} {k : Nat} {op : Op ℝ} (h : op ∈ cycles cyc k) : ∃ j, op ∈ cyc j := by
  induction k with
  | zero => cases h
  | succ k ih =>
    rcases List.mem_append.1 h with h | h
    · exact ih h
    · exact ⟨k, h⟩

theorem covRun_cycles {cyc : Nat → List (Op ℝ)} (h : Periodic cyc) (s : State n ℝ) (P : Matrix (Fin n) (Fin n) ℝ) (k : Nat) :
    covRun s (cycles cyc k) P = (covRun s (cyc 0))^[k] P := by
  induction k with
  | zero => rfl
  | succ k ih => rw [cycles, covRun_append, ih, covRun_data s (h.same k), Function.iterate_succ_apply']

theorem psdData_steps (s : State n ℝ) {op : Op ℝ} (h : StepOrData op) : s.PsdData op := by
  cases op <;> trivial

theorem reaches_iff {s s1 : State n ℝ} {ops : List (Op ℝ)} (ho : ∀ op ∈ ops, StepOrData op) (h : s.run ops = some s1)
    (C D : Matrix (Fin n) (Fin n) ℝ) : Reaches s ops C D ↔ covRun s ops C = D := by
  obtain ⟨t, ht⟩ := run_exists (ops := ops) (ops' := ops) (List.forall₂_same.2 fun o _ => .same o) ho (SameModel.refl s s.x C) h
  have hc := (run_cov ho ht).2
  rw [(SameModel.refl s s.x C).covRun] at hc
  constructor
  · rintro ⟨s2, h2, rfl⟩
    rw [ht] at h2
    cases h2
    exact hc.symm
  · intro e
    exact ⟨t, ht, hc.trans e⟩

/-! ## The influence of the initial guess decays -/

theorem predict_contracts {A P Q B : Matrix (Fin n) (Fin n) ℝ} {e : Fin n → ℝ} {c b : ℝ} (hb : 0 ≤ b) (hc : 0 ≤ c)
    (hB : (b • Q - A * B * Aᵀ).PosSemidef) (hP : (B - P).PosSemidef) (h : Within c P e) :
    Within (b / (1 + b) * c) (predP A P Q) (A *ᵥ e) := by
  intro y
  have h1 := h.congr A y
  have h2 : y ⬝ᵥ (A * P * Aᵀ) *ᵥ y ≤ b * (y ⬝ᵥ Q *ᵥ y) := by
    have h3 := quad_le hB y
    have h4 := psd_congr hP A
    rw [Matrix.mul_sub, Matrix.sub_mul] at h4
    rw [Matrix.smul_mulVec, dotProduct_smul, smul_eq_mul] at h3
    exact (quad_le h4 y).trans h3
  rw [predP, Matrix.add_mulVec, dotProduct_add]
  refine h1.trans ?_
  have hb1 : 0 < 1 + b := by linarith
  rw [div_mul_eq_mul_div, div_mul_eq_mul_div, le_div_iff₀ hb1]
  nlinarith [mul_nonneg hc (sub_nonneg.2 h2)]

theorem keeps_data {op op' : Op ℝ} (h : op.SameUpToData op') (hk : KeepsUncertainty op) : KeepsUncertainty op' := by
  cases h <;> exact hk

theorem lambda_data {op op' : Op ℝ} (h : op.SameUpToData op') (hk : op.NonzeroLambda) : op'.NonzeroLambda := by
  cases h <;> exact hk

theorem cycle_contracts {s0 : State n ℝ} (hs0 : s0.Psd) (hQ : s0.Q.PosDef) {ops : List (Op ℝ)} (ho : ∀ op ∈ ops, StepOrData op)
    (hl : ∀ op ∈ ops, op.NonzeroLambda) (hk : ∀ op ∈ ops, KeepsUncertainty op) (hp : ∃ op ∈ ops, IsPredict op) :
    ∀ {B : Matrix (Fin n) (Fin n) ℝ}, B.PosSemidef → ∃ θ : ℝ, 0 ≤ θ ∧ θ < 1 ∧
      ∀ {s s1 : State n ℝ} {x' : Fin n → ℝ} {c : ℝ} {ops' : List (Op ℝ)}, SameModel s0 s → s.Psd →
        List.Forall₂ Op.SameUpToData ops ops' → (B - s.P).PosSemidef → 0 ≤ c → Within c s.P (x' - s.x) → s.run ops' = some s1 →
        ∃ x1', State.run { s with x := x' } ops' = some { s1 with x := x1' } ∧ Within (θ * c) s1.P (x1' - s1.x) := by
  induction ops with
  | nil => obtain ⟨op, h, _⟩ := hp; cases h
  | cons op ops ih =>
    intro B hB
    by_cases hpr : IsPredict op
    · obtain ⟨b, hb, hbQ⟩ := pd_bounds hQ (psd_congr hB s0.A)
      have hb1 : 0 < 1 + b := by linarith
      refine ⟨b / (1 + b), div_nonneg hb hb1.le, by rw [div_lt_one hb1]; linarith, ?_⟩
      intro s s1 x' c ops' hm hs hd hBP hc hi hr
      cases hd with
      | @cons _ op' _ ops' hd1 hd2 =>
        have hstep : ∃ t, s.step op' = some t ∧ State.step { s with x := x' } op' = some { t with x := s.A *ᵥ x' } ∧
            t.Psd ∧ Within (b / (1 + b) * c) t.P (s.A *ᵥ x' - t.x) := by
          have hbQ' : (b • s.Q - s.A * B * s.Aᵀ).PosSemidef := by rw [hm.A, hm.Q]; exact hbQ
          have h1 := predict_contracts (A := s.A) hb hc hbQ' hBP hi
          rw [Matrix.mulVec_sub] at h1
          have hl' := lambda_data hd1 (hl op (by simp))
          have hk' := keeps_data hd1 (hk op (by simp))
          cases op with
          | predict =>
            cases hd1
            exact ⟨_, rfl, rfl, ⟨predP_psd hs.P hs.Q, hs.Q, hs.ctl, hs.obs⟩, h1⟩
          | predictTuned a =>
            cases hd1
            refine ⟨_, rfl, rfl, ⟨predPTuned_psd a hs.P hs.Q, hs.Q, hs.ctl, hs.obs⟩, ?_⟩
            refine h1.mono (mul_nonneg (div_nonneg hb hb1.le) hc) ?_
            rw [← predPTuned_one]
            exact predPTuned_antitone hs.P (abs_pos.2 hl') (by rw [abs_one]; exact hk')
          | _ => exact hpr.elim
        obtain ⟨t, e1, e2, ht, e3⟩ := hstep
        simp only [State.run, e1, Option.bind_some] at hr
        have hall : ∀ o ∈ ops', StepOrData o ∧ o.NonzeroLambda ∧ KeepsUncertainty o := by
          intro o ho'
          obtain ⟨o1, h1, h2⟩ := forall₂_mem_right hd2 ho'
          exact ⟨stepOrData_data h2 (ho o1 (by simp [h1])), lambda_data h2 (hl o1 (by simp [h1])),
            keeps_data h2 (hk o1 (by simp [h1]))⟩
        obtain ⟨x1', h1, h2⟩ := run_initial (mul_nonneg (div_nonneg hb hb1.le) hc) ht (fun o h => (hall o h).2.1)
          (fun o h => (hall o h).2.2) (fun o h => psdData_steps t (hall o h).1) hr e3
        exact ⟨x1', by simp only [State.run, e2, Option.bind_some, h1], h2⟩
    · have hp' : ∃ o ∈ ops, IsPredict o := by
        obtain ⟨o, ho, h⟩ := hp
        rcases List.mem_cons.1 ho with rfl | ho
        · exact absurd h hpr
        · exact ⟨o, ho, h⟩
      obtain ⟨θ, t0, t1, hθ⟩ := ih (fun o h => ho o (by simp [h])) (fun o h => hl o (by simp [h])) (fun o h => hk o (by simp [h]))
        hp' ((covStep_map hs0 op).psd hB)
      refine ⟨θ, t0, t1, ?_⟩
      intro s s1 x' c ops' hm hs hd hBP hc hi hr
      cases hd with
      | @cons _ op' _ ops' hd1 hd2 =>
        simp only [State.run] at hr
        cases e1 : s.step op' with
        | none => rw [e1] at hr; cases hr
        | some t =>
          rw [e1, Option.bind_some] at hr
          have ho' := stepOrData_data hd1 (ho op (by simp))
          have hl' := lambda_data hd1 (hl op (by simp))
          have hk' := keeps_data hd1 (hk op (by simp))
          obtain ⟨hm1, hP1⟩ := step_cov ho' e1
          obtain ⟨y, h1, h2⟩ := step_initial hc hs hl' hk' e1 hi
          have ht := step_cov_inv psd_closed e1 hs (psdData_steps s ho') (psd_regular hs hl')
          have hBt : (covStep s0 op B - t.P).PosSemidef := by
            rw [hP1, covStep_data s hd1, hm.cov]
            exact (covStep_map hs0 op).mono hs.P hBP
          obtain ⟨x1', h3, h4⟩ := hθ (hm.trans hm1) ht hd2 hBt hc h2 hr
          exact ⟨x1', by simp only [State.run, h1, Option.bind_some, h3], h4⟩

theorem state_run_append {a b : List (Op ℝ)} : ∀ {s : State n ℝ}, s.run (a ++ b) = (s.run a).bind fun t => t.run b := by
  induction a with
  | nil => intro s; rfl
  | cons op a ih =>
    intro s
    simp only [List.cons_append, State.run]
    cases s.step op with
    | none => rfl
    | some t => exact ih

theorem step_other_x {s s1 : State n ℝ} {op : Op ℝ} (h : s.step op = some s1) (x' : Fin n → ℝ) :
    ∃ x1', State.step { s with x := x' } op = some { s1 with x := x1' } := by
  cases op with
  | predict => cases h; exact ⟨_, rfl⟩
  | predictTuned a => cases h; exact ⟨_, rfl⟩
  | setX v => cases h; exact ⟨_, rfl⟩
  | setA v => cases h; exact ⟨_, rfl⟩
  | setP v => cases h; exact ⟨_, rfl⟩
  | setQ v => cases h; exact ⟨_, rfl⟩
  | control i => obtain ⟨c, e, rfl⟩ := option_map_some h; exact ⟨ctlX c.2.B c.2.u x', by simp only [State.step, e]; rfl⟩
  | correct i => obtain ⟨c, e, rfl⟩ := option_map_some h; exact ⟨corrX c.2.H s.P c.2.R x' c.2.z, by simp only [State.step, e]; rfl⟩
  | setU i v => obtain ⟨c, e, rfl⟩ := option_map_some h; exact ⟨x', by simp only [State.step, e]; rfl⟩
  | setB i v => obtain ⟨c, e, rfl⟩ := option_map_some h; exact ⟨x', by simp only [State.step, e]; rfl⟩
  | setQc i v => obtain ⟨c, e, rfl⟩ := option_map_some h; exact ⟨x', by simp only [State.step, e]; rfl⟩
  | setZ i v => obtain ⟨c, e, rfl⟩ := option_map_some h; exact ⟨x', by simp only [State.step, e]; rfl⟩
  | setH i v => obtain ⟨c, e, rfl⟩ := option_map_some h; exact ⟨x', by simp only [State.step, e]; rfl⟩
  | setR i v => obtain ⟨c, e, rfl⟩ := option_map_some h; exact ⟨x', by simp only [State.step, e]; rfl⟩

theorem run_other_x {ops : List (Op ℝ)} : ∀ {s s1 : State n ℝ}, s.run ops = some s1 → ∀ x' : Fin n → ℝ,
    ∃ x1', State.run { s with x := x' } ops = some { s1 with x := x1' } := by
  induction ops with
  | nil => intro s s1 h x'; cases h; exact ⟨x', rfl⟩
  | cons op ops ih =>
    intro s s1 h x'
    simp only [State.run] at h
    cases e1 : s.step op with
    | none => rw [e1] at h; cases h
    | some t =>
      rw [e1, Option.bind_some] at h
      obtain ⟨y, e2⟩ := step_other_x e1 x'
      obtain ⟨x1', e3⟩ := ih h y
      exact ⟨x1', by simp only [State.run, e2, Option.bind_some, e3]⟩

/-- The influence of the initial guess after `k + 1` cycles. -/
theorem guess_decays {s : State n ℝ} (hs : s.Psd) (hQ : s.Q.PosDef) {cyc : Nat → List (Op ℝ)} (hc : Periodic cyc)
    (hl : ∀ op ∈ cyc 0, op.NonzeroLambda) (hk : ∀ op ∈ cyc 0, KeepsUncertainty op) (hp : ∃ op ∈ cyc 0, IsPredict op)
    {B : Matrix (Fin n) (Fin n) ℝ} (hB : B.PosSemidef) (hb : ∀ k, (B - (covRun s (cyc 0))^[k] s.P).PosSemidef)
    (hr : ∀ k, ∃ sk, s.run (cycles cyc k) = some sk ∧ sk.Psd) (x' : Fin n → ℝ) :
    ∃ θ c : ℝ, 0 < θ ∧ θ < 1 ∧ 0 ≤ c ∧ ∀ k, ∃ sk xk', s.run (cycles cyc (k + 1)) = some sk ∧
      State.run { s with x := x' } (cycles cyc (k + 1)) = some { sk with x := xk' } ∧ Within (θ ^ k * c) sk.P (xk' - sk.x) ∧
      (B - sk.P).PosSemidef := by
  have hsteps : ∀ k, ∀ op ∈ cycles cyc k, StepOrData op := fun k op h => by
    obtain ⟨j, hj⟩ := mem_cycles h
    exact hc.stepsAll j op hj
  obtain ⟨θ, t0, t1, hθ⟩ := cycle_contracts hs hQ hc.steps hl hk hp hB
  obtain ⟨s1, r1, p1⟩ := hr 1
  obtain ⟨m1, c1⟩ := run_cov (hsteps 1) r1
  rw [covRun_cycles hc] at c1
  have hpd : s1.P.PosDef := by rw [c1]; exact (covRun_strict hs hQ hp).pd hs.P
  obtain ⟨y1, e1⟩ := run_other_x r1 x'
  obtain ⟨c, hc0, hw⟩ := pd_within hpd (y1 - s1.x)
  have t0' : 0 < max θ (1 / 2) := lt_of_lt_of_le (by norm_num) (le_max_right _ _)
  refine ⟨max θ (1 / 2), c, t0', max_lt t1 (by norm_num), hc0, fun k => ?_⟩
  induction k with
  | zero =>
    refine ⟨s1, y1, r1, e1, by rwa [pow_zero, one_mul], ?_⟩
    rw [c1]; exact hb 1
  | succ k ih =>
    obtain ⟨sk, xk', r, e, w, bk⟩ := ih
    obtain ⟨sk1, r', p'⟩ := hr (k + 1 + 1)
    obtain ⟨_, r'', pk⟩ := hr (k + 1)
    rw [r] at r''
    cases r''
    obtain ⟨mk, _⟩ := run_cov (hsteps (k + 1)) r
    rw [cycles, state_run_append, r, Option.bind_some] at r'
    have h0 : 0 ≤ max θ (1 / 2) ^ k * c := mul_nonneg (pow_nonneg t0'.le _) hc0
    obtain ⟨x2, f1, f2⟩ := hθ mk pk (hc.same (k + 1)) bk h0 w r'
    refine ⟨sk1, x2, by rw [cycles, state_run_append, r, Option.bind_some, r'], by
      rw [cycles, state_run_append, e, Option.bind_some, f1], ?_, ?_⟩
    · intro y
      refine (f2 y).trans (mul_le_mul_of_nonneg_right ?_ (quad_nonneg p'.P y))
      rw [pow_succ, mul_right_comm, mul_comm θ]
      exact mul_le_mul_of_nonneg_left (le_max_left _ _) h0
    · have hm' := hsteps (k + 1 + 1)
      obtain ⟨_, c2⟩ := run_cov (s := s) (s1 := sk1) hm' (by rw [cycles, state_run_append, r, Option.bind_some, r'])
      rw [c2, covRun_cycles hc]
      exact hb _

end Spec
end Minikalman
