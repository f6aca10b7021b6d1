import Verif.Proofs.RoundingInv
import Verif.Spec.Kalman

/-! # Rounding errors of the correction -/

set_option linter.unusedSectionVars false

namespace Minikalman

open Finset Matrix

variable {T : Type} {n m : Nat} [Zero T] [One T] [Add T] [Sub T] [Mul T] [Neg T] [MDT T]

/-! ## The correction in any arithmetic -/

theorem update_any (bld : Build) {o : RegularObservation n m T} {x : Mat n 1 T} {P : Mat n n T} {H R : Matrix _ _ T} {Pm X Y}
    (hm : 0 < m) (ho : o.Valid) (hH : o.H.Reps H) (hR : o.R.Reps R) (hP : P.Reps Pm) (hX : x.RepsV X) (hY : o.y.RepsV Y) :
    Part (o.updateWithInnovation bld x P) (fun r => r.1.y = o.y ∧ ∃ (s : Mat m m T) (b : Bool) (W : Matrix (Fin m) (Fin m) T),
      s.Reps (Spec.mulSeq (Spec.mulSeq H Pm) Hᵀ + R) ∧ s.choleskyDecomposeLower bld = .ok (r.1.S, b) ∧
      r.1.S.Valid ∧ r.1.S.invertLCholesky o.tempSInv = .ok r.1.tempSInv ∧ r.1.tempSInv.Reps W ∧
      r.1.K.Reps (Spec.mulSeq (Spec.mulSeq Pm Hᵀ) W) ∧
      r.2.1.RepsV (X + Spec.mulVecSeq (Spec.mulSeq (Spec.mulSeq Pm Hᵀ) W) Y) ∧
      r.2.2.Reps (Pm - Spec.mulSeq (Spec.mulSeq (Spec.mulSeq Pm Hᵀ) W) (Spec.mulSeq H Pm))) := by
  obtain ⟨hp, h1, h2, h3⟩ := Mat.mult_reps hH hP ho.tempHP
  obtain ⟨s, h4, h5, h6⟩ := Mat.multTransb_reps h2 hH ho.S
  obtain ⟨s2, h7, h8, h9⟩ := Mat.addInplaceA_reps h5 hR
  obtain ⟨pht, h10, h11, h12⟩ := Mat.multTransb_reps hP hH ho.tempPHt
  obtain ⟨hq, h13, h14, h15⟩ := Mat.mult_reps hH hP (h3.valid ho.tempHP)
  unfold RegularObservation.updateWithInnovation
  simp only [h1, h4, h7, res_bind_ok]
  refine Part.bind (P := fun r => s2.choleskyDecomposeLower bld = .ok r) (fun _ h => h) ?_
  rintro ⟨L, b⟩ hL
  have hLv : L.Valid := by
    rcases chol_safe bld hm h8.valid with ⟨e, h, _⟩ | ⟨r, hr, ht⟩
    · rw [hL] at h; cases h
    · rw [hL] at hr; cases hr
      exact ht.le h8.valid
  refine Part.bind (P := fun r => L.invertLCholesky o.tempSInv = .ok r) (fun _ h => h) fun si hsi => ?_
  have hsv : si.Valid := by
    rcases invert_safe hm hLv ho.tempSInv with ⟨e, h, _⟩ | ⟨r, hr, ht⟩
    · rw [hsi] at h; cases h
    · rw [hsi] at hr; cases hr
      exact ht.le ho.tempSInv
  obtain ⟨k, k1, k2, k3⟩ := Mat.mult_reps h11 hsv.reps ho.K
  obtain ⟨xn, x1, x2, x3⟩ := Mat.multaddRowvector_reps hm k2 hY hX
  obtain ⟨khp, q1, q2, q3⟩ := Mat.mult_reps k2 h14 ho.tempKHP
  obtain ⟨pn, p1, p2, p3⟩ := Mat.subInplaceA_reps hP q2
  simp only [h10, k1, x1, h13, q1, p1, res_bind_ok]
  exact Part.pure ⟨rfl, s2, b, _, h8, hL, hLv, hsi, hsv.reps, k2, x2, p2⟩

/-- The same buffer contents give the same decomposition. -/
theorem chol_same (bld : Build) {s s' t t' : Mat m m T} {b b' : Bool} {S} (hs : s.Reps S) (hs' : s'.Reps S)
    (h : s.choleskyDecomposeLower bld = .ok (t, b)) (h' : s'.choleskyDecomposeLower bld = .ok (t', b')) : b = b' := by
  have hag := hs.agree hs'
  rcases chol_rel 1 bld hs.valid hs'.valid (fun r c hr hc _ => hag.cl hr hc) with ⟨e, he, _⟩ | ⟨u, v, hu, hv, _, _, e, _⟩
  · rw [h] at he; cases he
  · rw [h] at hu; rw [h'] at hv; cases hu; cases hv; exact e

/-! ## Bounds -/

theorem absR_nonneg {R C : Nat} (A : Matrix (Fin R) (Fin C) ℝ) (i j) : 0 ≤ absR A i j := abs_nonneg _

theorem abs_mul_le_of_le {R C U : Nat} {A E : Matrix (Fin R) (Fin C) ℝ} {B F : Matrix (Fin C) (Fin U) ℝ}
    (hA : ∀ i j, |A i j| ≤ E i j) (hB : ∀ i j, |B i j| ≤ F i j) (i : Fin R) (j : Fin U) :
    |(A * B) i j| ≤ (E * F) i j := by
  rw [Matrix.mul_apply, Matrix.mul_apply]
  refine (Finset.abs_sum_le_sum_abs _ _).trans (Finset.sum_le_sum fun k _ => ?_)
  rw [abs_mul]
  exact mul_le_mul (hA i k) (hB k j) (abs_nonneg _) ((abs_nonneg _).trans (hA i k))

theorem abs_mulVec_le_of_le {R C : Nat} {A E : Matrix (Fin R) (Fin C) ℝ} {v w : Fin C → ℝ}
    (hA : ∀ i j, |A i j| ≤ E i j) (hv : ∀ j, |v j| ≤ w j) (i : Fin R) : |(A *ᵥ v) i| ≤ (E *ᵥ w) i := by
  show |∑ k, A i k * v k| ≤ ∑ k, E i k * w k
  refine (Finset.abs_sum_le_sum_abs _ _).trans (Finset.sum_le_sum fun k _ => ?_)
  rw [abs_mul]
  exact mul_le_mul (hA i k) (hv k) (abs_nonneg _) ((abs_nonneg _).trans (hA i k))

/-- `A (P B)`. -/
theorem Rounded.sandwich_bound' (ra : Rounded T) {R C U V : Nat} {A : Matrix (Fin R) (Fin C) T} {P : Matrix (Fin C) (Fin U) T}
    {B : Matrix (Fin U) (Fin V) T} {i : Fin R} {j : Fin V} (hf : ra.fin (Spec.mulSeq A (Spec.mulSeq P B) i j)) :
    |ra.val (Spec.mulSeq A (Spec.mulSeq P B) i j) - (ra.valM A * (ra.valM P * ra.valM B)) i j| ≤
      ra.γ (U + 1 + (C + 1)) * (ra.absM A * (ra.absM P * ra.absM B)) i j +
        ((1 + ra.u) ^ (C + 1) * ra.δ U * ∑ k, ra.absM A i k + ra.δ C) := by
  obtain ⟨h1, h2⟩ := ra.mulSeq_bound hf
  set G := Spec.mulSeq P B with hG
  have hg : ∀ k, |ra.val (G k j) - (ra.valM P * ra.valM B) k j| ≤
      ra.γ (U + 1) * (ra.absM P * ra.absM B) k j + ra.δ U := fun k => (ra.mulSeq_bound (h1 k).2).2
  have hga : ∀ k, |ra.val (G k j)| ≤ (1 + ra.γ (U + 1)) * (ra.absM P * ra.absM B) k j + ra.δ U := by
    intro k
    calc |ra.val (G k j)| = |(ra.val (G k j) - (ra.valM P * ra.valM B) k j) + (ra.valM P * ra.valM B) k j| := by
          congr 1; ring
      _ ≤ _ + _ := abs_add_le _ _
      _ ≤ _ + _ := add_le_add (hg k) (ra.abs_mul_le P B k j)
      _ = _ := by ring
  set M := (ra.absM A * (ra.absM P * ra.absM B)) i j with hM
  set σ := ∑ k, ra.absM A i k with hσ
  have hA0 : ∀ k, 0 ≤ ra.absM A i k := fun k => abs_nonneg _
  have s1 : (ra.absM A * ra.absM G) i j ≤ (1 + ra.γ (U + 1)) * M + ra.δ U * σ := by
    rw [hM, hσ, Matrix.mul_apply, Matrix.mul_apply, Finset.mul_sum, Finset.mul_sum, ← Finset.sum_add_distrib]
    refine Finset.sum_le_sum fun k _ => ?_
    calc ra.absM A i k * ra.absM G k j
        ≤ ra.absM A i k * ((1 + ra.γ (U + 1)) * (ra.absM P * ra.absM B) k j + ra.δ U) :=
          mul_le_mul_of_nonneg_left (hga k) (hA0 k)
      _ = _ := by ring
  have s2 : |(ra.valM A * ra.valM G) i j - (ra.valM A * (ra.valM P * ra.valM B)) i j| ≤
      ra.γ (U + 1) * M + ra.δ U * σ := by
    rw [hM, hσ, Matrix.mul_apply, Matrix.mul_apply (N := ra.valM P * ra.valM B),
      Matrix.mul_apply (N := ra.absM P * ra.absM B), ← Finset.sum_sub_distrib, Finset.mul_sum, Finset.mul_sum,
      ← Finset.sum_add_distrib]
    refine (Finset.abs_sum_le_sum_abs _ _).trans (Finset.sum_le_sum fun k _ => ?_)
    calc |ra.valM A i k * ra.valM G k j - ra.valM A i k * (ra.valM P * ra.valM B) k j|
        = ra.absM A i k * |ra.val (G k j) - (ra.valM P * ra.valM B) k j| := by
          rw [show ra.absM A i k = |ra.val (A i k)| from rfl, ← abs_mul]
          congr 1
          rw [show ra.valM G k j = ra.val (G k j) from rfl, show ra.valM A i k = ra.val (A i k) from rfl]
          ring
      _ ≤ ra.absM A i k * (ra.γ (U + 1) * (ra.absM P * ra.absM B) k j + ra.δ U) :=
          mul_le_mul_of_nonneg_left (hg k) (hA0 k)
      _ = _ := by ring
  have t := mul_le_mul_of_nonneg_left s1 (ra.γ_nonneg (C + 1))
  have e1 : ra.γ (C + 1) * ((1 + ra.γ (U + 1)) * M) + ra.γ (U + 1) * M = ra.γ (U + 1 + (C + 1)) * M := by
    unfold Rounded.γ; rw [pow_add]; ring
  have e2 : ra.γ (C + 1) * (ra.δ U * σ) + ra.δ U * σ = (1 + ra.u) ^ (C + 1) * ra.δ U * σ := by unfold Rounded.γ; ring
  calc _ = |(ra.val (Spec.mulSeq A G i j) - (ra.valM A * ra.valM G) i j) +
        ((ra.valM A * ra.valM G) i j - (ra.valM A * (ra.valM P * ra.valM B)) i j)| := by congr 1; ring
    _ ≤ _ + _ := abs_add_le _ _
    _ ≤ _ + _ := add_le_add h2 s2
    _ ≤ _ := by linarith

namespace RoundedInverse

variable {H : Matrix (Fin m) (Fin n) T} {P : Matrix (Fin n) (Fin n) T} {R S L M X : Matrix (Fin m) (Fin m) T}

theorem innovCov_bound (ra : RoundedInverse T) {i j : Fin m}
    (hf : ra.fin ((Spec.mulSeq (Spec.mulSeq H P) Hᵀ + R) i j)) :
    |ra.val ((Spec.mulSeq (Spec.mulSeq H P) Hᵀ + R) i j) - Spec.innovCov (ra.valM H) (ra.valM P) (ra.valM R) i j| ≤
      ra.innovCovErr H P R i j := by
  have hf' := (ra.add_err _ _ hf).1
  have := ra.toRounded.add_exact_bound hf (ra.toRounded.abs_sandwich_le H P H i j) (ra.toRounded.sandwich_bound hf')
  rwa [show n + 1 + (n + 1) + 1 = 2 * n + 3 by omega] at this

theorem innovCov_symm (ra : RoundedInverse T) (hP : P.IsSymm) (hR : R.IsSymm) :
    (Spec.innovCov (ra.valM H) (ra.valM P) (ra.valM R))ᵀ = Spec.innovCov (ra.valM H) (ra.valM P) (ra.valM R) := by
  have hvP : (ra.valM P)ᵀ = ra.valM P := by
    ext a b; exact congrArg ra.val (congrFun (congrFun hP a) b)
  have hvR : (ra.valM R)ᵀ = ra.valM R := by
    ext a b; exact congrArg ra.val (congrFun (congrFun hR a) b)
  unfold Spec.innovCov
  simp only [Matrix.transpose_add, Matrix.transpose_mul, Matrix.transpose_transpose, hvP, hvR, Matrix.mul_assoc]

/-- Finite factors come from finite entries of the upper triangle. -/
theorem chol_fin (ra : RoundedInverse T) (bld : Build) {s s' : Mat m m T} (hs : s.Reps S)
    (hok : s.choleskyDecomposeLower bld = .ok (s', true)) (hL : s'.Reps L) (hLf : ∀ i j, ra.fin (L i j)) (i j : Fin m)
    (hij : i ≤ j) : ra.fin (S i j) := by
  obtain ⟨L', h1, _, _, h4, h5⟩ := chol_any_reps bld hs.valid hs.upper hok
  obtain rfl := hL.unique h1
  have fold : ∀ k (hk : k ≤ i.1), ra.fin (Fin.foldl k (fun acc (l : Fin k) => acc -
      L i ⟨l.1, l.2.trans (lt_of_le_of_lt hk i.2)⟩ * L j ⟨l.1, l.2.trans (lt_of_le_of_lt hk i.2)⟩) (S i j)) →
      ra.fin (S i j) := by
    intro k
    induction k with
    | zero => intro _ h; simpa using h
    | succ k ih =>
      intro hk h
      rw [Fin.foldl_succ_last] at h
      exact ih (by omega) (ra.sub_err _ _ h).1
  have hrest : ra.fin (Spec.cholRest S L i j) → ra.fin (S i j) := fun h => fold i.1 le_rfl h
  apply hrest
  rcases hij.eq_or_lt with rfl | hlt
  · exact (ra.sqrt_err _ _ (h4 i).2 (hLf i i)).1
  · obtain ⟨d, _, e⟩ := h5 i j hlt
    have := hLf j i
    rw [e] at this
    exact (ra.mul_err _ _ this).1

theorem factored_bound (ra : RoundedInverse T) (bld : Build) {s s' : Mat m m T} (hP : P.IsSymm) (hR : R.IsSymm)
    (hs : s.Reps (Spec.mulSeq (Spec.mulSeq H P) Hᵀ + R)) (hok : s.choleskyDecomposeLower bld = .ok (s', true))
    (hL : s'.Reps L) (hLf : ∀ i j, ra.fin (L i j)) (i j : Fin m) :
    |(ra.valM L * (ra.valM L)ᵀ) i j - Spec.innovCov (ra.valM H) (ra.valM P) (ra.valM R) i j| ≤
      ra.factoredErr H P R (Spec.mulSeq (Spec.mulSeq H P) Hᵀ + R) L i j := by
  have main : ∀ i j : Fin m, j ≤ i →
      |(ra.valM L * (ra.valM L)ᵀ) i j - Spec.innovCov (ra.valM H) (ra.valM P) (ra.valM R) j i| ≤
      ra.innovCovErr H P R j i + ra.cholBound m (ra.absM (Spec.mulSeq (Spec.mulSeq H P) Hᵀ + R) j i +
        (ra.absM L * (ra.absM L)ᵀ) i j) (ra.val (L j j)) := by
    intro i j hij
    have b1 := chol_backward ra.toRoundedRoots bld hs.valid hs.upper hok hL hLf i j hij
    have b2 := ra.innovCov_bound (ra.chol_fin bld hs hok hL hLf j i hij)
    refine le_trans (le_trans (le_of_eq ?_) (abs_add_le _ _)) ((add_le_add b2 b1).trans (le_of_eq ?_))
    · congr 1; ring
    · rfl
  have hsy : ∀ i j, Spec.innovCov (ra.valM H) (ra.valM P) (ra.valM R) i j =
      Spec.innovCov (ra.valM H) (ra.valM P) (ra.valM R) j i := fun i j =>
    congrFun (congrFun (ra.innovCov_symm (H := H) hP hR) j) i
  show _ ≤ ra.innovCovErr H P R (min i j) (max i j) + ra.cholBound m
    (ra.absM (Spec.mulSeq (Spec.mulSeq H P) Hᵀ + R) (min i j) (max i j) + (ra.absM L * (ra.absM L)ᵀ) i j)
      (ra.val (L (min i j) (min i j)))
  rcases le_total j i with h | h
  · rw [max_eq_left h, min_eq_right h, hsy i j]; exact main i j h
  · rw [max_eq_right h, min_eq_left h]
    have e1 : (ra.valM L * (ra.valM L)ᵀ) i j = (ra.valM L * (ra.valM L)ᵀ) j i := by
      have : (ra.valM L * (ra.valM L)ᵀ)ᵀ = ra.valM L * (ra.valM L)ᵀ := by
        rw [Matrix.transpose_mul, Matrix.transpose_transpose]
      exact congrFun (congrFun this j) i
    have e2 : (ra.absM L * (ra.absM L)ᵀ) i j = (ra.absM L * (ra.absM L)ᵀ) j i := by
      have : (ra.absM L * (ra.absM L)ᵀ)ᵀ = ra.absM L * (ra.absM L)ᵀ := by
        rw [Matrix.transpose_mul, Matrix.transpose_transpose]
      exact congrFun (congrFun this j) i
    rw [e1, e2]
    exact main j i h

/-- The computed inverse and the inverse of the exact residual covariance. -/
theorem innovInv_bound (ra : RoundedInverse T) (hL : ∀ i j, i < j → L i j = 0) (hM : Spec.FactorInverse L M)
    (hX : Spec.TransposedSolve L M X) (hLf : ∀ i j, ra.fin (L i j)) (hXf : ∀ i j, ra.fin (X i j))
    {Se : Matrix (Fin m) (Fin m) ℝ} (hSe : IsUnit Se.det)
    (hLS : ∀ i j, |(ra.valM L * (ra.valM L)ᵀ) i j - Se i j| ≤ ra.factoredErr H P R S L i j) (i j : Fin m) :
    |ra.val (X i j) - Se⁻¹ i j| ≤ ra.innovInvErr H P R S L M X Se i j := by
  have b1 := ra.inverse_error hL hM hX (fun i => hLf i i) hXf i j
  have hd : ∀ i, ra.valM L i i ≠ 0 := fun i => by
    obtain ⟨_, d, h1, h2⟩ := ra.solve_fin hX hXf i i le_rfl
    exact (ra.recip_err _ _ h1 (hLf i i) h2).1
  have hL' : ∀ i j, i < j → ra.valM L i j = 0 := fun i j h => by
    show ra.val (L i j) = 0
    rw [hL i j h, ra.val_zero]
  have hdet : IsUnit (ra.valM L).det := (Matrix.isUnit_iff_isUnit_det _).mp (isUnit_of_lower hL' hd)
  set G := ra.valM L * (ra.valM L)ᵀ with hG
  have hGdet : IsUnit G.det := by rw [hG, Matrix.det_mul, Matrix.det_transpose]; exact hdet.mul hdet
  have key : G⁻¹ - Se⁻¹ = -(G⁻¹ * (G - Se) * Se⁻¹) := by
    rw [Matrix.mul_sub, Matrix.sub_mul, Matrix.nonsing_inv_mul _ hGdet, Matrix.one_mul, Matrix.mul_assoc,
      Matrix.mul_nonsing_inv _ hSe, Matrix.mul_one]
    abel
  have b2 : |G⁻¹ i j - Se⁻¹ i j| ≤ (absR G⁻¹ * ra.factoredErr H P R S L * absR Se⁻¹) i j := by
    have e : G⁻¹ i j - Se⁻¹ i j = (G⁻¹ - Se⁻¹) i j := rfl
    rw [e, key, Matrix.neg_apply, abs_neg]
    exact abs_mul_le_of_le (abs_mul_le_of_le (fun _ _ => le_rfl) hLS) (fun _ _ => le_rfl) i j
  refine le_trans (le_trans (le_of_eq ?_) (abs_add_le _ _)) (add_le_add b1 b2)
  congr 1; ring

variable {E : Matrix (Fin m) (Fin m) ℝ}

theorem gain_bound (ra : RoundedInverse T) (hX : ∀ i j, |ra.val (X i j) -
      (Spec.innovCov (ra.valM H) (ra.valM P) (ra.valM R))⁻¹ i j| ≤ E i j) {i : Fin n} {j : Fin m}
    (hf : ra.fin (Spec.mulSeq (Spec.mulSeq P Hᵀ) X i j)) :
    |ra.val (Spec.mulSeq (Spec.mulSeq P Hᵀ) X i j) - Spec.gain (ra.valM H) (ra.valM P) (ra.valM R) i j| ≤
      ra.gainErr H P X E i j := by
  have b1 := ra.toRounded.sandwich_bound (A := P) (P := Hᵀ) (B := Xᵀ) hf
  have b2 : |(ra.valM P * (ra.valM H)ᵀ * (ra.valM X - (Spec.innovCov (ra.valM H) (ra.valM P) (ra.valM R))⁻¹)) i j| ≤
      (ra.absM P * (ra.absM H)ᵀ * E) i j :=
    abs_mul_le_of_le (abs_mul_le_of_le (fun _ _ => le_rfl) (fun _ _ => le_rfl)) hX i j
  rw [show n + 1 + (m + 1) = n + m + 2 by omega, Matrix.transpose_transpose] at b1
  rw [Matrix.mul_sub, Matrix.sub_apply] at b2
  refine le_trans (le_trans (le_of_eq ?_) (abs_add_le _ _)) (add_le_add b1 b2)
  congr 1
  change _ = _ - (ra.valM P * (ra.valM H)ᵀ * ra.valM X) i j + (_ - Spec.gain (ra.valM H) (ra.valM P) (ra.valM R) i j)
  ring

variable {K : Matrix (Fin n) (Fin m) T} {Ke EK : Matrix (Fin n) (Fin m) ℝ}

theorem cov_bound (ra : RoundedInverse T) (hK : ∀ i j, |ra.val (K i j) - Ke i j| ≤ EK i j) {i j : Fin n}
    (hf : ra.fin ((P - Spec.mulSeq K (Spec.mulSeq H P)) i j)) :
    |ra.val ((P - Spec.mulSeq K (Spec.mulSeq H P)) i j) - (ra.valM P - Ke * ra.valM H * ra.valM P) i j| ≤
      ra.covErr H P K EK i j := by
  have hf' := (ra.sub_err _ _ hf).2.1
  have b1 := ra.toRounded.sandwich_bound' hf'
  have b2 : |((ra.valM K - Ke) * (ra.valM H * ra.valM P)) i j| ≤ (EK * (ra.absM H * ra.absM P)) i j :=
    abs_mul_le_of_le hK (abs_mul_le_of_le (fun _ _ => le_rfl) (fun _ _ => le_rfl)) i j
  have b3 : |(ra.valM K * (ra.valM H * ra.valM P)) i j| ≤ (ra.absM K * (ra.absM H * ra.absM P)) i j :=
    abs_mul_le_of_le (fun _ _ => le_rfl) (abs_mul_le_of_le (fun _ _ => le_rfl) (fun _ _ => le_rfl)) i j
  have b4 := ra.toRounded.sub_bound (a := P i j) (S := ra.val (P i j)) (ea := 0) hf (by simp) b1
  rw [show n + 1 + (m + 1) = n + m + 2 by omega] at b4
  rw [Matrix.sub_mul, Matrix.sub_apply, abs_sub_comm] at b2
  have e : (ra.valM P - Ke * ra.valM H * ra.valM P) i j = ra.val (P i j) - (Ke * (ra.valM H * ra.valM P)) i j := by
    rw [Matrix.mul_assoc]; rfl
  rw [e]
  show _ ≤ ra.γ (n + m + 3) * (ra.absM K * (ra.absM H * ra.absM P)) i j + ra.u * ra.absM P i j +
      (1 + ra.u) * ((1 + ra.u) ^ (m + 1) * ra.δ n * ∑ k, ra.absM K i k + ra.δ m) + (EK * (ra.absM H * ra.absM P)) i j
  refine le_trans (le_trans (le_of_eq ?_) (abs_add_le _ _)) ((add_le_add b4 b2).trans ?_)
  · congr 1
    change ra.val (P i j - Spec.mulSeq K (Spec.mulSeq H P) i j) - _ = _
    ring
  · have hu := ra.u_nonneg
    have t1 := mul_le_mul_of_nonneg_left b3 hu
    have e1 : (1 + ra.u) * (0 + (ra.γ (n + m + 2) * (ra.absM K * (ra.absM H * ra.absM P)) i j +
        ((1 + ra.u) ^ (m + 1) * ra.δ n * ∑ k, ra.absM K i k + ra.δ m))) + ra.u * (ra.absM K * (ra.absM H * ra.absM P)) i j =
        ra.γ (n + m + 3) * (ra.absM K * (ra.absM H * ra.absM P)) i j +
        (1 + ra.u) * ((1 + ra.u) ^ (m + 1) * ra.δ n * ∑ k, ra.absM K i k + ra.δ m) := by unfold Rounded.γ; ring
    have e2 : |ra.val (P i j)| = ra.absM P i j := rfl
    rw [e2]
    linarith

theorem innov_bound (ra : RoundedInverse T) {x : Fin n → T} {z : Fin m → T} {i : Fin m}
    (hf : ra.fin ((z - Spec.mulVecSeq H x) i)) :
    |ra.val ((z - Spec.mulVecSeq H x) i) - (ra.valV z - ra.valM H *ᵥ ra.valV x) i| ≤ ra.innovErr H x z i := by
  have hf' := (ra.sub_err _ _ hf).2.1
  have t := ra.toRounded.sub_bound (a := z i) (S := ra.val (z i)) (ea := 0) hf (by simp) (ra.toRounded.mulVecSeq_bound hf').2
  have h1 : ra.u * |(ra.valM H *ᵥ ra.valV x) i| ≤ ra.u * (ra.absM H *ᵥ ra.absV x) i :=
    mul_le_mul_of_nonneg_left (ra.toRounded.abs_mulVec_le H x i) ra.u_nonneg
  have e1 : (1 + ra.u) * (0 + (ra.γ (n + 1) * (ra.absM H *ᵥ ra.absV x) i + ra.δ n)) + ra.u * (ra.absM H *ᵥ ra.absV x) i =
      ra.γ (n + 2) * (ra.absM H *ᵥ ra.absV x) i + (1 + ra.u) * ra.δ n := by unfold Rounded.γ; ring
  refine t.trans ?_
  unfold innovErr
  linarith

theorem state_bound (ra : RoundedInverse T) {x : Fin n → T} {y : Fin m → T} {ye Ey : Fin m → ℝ}
    (hK : ∀ i j, |ra.val (K i j) - Ke i j| ≤ EK i j) (hy : ∀ j, |ra.val (y j) - ye j| ≤ Ey j) {i : Fin n}
    (hf : ra.fin ((x + Spec.mulVecSeq K y) i)) :
    |ra.val ((x + Spec.mulVecSeq K y) i) - (ra.valV x + Ke *ᵥ ye) i| ≤ ra.stateErr K x y EK Ey i := by
  have hf' := (ra.add_err _ _ hf).2.1
  have b1 := ra.toRounded.add_exact_bound' hf (ra.toRounded.abs_mulVec_le K y i) (ra.toRounded.mulVecSeq_bound hf').2
  have b2 : |((ra.valM K - Ke) *ᵥ ra.valV y) i| ≤ (EK *ᵥ ra.absV y) i := abs_mulVec_le_of_le hK (fun _ => le_rfl) i
  have hKe : ∀ i j, |Ke i j| ≤ (ra.absM K + EK) i j := fun i j => by
    have := abs_sub_abs_le_abs_sub (Ke i j) (ra.val (K i j))
    have h2 := hK i j
    rw [abs_sub_comm] at h2
    show |Ke i j| ≤ |ra.val (K i j)| + EK i j
    linarith
  have b3 : |(Ke *ᵥ (ra.valV y - ye)) i| ≤ ((ra.absM K + EK) *ᵥ Ey) i := abs_mulVec_le_of_le hKe hy i
  rw [Matrix.sub_mulVec, Pi.sub_apply] at b2
  rw [Matrix.mulVec_sub, Pi.sub_apply] at b3
  show _ ≤ _ + (EK *ᵥ ra.absV y) i + ((ra.absM K + EK) *ᵥ Ey) i
  refine le_trans (le_trans (le_of_eq ?_) (abs_add_three _ _ _)) (add_le_add (add_le_add b1 b2) b3)
  congr 1
  show ra.val (x i + Spec.mulVecSeq K y i) - (ra.val (x i) + (Ke *ᵥ ye) i) = _
  ring

end RoundedInverse
end Minikalman

namespace Minikalman

open Matrix

variable {T : Type} {n m : Nat} [Zero T] [One T] [Add T] [Sub T] [Mul T] [Neg T] [MDT T]

/-- The whole update, from a computed innovation `Y` that is `ye` up to `Ey`. -/
theorem update_rounding (ra : RoundedInverse T) (bld : Build) {o : RegularObservation n m T} {x : Mat n 1 T} {P : Mat n n T}
    {H : Matrix (Fin m) (Fin n) T} {R : Matrix (Fin m) (Fin m) T} {Pm : Matrix (Fin n) (Fin n) T} {X : Fin n → T} {Y : Fin m → T}
    {r : RegularObservation n m T × Mat n 1 T × Mat n n T} {s s' : Mat m m T}
    (hn : 0 < n) (hm : 0 < m) (ho : o.Valid) (hH : o.H.Reps H) (hR : o.R.Reps R) (hP : P.Reps Pm) (hX : x.RepsV X)
    (hY : o.y.RepsV Y) (hPs : Pm.IsSymm) (hRs : R.IsSymm)
    (hs : s.Reps (Spec.mulSeq (Spec.mulSeq H Pm) Hᵀ + R)) (hok : s.choleskyDecomposeLower bld = .ok (s', true))
    (hSe : IsUnit (Spec.innovCov (ra.valM H) (ra.valM Pm) (ra.valM R)).det)
    (h : o.updateWithInnovation bld x P = .ok r) :
    r.1.y = o.y ∧ ∃ L M W K x' P', r.1.S.Reps L ∧ Spec.FactorInverse L M ∧ Spec.TransposedSolve L M W ∧ r.1.tempSInv.Reps W ∧
      r.1.K.Reps K ∧ r.2.1.RepsV x' ∧ r.2.2.Reps P' ∧
      ((∀ i j, ra.fin (L i j)) → (∀ i, ra.fin (x' i)) →
        (∀ i j, |(ra.valM L * (ra.valM L)ᵀ) i j - Spec.innovCov (ra.valM H) (ra.valM Pm) (ra.valM R) i j| ≤
          ra.factoredErr H Pm R (Spec.mulSeq (Spec.mulSeq H Pm) Hᵀ + R) L i j) ∧
        (∀ i j, |ra.val (W i j) - (Spec.innovCov (ra.valM H) (ra.valM Pm) (ra.valM R))⁻¹ i j| ≤
          ra.innovInvErr H Pm R (Spec.mulSeq (Spec.mulSeq H Pm) Hᵀ + R) L M W
            (Spec.innovCov (ra.valM H) (ra.valM Pm) (ra.valM R)) i j) ∧
        ∃ EK : Matrix (Fin n) (Fin m) ℝ,
          EK = ra.gainErr H Pm W (ra.innovInvErr H Pm R (Spec.mulSeq (Spec.mulSeq H Pm) Hᵀ + R) L M W
            (Spec.innovCov (ra.valM H) (ra.valM Pm) (ra.valM R))) ∧
        (∀ i j, |ra.val (K i j) - Spec.gain (ra.valM H) (ra.valM Pm) (ra.valM R) i j| ≤ EK i j) ∧
        (∀ ye Ey : Fin m → ℝ, ((∀ j, ra.fin (Y j)) → ∀ j, |ra.val (Y j) - ye j| ≤ Ey j) → ∀ i,
          |ra.val (x' i) - (ra.valV X + Spec.gain (ra.valM H) (ra.valM Pm) (ra.valM R) *ᵥ ye) i| ≤
            ra.stateErr K X Y EK Ey i) ∧
        (∀ j, ra.fin (Y j)) ∧
        ∀ i j, ra.fin (P' i j) → |ra.val (P' i j) - Spec.corrP (ra.valM H) (ra.valM Pm) (ra.valM R) i j| ≤
          ra.covErr H Pm K EK i j) := by
  obtain ⟨hy, t, b, W, h1, h2, h3, h4, h5, h6, h7, h8⟩ := update_any bld hm ho hH hR hP hX hY r h
  obtain rfl : b = true := chol_same bld h1 hs h2 hok
  obtain ⟨L, g1, _, g3, _, _⟩ := chol_any_reps bld h1.valid h1.upper h2
  obtain ⟨M, W', k1, _, k3, k4⟩ := invert_any_matrix hm g1.lower ho.tempSInv h4
  obtain rfl := h5.unique k1
  refine ⟨hy, L, M, W, _, _, _, g1, k3, k4, h5, h6, h7, h8, fun hLf hxf => ?_⟩
  have hK : ∀ i j, ra.fin (Spec.mulSeq (Spec.mulSeq Pm Hᵀ) W i j) ∧ ra.fin (Y j) := fun i j =>
    (ra.toRounded.mulVecSeq_bound (ra.add_err _ _ (hxf i)).2.1).1 j
  have hW : ∀ i j, ra.fin (W i j) := fun i j =>
    ((ra.toRounded.mulSeq_bound (hK ⟨0, hn⟩ j).1).1 i).2
  have b1 := ra.factored_bound bld hPs hRs h1 h2 g1 hLf
  have b2 := ra.innovInv_bound g3 k3 k4 hLf hW hSe b1
  have b3 := fun i j => ra.gain_bound (R := R) b2 (hK i j).1
  refine ⟨b1, b2, _, rfl, b3, fun ye Ey hye i => ?_, fun j => (hK ⟨0, hn⟩ j).2, fun i j hij => ?_⟩
  · exact ra.state_bound b3 (hye fun j => (hK ⟨0, hn⟩ j).2) (hxf i)
  · exact ra.cov_bound b3 hij

end Minikalman
