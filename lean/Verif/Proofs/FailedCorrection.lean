import Verif.Spec.FailedCorrection
import Verif.Proofs.FilterExact
import Verif.Proofs.RoundingChol
import Verif.Proofs.RoundingInv
import Verif.Proofs.Safety
import Verif.Proofs.Riccati
import Verif.Proofs.Builder

/-! # Corrections after a failed decomposition: helper lemmas -/

set_option linter.unusedSectionVars false

namespace Minikalman

open Matrix Finset

variable {n m : Nat}

/-! ## Triangular products -/

theorem lower_mul {W : Matrix (Fin m) (Fin m) ℝ} (h : ∀ i j, i < j → W i j = 0) (i j : Fin m) :
    (W * Wᵀ) i j = (∑ k with k < j, W i k * W j k) + W i j * W j j := by
  rw [Matrix.mul_apply, Finset.sum_filter]
  rw [show W i j * W j j = ∑ k, if k = j then W i k * W j k else 0 by rw [Finset.sum_ite_eq' univ j]; simp, ← Finset.sum_add_distrib]
  refine Finset.sum_congr rfl fun k _ => ?_
  rcases lt_trichotomy k j with hk | rfl | hk
  · simp [hk, hk.ne, Matrix.transpose_apply]
  · simp [Matrix.transpose_apply]
  · simp [not_lt.mpr hk.le, hk.ne', Matrix.transpose_apply, h j k hk]

theorem columns_unique {S W V : Matrix (Fin m) (Fin m) ℝ} {p : Nat} (hW : ∀ i j, i < j → W i j = 0) (hV : ∀ i j, i < j → V i j = 0)
    (pW : ∀ j : Fin m, j.1 < p → 0 < W j j) (pV : ∀ j : Fin m, j.1 < p → 0 < V j j)
    (cW : ∀ i j : Fin m, j.1 < p → j ≤ i → (W * Wᵀ) i j = S i j) (cV : ∀ i j : Fin m, j.1 < p → j ≤ i → (V * Vᵀ) i j = S i j)
    (i j : Fin m) (hj : j.1 < p) : W i j = V i j := by
  induction hk : j.1 using Nat.strong_induction_on generalizing i j with
  | _ k ih =>
    subst hk
    have hsum : ∀ a b : Fin m, ∑ k with k < j, W a k * W b k = ∑ k with k < j, V a k * V b k := fun a b =>
      Finset.sum_congr rfl fun k hk => by
        have hk' : k < j := (mem_filter.1 hk).2
        rw [ih k.1 hk' a k (lt_trans hk' hj) rfl, ih k.1 hk' b k (lt_trans hk' hj) rfl]
    have hd : W j j = V j j := by
      have h1 := cW j j hj le_rfl
      have h2 := cV j j hj le_rfl
      rw [lower_mul hW] at h1
      rw [lower_mul hV] at h2
      have h3 : W j j * W j j = V j j * V j j := by linarith [hsum j j]
      nlinarith [pW j hj, pV j hj]
    rcases lt_trichotomy i j with h | rfl | h
    · rw [hW i j h, hV i j h]
    · exact hd
    · have h1 := cW i j hj h.le
      have h2 := cV i j hj h.le
      rw [lower_mul hW] at h1
      rw [lower_mul hV] at h2
      have h3 : W i j * W j j = V i j * W j j := by rw [hd] at h1 ⊢; linarith [hsum i j]
      exact mul_right_cancel₀ (pW j hj).ne' h3

/-- A Cholesky factor and a stopped decomposition exclude each other. -/
theorem stopped_excludes {S W L : Matrix (Fin m) (Fin m) ℝ} {p : Fin m} {q : Nat} (hpq : p.1 < q) (h : Spec.Stopped S p W)
    (hL : ∀ i j, i < j → L i j = 0) (pL : ∀ j : Fin m, j.1 < q → 0 < L j j)
    (cL : ∀ i j : Fin m, j.1 < q → j ≤ i → (L * Lᵀ) i j = S i j) : False := by
  have hu := columns_unique (p := p.1) h.above hL (fun j hj => h.pivots j hj) (fun j hj => pL j (hj.trans hpq))
    (fun i j hj => h.columns i j hj) (fun i j hj => cL i j (hj.trans hpq))
  have h1 := cL p p hpq le_rfl
  rw [lower_mul hL] at h1
  have h2 := h.left
  have h3 : ∑ k with k < p, W p k ^ 2 = ∑ k with k < p, L p k * L p k := Finset.sum_congr rfl fun k hk => by
    rw [hu p k (mem_filter.1 hk).2, sq]
  have h4 := pL p hpq
  nlinarith

theorem stopped_unique {S W V : Matrix (Fin m) (Fin m) ℝ} {p q : Fin m} (hW : Spec.Stopped S p W) (hV : Spec.Stopped S q V) :
    p = q ∧ W = V := by
  have hpq : p = q := by
    rcases lt_trichotomy p q with h | h | h
    · exact (stopped_excludes h hW hV.above hV.pivots hV.columns).elim
    · exact h
    · exact (stopped_excludes h hV hW.above hW.pivots hW.columns).elim
  subst hpq
  refine ⟨rfl, ?_⟩
  have hu := columns_unique (p := p.1) hW.above hV.above hW.pivots hV.pivots hW.columns hV.columns
  have hsum : ∑ k with k < p, W p k ^ 2 = ∑ k with k < p, V p k ^ 2 := Finset.sum_congr rfl fun k hk => by
    rw [hu p k (mem_filter.1 hk).2]
  ext i j
  rcases lt_or_ge i j with hij | hij
  · rw [hW.above i j hij, hV.above i j hij]
  rcases lt_or_ge j p with hj | hj
  · exact hu i j hj
  by_cases hp : i = p ∧ j = p
  · rw [hp.1, hp.2]
    rcases Nat.eq_zero_or_pos p.1 with h0 | h0
    · rw [hW.first h0, hV.first h0]
    · have hq : (⟨p.1 - 1, by omega⟩ : Fin m).1 + 1 = p.1 := by simp; omega
      rw [hW.later _ hq, hV.later _ hq, hsum, hu _ _ (by simp; omega)]
  · rw [hW.rest i j hj hij hp, hV.rest i j hj hij hp]

section Real
variable [MDT ℝ] [ExactReal]

theorem cholRest_real (A L : Matrix (Fin m) (Fin m) ℝ) (c r : Fin m) :
    Spec.cholRest A L c r = A c r - ∑ k with k < c, L c k * L r k := by
  unfold Spec.cholRest
  have key : ∀ (a : Nat) (ha : a ≤ m) (z : ℝ), Fin.foldl a (fun acc k => acc - L c ⟨k.1, k.2.trans_le ha⟩ * L r ⟨k.1, k.2.trans_le ha⟩) z =
      z - ∑ k : Fin m with k.1 < a, L c k * L r k := by
    intro a
    induction a with
    | zero => intro _ z; simp
    | succ a ih =>
      intro ha z
      rw [Fin.foldl_succ_last]
      have := ih (by omega) z
      simp only [Fin.val_castSucc, Fin.val_last] at this ⊢
      rw [this]
      have hs : (univ.filter fun k : Fin m => k.1 < a + 1) = insert ⟨a, by omega⟩ (univ.filter fun k : Fin m => k.1 < a) := by
        ext k
        simp only [mem_filter, mem_univ, true_and, mem_insert, Fin.ext_iff]
        omega
      rw [hs, Finset.sum_insert (by simp)]
      ring
  exact key c.1 c.2.le (A c r)

/-- The decomposition of a symmetric matrix that is not positive definite stops. -/
theorem chol_stopped (bld : Build) {s : Mat m m ℝ} {S : Matrix (Fin m) (Fin m) ℝ} (hm : 0 < m) (hS : S.IsSymm) (hs : s.Reps S)
    (hn : ¬ S.PosDef) :
    ∃ s' p W, s.choleskyDecomposeLower bld = .ok (s', false) ∧ s.SameTail s' ∧ Spec.Stopped S p W ∧ s'.RepsLower W := by
  obtain ⟨s', b, h1, h2, h3, _⟩ := chol_matrix bld hm hS hs.upper
  have hb : b = false := by
    by_contra hb
    obtain ⟨L, _, l2, l3, l4⟩ := h3 (by simpa using hb)
    refine hn ?_
    rw [← l4]
    exact posDef_of_factor (isUnit_of_lower l2 fun i => (l3 i).ne')
  subst hb
  obtain ⟨L, p, k1, _, k2, k3, k4, ⟨d, k5, k6⟩, k7⟩ := chol_any_fail_reps bld hs.valid hs.upper h1
  let W : Matrix (Fin m) (Fin m) ℝ := Matrix.of fun i j => if j ≤ i then L i j else 0
  have hWL : ∀ i j, j ≤ i → W i j = L i j := fun i j h => if_pos h
  have hsumW : ∀ i j : Fin m, j ≤ i → ∑ k with k < j, W i k * W j k = ∑ k with k < j, L i k * L j k := fun i j hij =>
    Finset.sum_congr rfl fun k hk => by
      have hk' := (mem_filter.1 hk).2
      rw [hWL i k (hk'.le.trans hij), hWL j k hk'.le]
  have habove : ∀ i j, i < j → W i j = 0 := fun i j h => if_neg (not_le.mpr h)
  have hpos : ∀ j, j < p → 0 < Spec.cholRest S L j j := fun j hj => by
    have := (k3 j hj).1
    by_contra h
    rw [(ExactReal.le_iff _ _).2 (not_lt.1 h)] at this
    cases this
  have hsq : ∀ j, j < p → L j j = Real.sqrt (Spec.cholRest S L j j) := fun j hj => by
    have := (k3 j hj).2
    rw [ExactReal.sqrt_eq _ (hpos j hj)] at this
    exact (Except.ok.inj this).symm
  have hpiv : ∀ j, j < p → 0 < L j j := fun j hj => by
    rw [hsq j hj]; exact Real.sqrt_pos.2 (hpos j hj)
  have hsum2 : ∑ k with k < p, W p k ^ 2 = ∑ k with k < p, L p k * L p k := by
    rw [← hsumW p p le_rfl]
    exact Finset.sum_congr rfl fun k _ => sq _
  refine ⟨s', p, W, h1, h2, ⟨habove, fun j hj => ?_, fun i j hj hij => ?_, ?_, fun h0 => ?_, fun q hq => ?_, fun i j hj hij hne => ?_⟩,
    fun i j hij => ?_⟩
  · rw [hWL j j le_rfl]; exact hpiv j hj
  · rw [lower_mul habove, hsumW i j hij, hWL i j hij, hWL j j le_rfl]
    rcases eq_or_lt_of_le hij with rfl | hlt
    · have := hsq j hj
      have h5 := Real.mul_self_sqrt (hpos j hj).le
      rw [← this, cholRest_real] at h5
      linarith
    · obtain ⟨e, e1, e2⟩ := k4 j i hlt hj
      rw [ExactReal.recip_eq _ (hpiv j hj).ne'] at e1
      cases e1
      rw [e2, mul_assoc, inv_mul_cancel₀ (hpiv j hj).ne', mul_one, cholRest_real]
      have : S j i = S i j := hS.apply i j
      have hc : ∑ k with k < j, L i k * L j k = ∑ k with k < j, L j k * L i k := Finset.sum_congr rfl fun k _ => mul_comm _ _
      rw [hc, this]
      ring
  · rw [hsum2, ← cholRest_real]
    exact (ExactReal.le_iff _ _).1 k2
  · rw [hWL p p le_rfl, k5]
    rcases k6 with ⟨_, rfl⟩ | ⟨q, hq, _⟩
    · exact mul_zero _
    · omega
  · rw [hWL p p le_rfl, hWL q q le_rfl, k5, hsum2, ← cholRest_real]
    rcases k6 with ⟨h0, _⟩ | ⟨r, hr, h⟩
    · omega
    · have : r = q := by ext; omega
      subst this
      rw [ExactReal.recip_eq _ (hpiv r (by show r.1 < p.1; omega)).ne'] at h
      cases h
      rfl
  · rw [hWL i j hij]
    have := k7 i j (Or.inr ⟨hj, hne⟩)
    have e1 := hs i j
    have e2 := k1 i j
    simp only [Mat.get, Mat.getAt, rd_eq e1, rd_eq e2] at this
    exact (Except.ok.inj this).symm
  · rw [hWL i j hij]; exact k1 i j

/-- The update with whatever the decomposition left, as long as it has no zero on the diagonal. -/
theorem update_left (bld : Build) {o : RegularObservation n m ℝ} {x : Mat n 1 ℝ} {P : Mat n n ℝ}
    (hm : 0 < m) (ho : o.Valid) {H R PP X Y} (hH : o.H.Reps H) (hR : o.R.Reps R)
    (hP : P.Reps PP) (hX : x.RepsV X) (hY : o.y.RepsV Y) (hsym : (H * PP * Hᵀ + R).IsSymm) (hS : ¬ (H * PP * Hᵀ + R).PosDef)
    {p W} (hW : Spec.Stopped (H * PP * Hᵀ + R) p W) (hd : ∀ i, W i i ≠ 0) :
    ∃ o' x' P', o.updateWithInnovation bld x P = .ok (o', x', P') ∧ o.Frame o' ∧ x.SameTail x' ∧ P.SameTail P' ∧ o'.y = o.y ∧
      o'.tempSInv.Reps (W * Wᵀ)⁻¹ ∧ o'.K.Reps (PP * Hᵀ * (W * Wᵀ)⁻¹) ∧
      x'.RepsV (X + (PP * Hᵀ * (W * Wᵀ)⁻¹) *ᵥ Y) ∧ P'.Reps (PP - PP * Hᵀ * (W * Wᵀ)⁻¹ * (H * PP)) := by
  obtain ⟨hp, h1, h2, h3⟩ := Mat.mult_reps hH hP ho.tempHP
  rw [mulSeq_eq_mul] at h2
  obtain ⟨s, h4, h5, h6⟩ := Mat.multTransb_reps h2 hH ho.S
  rw [mulSeq_eq_mul] at h5
  obtain ⟨s2, h7, h8, h9⟩ := Mat.addInplaceA_reps h5 hR
  obtain ⟨pht, h10, h11, h12⟩ := Mat.multTransb_reps hP hH ho.tempPHt
  rw [mulSeq_eq_mul] at h11
  obtain ⟨hq, h13, h14, h15⟩ := Mat.mult_reps hH hP (h3.valid ho.tempHP)
  rw [mulSeq_eq_mul] at h14
  obtain ⟨L, p', W', c1, c2, c3, c4⟩ := chol_stopped bld hm hsym h8 hS
  obtain ⟨rfl, rfl⟩ := stopped_unique hW c3
  obtain ⟨si, i1, i2, i3⟩ := invert_matrix hm hW.above hd c4 ho.tempSInv
  obtain ⟨k, k1, k2, k3⟩ := Mat.mult_reps h11 i2 ho.K
  rw [mulSeq_eq_mul] at k2
  obtain ⟨xn, x1, x2, x3⟩ := Mat.multaddRowvector_reps hm k2 hY hX
  rw [mulVecSeq_eq_mulVec] at x2
  obtain ⟨khp, q1, q2, q3⟩ := Mat.mult_reps k2 h14 ho.tempKHP
  rw [mulSeq_eq_mul] at q2
  obtain ⟨pn, p1, p2, p3⟩ := Mat.subInplaceA_reps hP q2
  refine ⟨{ o with S := L, K := k, tempSInv := si, tempHP := hq, tempPHt := pht, tempKHP := khp }, xn, pn, ?_,
    ⟨rfl, rfl, rfl, Mat.SameTail.refl _, (h6.trans h9).trans c2, k3, i3, h3.trans h15, h12, q3⟩, x3, p3, rfl, i2, k2, x2, p2⟩
  unfold RegularObservation.updateWithInnovation
  simp only [h1, h4, h7, c1, i1, h10, k1, x1, h13, q1, p1, res_bind_ok]
  rfl

/-- With a zero on the diagonal of what the decomposition left, the inversion divides by zero: if that panics, so does the update. -/
theorem update_left_zero (bld : Build) {o : RegularObservation n m ℝ} {x : Mat n 1 ℝ} {P : Mat n n ℝ}
    (hm : 0 < m) (ho : o.Valid) {H R PP} (hH : o.H.Reps H) (hR : o.R.Reps R) (hP : P.Reps PP)
    (hsym : (H * PP * Hᵀ + R).IsSymm) (hS : ¬ (H * PP * Hᵀ + R).PosDef)
    {p W} (hW : Spec.Stopped (H * PP * Hᵀ + R) p W) {i : Fin m} (hd : W i i = 0)
    {e : Panic} (he : MDT.recip (0 : ℝ) = .error e) (hother : ∀ e', ScalarPanic ℝ e' → e' = e) :
    o.updateWithInnovation bld x P = .error e := by
  obtain ⟨hp, h1, h2, h3⟩ := Mat.mult_reps hH hP ho.tempHP
  rw [mulSeq_eq_mul] at h2
  obtain ⟨s, h4, h5, h6⟩ := Mat.multTransb_reps h2 hH ho.S
  rw [mulSeq_eq_mul] at h5
  obtain ⟨s2, h7, h8, h9⟩ := Mat.addInplaceA_reps h5 hR
  obtain ⟨L, p', W', c1, c2, c3, c4⟩ := chol_stopped bld hm hsym h8 hS
  obtain ⟨rfl, rfl⟩ := stopped_unique hW c3
  have hinv : L.invertLCholesky o.tempSInv = .error e := by
    rcases invert_safe hm (c2.valid h8.valid) ho.tempSInv with ⟨e', h, h'⟩ | ⟨r, h, _⟩
    · rw [h, hother e' h']
    · obtain ⟨M, X, _, _, hM, _⟩ := invert_any_matrix hm c4 ho.tempSInv h
      obtain ⟨d, hd', _⟩ := hM.entry i i le_rfl
      rw [hd, he] at hd'
      cases hd'
  unfold RegularObservation.updateWithInnovation
  simp only [h1, h4, h7, c1, hinv, res_bind_ok]
  rfl

end Real

/-! ## The leading blocks -/

theorem sum_leading {k : Nat} (hk : k ≤ m) (j : Fin k) (f : Fin m → ℝ) :
    ∑ a : Fin k with a < j, f (Fin.castLE hk a) = ∑ a : Fin m with a < Fin.castLE hk j, f a := by
  refine Finset.sum_nbij (Fin.castLE hk) (fun a ha => ?_) (fun a _ b _ h => Fin.castLE_injective hk h) (fun a ha => ?_) fun _ _ => rfl
  · simp only [mem_filter, mem_univ, true_and] at ha ⊢
    exact ha
  · have ha' : a < Fin.castLE hk j := by simpa using ha
    exact ⟨⟨a.1, lt_trans (show a.1 < j.1 from ha') j.2⟩, by simpa using (show _ < j from ha'), rfl⟩

theorem rowMajor_reps (S : Matrix (Fin m) (Fin m) ℝ) : (⟨Spec.rowMajor S⟩ : Mat m m ℝ).Reps S := by
  intro i j
  have := flatten_ofFn_getElem? (fun i : Fin m => List.ofFn fun j : Fin m => S i j) (by simp) i j j.2
  rw [show (⟨Spec.rowMajor S⟩ : Mat m m ℝ).data = (List.ofFn fun i : Fin m => List.ofFn fun j : Fin m => S i j).flatten from rfl, this]
  simp

theorem leading_mul {W : Matrix (Fin m) (Fin m) ℝ} (h : ∀ i j, i < j → W i j = 0) {k : Nat} (hk : k ≤ m) :
    Spec.leading W hk * (Spec.leading W hk)ᵀ = Spec.leading (W * Wᵀ) hk := by
  ext i j
  rw [lower_mul (W := Spec.leading W hk) (fun i j hij => h _ _ hij)]
  show _ = (W * Wᵀ) (Fin.castLE hk i) (Fin.castLE hk j)
  rw [lower_mul h]
  congr 1
  exact sum_leading hk j fun a => W (Fin.castLE hk i) a * W (Fin.castLE hk j) a

theorem leading_posDef {S W : Matrix (Fin m) (Fin m) ℝ} (hS : S.IsSymm) {p : Fin m} (h : Spec.Stopped S p W) :
    (Spec.leading S p.2.le).PosDef := by
  have e : Spec.leading S p.2.le = Spec.leading W p.2.le * (Spec.leading W p.2.le)ᵀ := by
    rw [leading_mul h.above]
    ext i j
    show S _ _ = (W * Wᵀ) _ _
    rcases le_total j i with hij | hij
    · exact (h.columns _ _ j.2 hij).symm
    · have h1 := h.columns (Fin.castLE p.2.le j) (Fin.castLE p.2.le i) i.2 hij
      rw [← hS.apply, ← h1]
      exact (congrFun (congrFun (by rw [Matrix.transpose_mul, Matrix.transpose_transpose] : (W * Wᵀ)ᵀ = W * Wᵀ)
        (Fin.castLE p.2.le i)) (Fin.castLE p.2.le j))
  rw [e]
  exact posDef_of_factor (isUnit_of_lower (fun i j hij => h.above _ _ hij) fun i => (h.pivots _ i.2).ne')

theorem stopped_leading {S W : Matrix (Fin m) (Fin m) ℝ} {p : Fin m} (h : Spec.Stopped S p W) :
    Spec.Stopped (Spec.leading S (show p.1 + 1 ≤ m from p.2)) (Fin.last p.1) (Spec.leading W (show p.1 + 1 ≤ m from p.2)) := by
  have hp : Fin.castLE (show p.1 + 1 ≤ m from p.2) (Fin.last p.1) = p := rfl
  have hsum : ∑ k with k < p, W p k ^ 2 = ∑ k with k < Fin.last p.1, Spec.leading W (show p.1 + 1 ≤ m from p.2) (Fin.last p.1) k ^ 2 := by
    exact (sum_leading (show p.1 + 1 ≤ m from p.2) (Fin.last p.1) fun a => W p a ^ 2).symm
  refine ⟨fun i j hij => h.above _ _ hij, fun j hj => h.pivots _ hj, fun i j hj hij => ?_, ?_, fun h0 => h.first h0, fun q hq => ?_,
    fun i j hj hij hne => h.rest _ _ hj hij fun e =>
      hne ⟨Fin.castLE_injective (show p.1 + 1 ≤ m from p.2) e.1, Fin.castLE_injective (show p.1 + 1 ≤ m from p.2) e.2⟩⟩
  · rw [leading_mul h.above]
    exact h.columns _ _ hj hij
  · rw [← hsum]; exact h.left
  · rw [← hsum]; exact h.later (Fin.castLE p.2 q) hq

theorem stopped_not_posDef {S W : Matrix (Fin m) (Fin m) ℝ} {p : Fin m} (h : Spec.Stopped S p W) : ¬ S.PosDef := by
  intro hS
  let _ := panickingReal
  have _ := panickingReal_exact
  have hm : 0 < m := Nat.lt_of_le_of_lt (Nat.zero_le _) p.2
  obtain ⟨s, hs⟩ : ∃ s : Mat m m ℝ, s.Reps S := ⟨_, rowMajor_reps S⟩
  obtain ⟨s', b, h1, _, h3, h4⟩ := chol_matrix ⟨true, false⟩ hm (PosDef.symm_real hS) hs.upper
  have hb : b = true := by
    by_contra hb
    exact h4 (by simpa using hb) hS
  obtain ⟨L, _, l2, l3, l4⟩ := h3 hb
  exact stopped_excludes (q := m) p.2 h l2 (fun j _ => l3 j) (fun i j _ _ => by rw [l4])

end Minikalman
