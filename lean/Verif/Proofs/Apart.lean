import Verif.Spec.Apart
import Verif.Proofs.Monotone

/-! # Two independent subsystems in one filter: helper lemmas -/

set_option linter.unusedSectionVars false

namespace Minikalman
namespace Spec

open Matrix

variable {n l m : Nat} {p : Fin n → Bool}

/-- The projection to the part. -/
def mask (p : Fin n → Bool) : Matrix (Fin n) (Fin n) ℝ := Matrix.diagonal fun i => if p i = true then 1 else 0

theorem mask_transpose (p : Fin n → Bool) : (mask p)ᵀ = mask p := Matrix.diagonal_transpose _

theorem mask_mul (M : Matrix (Fin n) (Fin l) ℝ) (i j) : (mask p * M) i j = (if p i = true then 1 else 0) * M i j :=
  Matrix.diagonal_mul _ _ _ _

theorem mul_mask (M : Matrix (Fin l) (Fin n) ℝ) (i j) : (M * mask p) i j = M i j * (if p j = true then 1 else 0) :=
  Matrix.mul_diagonal _ _ _ _

theorem blocks_iff {M : Matrix (Fin n) (Fin n) ℝ} : Blocks p M ↔ mask p * M = M * mask p := by
  constructor
  · intro h
    ext i j
    rw [mask_mul, mul_mask]
    by_cases hi : p i = p j
    · rw [hi, mul_comm]
    · rw [h i j hi, mul_zero, zero_mul]
  · intro h i j hij
    have := congrFun (congrFun h i) j
    rw [mask_mul, mul_mask] at this
    revert this hij
    cases p i <;> cases p j <;> simp [eq_comm]

theorem sameBlock_iff {M M' : Matrix (Fin n) (Fin n) ℝ} :
    SameBlock p M M' ↔ mask p * M = M * mask p ∧ mask p * M' = M' * mask p ∧ mask p * M = mask p * M' := by
  constructor
  · rintro ⟨h1, h2, h3⟩
    refine ⟨blocks_iff.1 h1, blocks_iff.1 h2, ?_⟩
    ext i j
    rw [mask_mul, mask_mul]
    cases hi : p i with
    | false => simp
    | true =>
      cases hj : p j with
      | false => rw [h1 i j (by simp [hi, hj]), h2 i j (by simp [hi, hj])]
      | true => rw [h3 i j hi hj]
  · rintro ⟨h1, h2, h3⟩
    refine ⟨blocks_iff.2 h1, blocks_iff.2 h2, fun i j hi hj => ?_⟩
    have := congrFun (congrFun h3 i) j
    rw [mask_mul, mask_mul] at this
    simpa [hi] using this

theorem sameEntries_iff {x x' : Fin n → ℝ} : SameEntries p x x' ↔ mask p *ᵥ x = mask p *ᵥ x' := by
  constructor
  · intro h
    funext i
    rw [mask, Matrix.mulVec_diagonal, Matrix.mulVec_diagonal]
    cases hi : p i with
    | false => simp
    | true => rw [h i hi]
  · intro h i hi
    have := congrFun h i
    rw [mask, Matrix.mulVec_diagonal, Matrix.mulVec_diagonal] at this
    simpa [hi] using this

theorem actsOn_true {B : Matrix (Fin n) (Fin l) ℝ} (h : ActsOn p true B) : mask p * B = B := by
  ext i j
  rw [mask_mul]
  cases hi : p i with
  | false => rw [h i j (by simp [hi])]; simp
  | true => simp

theorem actsOn_false {B : Matrix (Fin n) (Fin l) ℝ} (h : ActsOn p false B) : mask p * B = 0 := by
  ext i j
  rw [mask_mul]
  cases hi : p i with
  | false => simp
  | true => rw [h i j (by simp [hi])]; simp

theorem sees_true {H : Matrix (Fin l) (Fin n) ℝ} (h : Sees p true H) : H * mask p = H := by
  ext i j
  rw [mul_mask]
  cases hi : p j with
  | false => rw [h i j (by simp [hi])]; simp
  | true => simp

theorem sees_false {H : Matrix (Fin l) (Fin n) ℝ} (h : Sees p false H) : H * mask p = 0 := by
  ext i j
  rw [mul_mask]
  cases hi : p j with
  | false => simp
  | true => rw [h i j (by simp [hi])]; simp

/-! ## The steps -/

theorem SameBlock.symm {M M' : Matrix (Fin n) (Fin n) ℝ} (h : SameBlock p M M') : SameBlock p M' M :=
  ⟨h.right, h.left, fun i j hi hj => (h.same i j hi hj).symm⟩

theorem SameBlock.add {M M' N N' : Matrix (Fin n) (Fin n) ℝ} (h : SameBlock p M M') (h' : SameBlock p N N') :
    SameBlock p (M + N) (M' + N') :=
  ⟨fun i j hij => by rw [Matrix.add_apply, h.left i j hij, h'.left i j hij, add_zero],
    fun i j hij => by rw [Matrix.add_apply, h.right i j hij, h'.right i j hij, add_zero],
    fun i j hi hj => by rw [Matrix.add_apply, Matrix.add_apply, h.same i j hi hj, h'.same i j hi hj]⟩

theorem SameBlock.smul {M M' : Matrix (Fin n) (Fin n) ℝ} (c : ℝ) (h : SameBlock p M M') : SameBlock p (c • M) (c • M') :=
  ⟨fun i j hij => by rw [Matrix.smul_apply, h.left i j hij, smul_zero],
    fun i j hij => by rw [Matrix.smul_apply, h.right i j hij, smul_zero],
    fun i j hi hj => by rw [Matrix.smul_apply, Matrix.smul_apply, h.same i j hi hj]⟩

theorem SameBlock.trans {M M' M'' : Matrix (Fin n) (Fin n) ℝ} (h : SameBlock p M M') (h' : SameBlock p M' M'') :
    SameBlock p M M'' :=
  ⟨h.left, h'.right, fun i j hi hj => (h.same i j hi hj).trans (h'.same i j hi hj)⟩

theorem SameBlock.transpose {M M' : Matrix (Fin n) (Fin n) ℝ} (h : SameBlock p M M') : SameBlock p Mᵀ M'ᵀ :=
  ⟨fun i j hij => h.left j i hij.symm, fun i j hij => h.right j i hij.symm, fun i j hi hj => h.same j i hj hi⟩

theorem SameBlock.mul {M M' N N' : Matrix (Fin n) (Fin n) ℝ} (h : SameBlock p M M') (h' : SameBlock p N N') :
    SameBlock p (M * N) (M' * N') := by
  obtain ⟨a1, a2, a3⟩ := sameBlock_iff.1 h
  obtain ⟨b1, b2, b3⟩ := sameBlock_iff.1 h'
  refine sameBlock_iff.2 ⟨?_, ?_, ?_⟩
  · rw [← Matrix.mul_assoc, a1, Matrix.mul_assoc, b1, Matrix.mul_assoc]
  · rw [← Matrix.mul_assoc, a2, Matrix.mul_assoc, b2, Matrix.mul_assoc]
  · rw [← Matrix.mul_assoc, a3, a2, Matrix.mul_assoc, b3, ← Matrix.mul_assoc, ← a2, Matrix.mul_assoc]

theorem predP_same {A A' P P' Q Q' : Matrix (Fin n) (Fin n) ℝ} (hA : SameBlock p A A') (hP : SameBlock p P P')
    (hQ : SameBlock p Q Q') : SameBlock p (predP A P Q) (predP A' P' Q') := ((hA.mul hP).mul hA.transpose).add hQ

theorem predPTuned_same {lambda : ℝ} {A A' P P' Q Q' : Matrix (Fin n) (Fin n) ℝ} (hA : SameBlock p A A') (hP : SameBlock p P P')
    (hQ : SameBlock p Q Q') : SameBlock p (predPTuned lambda A P Q) (predPTuned lambda A' P' Q') := by
  unfold predPTuned
  exact (((hA.mul hP).mul hA.transpose).smul _).add hQ

theorem mulVec_same {A A' : Matrix (Fin n) (Fin n) ℝ} {x x' : Fin n → ℝ} (hA : SameBlock p A A') (hx : SameEntries p x x') :
    SameEntries p (A *ᵥ x) (A' *ᵥ x') := by
  obtain ⟨a1, a2, a3⟩ := sameBlock_iff.1 hA
  rw [sameEntries_iff] at hx ⊢
  rw [Matrix.mulVec_mulVec, Matrix.mulVec_mulVec, a3, a2, ← Matrix.mulVec_mulVec, hx, Matrix.mulVec_mulVec]

theorem ctlP_inside {B : Matrix (Fin n) (Fin l) ℝ} {Q : Matrix (Fin l) (Fin l) ℝ} {P P' : Matrix (Fin n) (Fin n) ℝ}
    (hB : ActsOn p true B) (hP : SameBlock p P P') : SameBlock p (ctlP B Q P) (ctlP B Q P') := by
  refine hP.add (sameBlock_iff.2 ?_)
  have e := actsOn_true hB
  have e' : Bᵀ * mask p = Bᵀ := by rw [← mask_transpose, ← Matrix.transpose_mul, e]
  have : mask p * (B * Q * Bᵀ) = B * Q * Bᵀ * mask p := by
    rw [Matrix.mul_assoc B, ← Matrix.mul_assoc (mask p), e, Matrix.mul_assoc, Matrix.mul_assoc, e']
  exact ⟨this, this, rfl⟩

theorem ctlP_outside {B : Matrix (Fin n) (Fin l) ℝ} {Q : Matrix (Fin l) (Fin l) ℝ} {P P' : Matrix (Fin n) (Fin n) ℝ}
    (hB : ActsOn p false B) (hP : SameBlock p P P') : SameBlock p (ctlP B Q P) P' := by
  have : SameBlock p (B * Q * Bᵀ) 0 := by
    refine sameBlock_iff.2 ?_
    have e := actsOn_false hB
    have e' : Bᵀ * mask p = 0 := by rw [← mask_transpose, ← Matrix.transpose_mul, e, Matrix.transpose_zero]
    have h1 : mask p * (B * Q * Bᵀ) = 0 := by
      rw [Matrix.mul_assoc B, ← Matrix.mul_assoc (mask p), e, Matrix.zero_mul]
    have h2 : B * Q * Bᵀ * mask p = 0 := by rw [Matrix.mul_assoc, e', Matrix.mul_zero]
    refine ⟨h1.trans h2.symm, ?_, ?_⟩
    · rw [Matrix.mul_zero, Matrix.zero_mul]
    · rw [h1, Matrix.mul_zero]
  have h := hP.add this
  rwa [add_zero] at h

theorem ctlX_inside {B : Matrix (Fin n) (Fin l) ℝ} {u : Fin l → ℝ} {x x' : Fin n → ℝ} (hx : SameEntries p x x') :
    SameEntries p (ctlX B u x) (ctlX B u x') := fun i hi => by
  rw [ctlX, ctlX, Pi.add_apply, Pi.add_apply, hx i hi]

theorem ctlX_outside {B : Matrix (Fin n) (Fin l) ℝ} {u : Fin l → ℝ} {x x' : Fin n → ℝ} (hB : ActsOn p false B)
    (hx : SameEntries p x x') : SameEntries p (ctlX B u x) x' := fun i hi => by
  have : (B *ᵥ u) i = 0 := by
    rw [Matrix.mulVec, dotProduct]
    exact Finset.sum_eq_zero fun k _ => by rw [hB i k (by simp [hi]), zero_mul]
  rw [ctlX, Pi.add_apply, this, add_zero, hx i hi]

variable {H : Matrix (Fin m) (Fin n) ℝ} {R : Matrix (Fin m) (Fin m) ℝ} {P P' : Matrix (Fin n) (Fin n) ℝ} {x x' : Fin n → ℝ}

theorem mask_obs (b : Bool) (hH : H * mask p = if b then H else 0) : mask p * Hᵀ = if b then Hᵀ else 0 := by
  have := congrArg Matrix.transpose hH
  rw [Matrix.transpose_mul, mask_transpose] at this
  rw [this]
  cases b <;> rfl

theorem corr_outside (hH : Sees p false H) (hP : Blocks p P) : mask p * gain H P R = 0 ∧ H * P * mask p = 0 := by
  have e := sees_false hH
  have e' : mask p * Hᵀ = 0 := mask_obs false e
  have c := blocks_iff.1 hP
  constructor
  · rw [gain, ← Matrix.mul_assoc, ← Matrix.mul_assoc, c, Matrix.mul_assoc P, e', Matrix.mul_zero, Matrix.zero_mul]
  · rw [Matrix.mul_assoc, ← c, ← Matrix.mul_assoc, e, Matrix.zero_mul]

theorem corrX_outside {z : Fin m → ℝ} (hH : Sees p false H) (hP : Blocks p P) (hx : SameEntries p x x') :
    SameEntries p (corrX H P R x z) x' := by
  rw [sameEntries_iff] at hx ⊢
  rw [corrX, Matrix.mulVec_add, Matrix.mulVec_mulVec, (corr_outside hH hP).1, Matrix.zero_mulVec, add_zero, hx]

theorem corrP_outside (hH : Sees p false H) (hP : SameBlock p P P') : SameBlock p (corrP H P R) P' := by
  obtain ⟨a1, a2, a3⟩ := sameBlock_iff.1 hP
  obtain ⟨e1, e2⟩ := corr_outside (R := R) hH hP.left
  have h1 : mask p * corrP H P R = mask p * P := by
    rw [corrP, Matrix.mul_sub, Matrix.mul_assoc (gain H P R), ← Matrix.mul_assoc (mask p), e1, Matrix.zero_mul, sub_zero]
  have h2 : corrP H P R * mask p = P * mask p := by
    rw [corrP, Matrix.sub_mul, Matrix.mul_assoc (gain H P R), Matrix.mul_assoc (gain H P R), e2, Matrix.mul_zero, sub_zero]
  exact sameBlock_iff.2 ⟨by rw [h1, h2, a1], a2, h1.trans a3⟩

theorem corr_inside (hH : Sees p true H) (hP : SameBlock p P P') :
    H * P = H * P' ∧ innovCov H P R = innovCov H P' R ∧ gain H P R = gain H P' R ∧ mask p * gain H P R = gain H P R := by
  obtain ⟨a1, a2, a3⟩ := sameBlock_iff.1 hP
  have e := sees_true hH
  have e' : mask p * Hᵀ = Hᵀ := mask_obs true e
  have h1 : H * P = H * P' := by
    rw [← e, Matrix.mul_assoc, Matrix.mul_assoc, a3]
  have h2 : innovCov H P R = innovCov H P' R := by rw [innovCov, innovCov, h1]
  have h3 : P * Hᵀ = P' * Hᵀ := by
    rw [← e', ← Matrix.mul_assoc, ← Matrix.mul_assoc, ← a1, a3, a2]
  have h4 : gain H P R = gain H P' R := by
    rw [gain, gain, h2, h3]
  refine ⟨h1, h2, h4, ?_⟩
  rw [gain, ← Matrix.mul_assoc, ← Matrix.mul_assoc, a1, Matrix.mul_assoc P, e']

theorem corrX_inside {z : Fin m → ℝ} (hH : Sees p true H) (hP : SameBlock p P P') (hx : SameEntries p x x') :
    SameEntries p (corrX H P R x z) (corrX H P' R x' z) := by
  obtain ⟨_, _, h3, _⟩ := corr_inside (R := R) hH hP
  have e := sees_true hH
  have hHx : H *ᵥ x = H *ᵥ x' := by
    rw [← e, ← Matrix.mulVec_mulVec, ← Matrix.mulVec_mulVec, sameEntries_iff.1 hx]
  intro i hi
  rw [corrX, corrX, Pi.add_apply, Pi.add_apply, h3, hHx, hx i hi]

theorem corrP_inside (hH : Sees p true H) (hP : SameBlock p P P') : SameBlock p (corrP H P R) (corrP H P' R) := by
  obtain ⟨h1, _, h3, h4⟩ := corr_inside (R := R) hH hP
  have key : ∀ {P P' : Matrix (Fin n) (Fin n) ℝ}, SameBlock p P P' → Blocks p (gain H P R * H * P) := by
    intro P P' hP
    obtain ⟨_, _, _, h4⟩ := corr_inside (R := R) hH hP
    obtain ⟨a1, _, _⟩ := sameBlock_iff.1 hP
    refine blocks_iff.2 ?_
    rw [Matrix.mul_assoc, ← Matrix.mul_assoc, h4, Matrix.mul_assoc, Matrix.mul_assoc H, ← a1, ← Matrix.mul_assoc H,
      sees_true hH]
  have hb := key hP
  have hb' := key hP.symm
  refine ⟨fun i j hij => ?_, fun i j hij => ?_, fun i j hi hj => ?_⟩
  · rw [corrP, Matrix.sub_apply, hP.left i j hij, hb i j hij, sub_zero]
  · rw [corrP, Matrix.sub_apply, hP.right i j hij, hb' i j hij, sub_zero]
  · rw [corrP, corrP, Matrix.sub_apply, Matrix.sub_apply, hP.same i j hi hj, Matrix.mul_assoc, Matrix.mul_assoc, h1, h3]

/-! ## Histories -/

theorem State.Agree.symm {g : Owner} {s s' : State n ℝ} (h : s.Agree p g s') : s'.Agree p g s :=
  ⟨fun i hi => (h.x i hi).symm, h.A.symm, h.P.symm, h.Q.symm, fun i hi => (h.ctlIn i hi).symm, fun i hi => (h.obsIn i hi).symm,
    h.ctl', h.ctl, h.obs', h.obs⟩

theorem getElem?_set_or {α : Type} {l : List α} {i j : Nat} {a b : α} (h : (l.set i a)[j]? = some b) :
    (i = j ∧ b = a) ∨ (i ≠ j ∧ l[j]? = some b) := by
  by_cases hij : i = j
  · subst hij
    rw [List.getElem?_set, if_pos rfl] at h
    split_ifs at h
    exact Or.inl ⟨rfl, (Option.some.inj h).symm⟩
  · rw [List.getElem?_set_ne hij] at h
    exact Or.inr ⟨hij, h⟩

theorem global_agree {g : Owner} {s s' s1 : State n ℝ} (h : s.Agree p g s') {op op' : Op ℝ} (ho : Global p op op')
    (h1 : s.step op = some s1) : ∃ s1', s'.step op' = some s1' ∧ s1.Agree p g s1' := by
  cases ho with
  | predict =>
    cases h1
    exact ⟨_, rfl, mulVec_same h.A h.x, h.A, predP_same h.A h.P h.Q, h.Q, h.ctlIn, h.obsIn, h.ctl, h.ctl', h.obs, h.obs'⟩
  | predictTuned a =>
    cases h1
    exact ⟨_, rfl, mulVec_same h.A h.x, h.A, predPTuned_same h.A h.P h.Q, h.Q, h.ctlIn, h.obsIn, h.ctl, h.ctl', h.obs, h.obs'⟩
  | setX v v' hv => cases h1; exact ⟨_, rfl, hv, h.A, h.P, h.Q, h.ctlIn, h.obsIn, h.ctl, h.ctl', h.obs, h.obs'⟩
  | setA v v' hv => cases h1; exact ⟨_, rfl, h.x, hv, h.P, h.Q, h.ctlIn, h.obsIn, h.ctl, h.ctl', h.obs, h.obs'⟩
  | setP v v' hv => cases h1; exact ⟨_, rfl, h.x, h.A, hv, h.Q, h.ctlIn, h.obsIn, h.ctl, h.ctl', h.obs, h.obs'⟩
  | setQ v v' hv => cases h1; exact ⟨_, rfl, h.x, h.A, h.P, hv, h.ctlIn, h.obsIn, h.ctl, h.ctl', h.obs, h.obs'⟩

/-- Replacing a control of the rest. -/
theorem agree_ctl_out {g : Owner} {s s' : State n ℝ} (h : s.Agree p g s') {i : Nat} {c : (l : Nat) × Ctl n l ℝ}
    (hg : g.ctl i = false) (hB : ActsOn p false c.2.B) : State.Agree p g { s with ctl := s.ctl.set i c } s' := by
  refine ⟨h.x, h.A, h.P, h.Q, fun j hj => ?_, h.obsIn, fun j d hd => ?_, h.ctl', h.obs, h.obs'⟩
  · have : i ≠ j := fun e => by rw [e, hj] at hg; cases hg
    show s'.ctl[j]? = (s.ctl.set i c)[j]?
    rw [List.getElem?_set_ne this]
    exact h.ctlIn j hj
  · rcases getElem?_set_or hd with ⟨rfl, rfl⟩ | ⟨_, hd⟩
    · rw [hg]; exact hB
    · exact h.ctl j d hd

theorem agree_obs_out {g : Owner} {s s' : State n ℝ} (h : s.Agree p g s') {i : Nat} {c : (l : Nat) × Obs n l ℝ}
    (hg : g.obs i = false) (hB : Sees p false c.2.H) : State.Agree p g { s with obs := s.obs.set i c } s' := by
  refine ⟨h.x, h.A, h.P, h.Q, h.ctlIn, fun j hj => ?_, h.ctl, h.ctl', fun j d hd => ?_, h.obs'⟩
  · have : i ≠ j := fun e => by rw [e, hj] at hg; cases hg
    show s'.obs[j]? = (s.obs.set i c)[j]?
    rw [List.getElem?_set_ne this]
    exact h.obsIn j hj
  · rcases getElem?_set_or hd with ⟨rfl, rfl⟩ | ⟨_, hd⟩
    · rw [hg]; exact hB
    · exact h.obs j d hd

/-- Replacing a control of the part in both filters. -/
theorem agree_ctl_in {g : Owner} {s s' : State n ℝ} (h : s.Agree p g s') {i : Nat} {c d : (l : Nat) × Ctl n l ℝ}
    (hi : s.ctl[i]? = some d) (hg : g.ctl i = true) (hB : ActsOn p true c.2.B) :
    State.Agree p g { s with ctl := s.ctl.set i c } { s' with ctl := s'.ctl.set i c } := by
  have hi' := (h.ctlIn i hg).trans hi
  refine ⟨h.x, h.A, h.P, h.Q, fun j hj => ?_, h.obsIn, fun j d hd => ?_, fun j d hd => ?_, h.obs, h.obs'⟩
  · show (s'.ctl.set i c)[j]? = (s.ctl.set i c)[j]?
    by_cases e : i = j
    · subst e
      rw [List.getElem?_set_self (List.getElem?_eq_some_iff.1 hi').1, List.getElem?_set_self (List.getElem?_eq_some_iff.1 hi).1]
    · rw [List.getElem?_set_ne e, List.getElem?_set_ne e]
      exact h.ctlIn j hj
  · rcases getElem?_set_or hd with ⟨rfl, rfl⟩ | ⟨_, hd⟩
    · rw [hg]; exact hB
    · exact h.ctl j d hd
  · rcases getElem?_set_or hd with ⟨rfl, rfl⟩ | ⟨_, hd⟩
    · rw [hg]; exact hB
    · exact h.ctl' j d hd

theorem agree_obs_in {g : Owner} {s s' : State n ℝ} (h : s.Agree p g s') {i : Nat} {c d : (l : Nat) × Obs n l ℝ}
    (hi : s.obs[i]? = some d) (hg : g.obs i = true) (hB : Sees p true c.2.H) :
    State.Agree p g { s with obs := s.obs.set i c } { s' with obs := s'.obs.set i c } := by
  have hi' := (h.obsIn i hg).trans hi
  refine ⟨h.x, h.A, h.P, h.Q, h.ctlIn, fun j hj => ?_, h.ctl, h.ctl', fun j d hd => ?_, fun j d hd => ?_⟩
  · show (s'.obs.set i c)[j]? = (s.obs.set i c)[j]?
    by_cases e : i = j
    · subst e
      rw [List.getElem?_set_self (List.getElem?_eq_some_iff.1 hi').1, List.getElem?_set_self (List.getElem?_eq_some_iff.1 hi).1]
    · rw [List.getElem?_set_ne e, List.getElem?_set_ne e]
      exact h.obsIn j hj
  · rcases getElem?_set_or hd with ⟨rfl, rfl⟩ | ⟨_, hd⟩
    · rw [hg]; exact hB
    · exact h.obs j d hd
  · rcases getElem?_set_or hd with ⟨rfl, rfl⟩ | ⟨_, hd⟩
    · rw [hg]; exact hB
    · exact h.obs' j d hd

theorem outside_agree {g : Owner} {s s' s1 : State n ℝ} (h : s.Agree p g s') {op : Op ℝ}
    (ho : Local p g false (s.ctl.map Sigma.fst) (s.obs.map Sigma.fst) op) (h1 : s.step op = some s1) : s1.Agree p g s' := by
  cases op with
  | control i =>
    obtain ⟨c, hi, rfl⟩ := option_map_some h1
    have hB := h.ctl i c hi
    rw [show g.ctl i = false from ho] at hB
    exact ⟨ctlX_outside hB h.x, h.A, ctlP_outside hB h.P, h.Q, h.ctlIn, h.obsIn, h.ctl, h.ctl', h.obs, h.obs'⟩
  | correct i =>
    obtain ⟨c, hi, rfl⟩ := option_map_some h1
    have hH := h.obs i c hi
    rw [show g.obs i = false from ho] at hH
    exact ⟨corrX_outside hH h.P.left h.x, h.A, corrP_outside hH h.P, h.Q, h.ctlIn, h.obsIn, h.ctl, h.ctl', h.obs, h.obs'⟩
  | setU i v =>
    obtain ⟨c, hi, rfl⟩ := option_map_some h1
    have hB := h.ctl i c hi
    rw [show g.ctl i = false from ho] at hB
    exact agree_ctl_out h ho hB
  | setB i v =>
    obtain ⟨c, hi, rfl⟩ := option_map_some h1
    exact agree_ctl_out h ho.1 (ho.2 c.1 (by rw [List.getElem?_map, hi]; rfl))
  | setQc i v =>
    obtain ⟨c, hi, rfl⟩ := option_map_some h1
    have hB := h.ctl i c hi
    rw [show g.ctl i = false from ho] at hB
    exact agree_ctl_out h ho hB
  | setZ i v =>
    obtain ⟨c, hi, rfl⟩ := option_map_some h1
    have hB := h.obs i c hi
    rw [show g.obs i = false from ho] at hB
    exact agree_obs_out h ho hB
  | setH i v =>
    obtain ⟨c, hi, rfl⟩ := option_map_some h1
    exact agree_obs_out h ho.1 (ho.2 c.1 (by rw [List.getElem?_map, hi]; rfl))
  | setR i v =>
    obtain ⟨c, hi, rfl⟩ := option_map_some h1
    have hB := h.obs i c hi
    rw [show g.obs i = false from ho] at hB
    exact agree_obs_out h ho hB
  | predict => exact ho.elim
  | predictTuned _ => exact ho.elim
  | setX _ => exact ho.elim
  | setA _ => exact ho.elim
  | setP _ => exact ho.elim
  | setQ _ => exact ho.elim

theorem inside_agree {g : Owner} {s s' s1 : State n ℝ} (h : s.Agree p g s') {op : Op ℝ}
    (ho : Local p g true (s.ctl.map Sigma.fst) (s.obs.map Sigma.fst) op) (h1 : s.step op = some s1) :
    ∃ s1', s'.step op = some s1' ∧ s1.Agree p g s1' := by
  cases op with
  | control i =>
    obtain ⟨c, hi, rfl⟩ := option_map_some h1
    have hB := h.ctl i c hi
    rw [show g.ctl i = true from ho] at hB
    have hi' := (h.ctlIn i ho).trans hi
    exact ⟨{ s' with x := ctlX c.2.B c.2.u s'.x, P := ctlP c.2.B c.2.Q s'.P }, by simp only [State.step, hi']; rfl,
      ctlX_inside h.x, h.A, ctlP_inside hB h.P, h.Q, h.ctlIn, h.obsIn, h.ctl, h.ctl', h.obs, h.obs'⟩
  | correct i =>
    obtain ⟨c, hi, rfl⟩ := option_map_some h1
    have hH := h.obs i c hi
    rw [show g.obs i = true from ho] at hH
    have hi' := (h.obsIn i ho).trans hi
    exact ⟨{ s' with x := corrX c.2.H s'.P c.2.R s'.x c.2.z, P := corrP c.2.H s'.P c.2.R },
      by simp only [State.step, hi']; rfl,
      corrX_inside hH h.P h.x, h.A, corrP_inside hH h.P, h.Q, h.ctlIn, h.obsIn, h.ctl, h.ctl', h.obs, h.obs'⟩
  | setU i v =>
    obtain ⟨c, hi, rfl⟩ := option_map_some h1
    have hB := h.ctl i c hi
    rw [show g.ctl i = true from ho] at hB
    have hi' := (h.ctlIn i ho).trans hi
    exact ⟨_, by simp only [State.step, hi']; rfl, agree_ctl_in h hi ho hB⟩
  | setB i v =>
    obtain ⟨c, hi, rfl⟩ := option_map_some h1
    have hi' := (h.ctlIn i ho.1).trans hi
    exact ⟨_, by simp only [State.step, hi']; rfl,
      agree_ctl_in h hi ho.1 (ho.2 c.1 (by rw [List.getElem?_map, hi]; rfl))⟩
  | setQc i v =>
    obtain ⟨c, hi, rfl⟩ := option_map_some h1
    have hB := h.ctl i c hi
    rw [show g.ctl i = true from ho] at hB
    have hi' := (h.ctlIn i ho).trans hi
    exact ⟨_, by simp only [State.step, hi']; rfl, agree_ctl_in h hi ho hB⟩
  | setZ i v =>
    obtain ⟨c, hi, rfl⟩ := option_map_some h1
    have hB := h.obs i c hi
    rw [show g.obs i = true from ho] at hB
    have hi' := (h.obsIn i ho).trans hi
    exact ⟨_, by simp only [State.step, hi']; rfl, agree_obs_in h hi ho hB⟩
  | setH i v =>
    obtain ⟨c, hi, rfl⟩ := option_map_some h1
    have hi' := (h.obsIn i ho.1).trans hi
    exact ⟨_, by simp only [State.step, hi']; rfl,
      agree_obs_in h hi ho.1 (ho.2 c.1 (by rw [List.getElem?_map, hi]; rfl))⟩
  | setR i v =>
    obtain ⟨c, hi, rfl⟩ := option_map_some h1
    have hB := h.obs i c hi
    rw [show g.obs i = true from ho] at hB
    have hi' := (h.obsIn i ho).trans hi
    exact ⟨_, by simp only [State.step, hi']; rfl, agree_obs_in h hi ho hB⟩
  | predict => exact ho.elim
  | predictTuned _ => exact ho.elim
  | setX _ => exact ho.elim
  | setA _ => exact ho.elim
  | setP _ => exact ho.elim
  | setQ _ => exact ho.elim

theorem run_agree {g : Owner} {s s' s1 s1' : State n ℝ} (h : s.Agree p g s') {ops ops' : List (Op ℝ)}
    (ho : OpsAgree p g (s.ctl.map Sigma.fst) (s.obs.map Sigma.fst) (s'.ctl.map Sigma.fst) (s'.obs.map Sigma.fst) ops ops')
    (h1 : s.run ops = some s1) (h1' : s'.run ops' = some s1') : s1.Agree p g s1' := by
  generalize hls : s.ctl.map Sigma.fst = ls at ho
  generalize hms : s.obs.map Sigma.fst = ms at ho
  generalize hls' : s'.ctl.map Sigma.fst = ls' at ho
  generalize hms' : s'.obs.map Sigma.fst = ms' at ho
  induction ho generalizing s s' with
  | nil => cases h1; cases h1'; exact h
  | @both op op' ops ops' ho _ ih =>
    simp only [State.run] at h1 h1'
    cases e1 : s.step op with
    | none => rw [e1] at h1; cases h1
    | some t =>
      rw [e1, Option.bind_some] at h1
      obtain ⟨t', e2, hb⟩ := global_agree h ho e1
      rw [e2, Option.bind_some] at h1'
      have d1 := spec_step_dims e1
      have d2 := spec_step_dims e2
      exact ih hb h1 h1' (d1.1.trans hls) (d1.2.trans hms) (d2.1.trans hls') (d2.2.trans hms')
  | @inside op ops ops' ho _ ih =>
    subst hls hms
    simp only [State.run] at h1 h1'
    cases e1 : s.step op with
    | none => rw [e1] at h1; cases h1
    | some t =>
      rw [e1, Option.bind_some] at h1
      obtain ⟨t', e2, hb⟩ := inside_agree h ho e1
      rw [e2, Option.bind_some] at h1'
      have d1 := spec_step_dims e1
      have d2 := spec_step_dims e2
      exact ih hb h1 h1' d1.1 d1.2 (d2.1.trans hls') (d2.2.trans hms')
  | @left op ops ops' ho _ ih =>
    subst hls hms
    simp only [State.run] at h1
    cases e1 : s.step op with
    | none => rw [e1] at h1; cases h1
    | some t =>
      rw [e1, Option.bind_some] at h1
      have d1 := spec_step_dims e1
      exact ih (outside_agree h ho e1) h1 h1' d1.1 d1.2 hls' hms'
  | @right op ops ops' ho _ ih =>
    subst hls' hms'
    simp only [State.run] at h1'
    cases e1 : s'.step op with
    | none => rw [e1] at h1'; cases h1'
    | some t =>
      rw [e1, Option.bind_some] at h1'
      have d1 := spec_step_dims e1
      exact ih (outside_agree h.symm ho e1).symm h1 h1' hls hms d1.1 d1.2

end Spec
end Minikalman
