import Verif.Proofs.Bounds

/-!
# Property C20: kernels succeed exactly on valid buffers

For nonempty dimensions every kernel returns normally if and only if all buffers involved are large enough
(`Mat.Valid` is `ROWS * COLS ≤ length`). The only other panics are those of `recip`/`square_root` of the element type.
-/

set_option linter.unusedSectionVars false

namespace Minikalman

variable {T : Type} {R C U N : Nat}

section
variable [Zero T] [One T] [Add T] [Sub T] [Mul T] [Neg T]

/-- C20 for `mult`. -/
theorem C20_mult_ok_iff (a : Mat R C T) (b : Mat C U T) (c : Mat R U T) (hR : 0 < R) (hC : 0 < C) (hU : 0 < U) :
    (∃ r, a.mult b c = .ok r) ↔ a.Valid ∧ b.Valid ∧ c.Valid :=
  ⟨fun ⟨r, hr⟩ => Mat.mult_valid hR hC hU r hr, fun ⟨ha, hb, hc⟩ =>
    let ⟨r, hr, _⟩ := Mat.mult_reps ha.reps hb.reps hc; ⟨r, hr⟩⟩

/-- C20 for `mult_rowvector`. -/
theorem C20_multRowvector_ok_iff (a : Mat R C T) (x : Mat C 1 T) (c : Mat R 1 T) (hR : 0 < R) (hC : 0 < C) :
    (∃ r, a.multRowvector x c = .ok r) ↔ a.Valid ∧ x.Valid ∧ c.Valid :=
  ⟨fun ⟨r, hr⟩ => Mat.multRowvector_valid hR hC r hr, fun ⟨ha, hb, hc⟩ =>
    let ⟨r, hr, _⟩ := Mat.multRowvector_reps hC ha.reps hb.repsV hc; ⟨r, hr⟩⟩

/-- C20 for `multadd_rowvector`. -/
theorem C20_multaddRowvector_ok_iff (a : Mat R C T) (x : Mat C 1 T) (c : Mat R 1 T) (hR : 0 < R) (hC : 0 < C) :
    (∃ r, a.multaddRowvector x c = .ok r) ↔ a.Valid ∧ x.Valid ∧ c.Valid :=
  ⟨fun ⟨r, hr⟩ => Mat.multaddRowvector_valid hR hC r hr, fun ⟨ha, hb, hc⟩ =>
    let ⟨r, hr, _⟩ := Mat.multaddRowvector_reps hC ha.reps hb.repsV hc.repsV; ⟨r, hr⟩⟩

/-- C20 for `mult_transb`. -/
theorem C20_multTransb_ok_iff (a : Mat R C T) (b : Mat U C T) (c : Mat R U T) (hR : 0 < R) (hC : 0 < C) (hU : 0 < U) :
    (∃ r, a.multTransb b c = .ok r) ↔ a.Valid ∧ b.Valid ∧ c.Valid :=
  ⟨fun ⟨r, hr⟩ => Mat.multTransb_valid hR hC hU r hr, fun ⟨ha, hb, hc⟩ =>
    let ⟨r, hr, _⟩ := Mat.multTransb_reps ha.reps hb.reps hc; ⟨r, hr⟩⟩

/-- C20 for `multadd_transb`. -/
theorem C20_multaddTransb_ok_iff (a : Mat R C T) (b : Mat U C T) (c : Mat R U T) (hR : 0 < R) (hC : 0 < C)
    (hU : 0 < U) : (∃ r, a.multaddTransb b c = .ok r) ↔ a.Valid ∧ b.Valid ∧ c.Valid :=
  ⟨fun ⟨r, hr⟩ => Mat.multaddTransb_valid hR hC hU r hr, fun ⟨ha, hb, hc⟩ =>
    let ⟨r, hr, _⟩ := Mat.multaddTransb_reps ha.reps hb.reps hc.reps; ⟨r, hr⟩⟩

/-- C20 for `multscale_transb`. -/
theorem C20_multscaleTransb_ok_iff (a : Mat R C T) (b : Mat U C T) (scale : T) (c : Mat R U T) (hR : 0 < R)
    (hC : 0 < C) (hU : 0 < U) : (∃ r, a.multscaleTransb b scale c = .ok r) ↔ a.Valid ∧ b.Valid ∧ c.Valid :=
  ⟨fun ⟨r, hr⟩ => Mat.multscaleTransb_valid hR hC hU r hr, fun ⟨ha, hb, hc⟩ =>
    let ⟨r, hr, _⟩ := Mat.multscaleTransb_reps scale ha.reps hb.reps hc; ⟨r, hr⟩⟩

/-- C20 for `copy_to`: an empty matrix panics as well. -/
theorem C20_copyTo_ok_iff (a b : Mat R C T) : (∃ r, a.copyTo b = .ok r) ↔ 0 < R * C ∧ a.Valid ∧ b.Valid :=
  ⟨fun ⟨r, hr⟩ => Mat.copyTo_valid r hr, fun ⟨h, ha, hb⟩ =>
    let ⟨r, hr, _⟩ := Mat.copyTo_reps h ha.reps hb; ⟨r, hr⟩⟩

/-- C20 for `sub`. -/
theorem C20_sub_ok_iff (a b c : Mat R C T) (hpos : 0 < R * C) :
    (∃ r, a.sub b c = .ok r) ↔ a.Valid ∧ b.Valid ∧ c.Valid :=
  ⟨fun ⟨r, hr⟩ => Mat.sub_valid hpos r hr, fun ⟨ha, hb, hc⟩ =>
    let ⟨r, hr, _⟩ := Mat.sub_reps ha.reps hb.reps hc; ⟨r, hr⟩⟩

/-- C20 for the in-place additions and subtractions. -/
theorem C20_inplace_ok_iff (a b : Mat R C T) (hpos : 0 < R * C) :
    ((∃ r, a.addInplaceA b = .ok r) ↔ a.Valid ∧ b.Valid) ∧ ((∃ r, a.subInplaceA b = .ok r) ↔ a.Valid ∧ b.Valid) ∧
    ((∃ r, a.addInplaceB b = .ok r) ↔ a.Valid ∧ b.Valid) ∧ ((∃ r, a.subInplaceB b = .ok r) ↔ a.Valid ∧ b.Valid) :=
  ⟨⟨fun ⟨r, hr⟩ => Mat.addInplaceA_valid hpos r hr, fun ⟨ha, hb⟩ =>
      let ⟨r, hr, _⟩ := Mat.addInplaceA_reps ha.reps hb.reps; ⟨r, hr⟩⟩,
   ⟨fun ⟨r, hr⟩ => Mat.subInplaceA_valid hpos r hr, fun ⟨ha, hb⟩ =>
      let ⟨r, hr, _⟩ := Mat.subInplaceA_reps ha.reps hb.reps; ⟨r, hr⟩⟩,
   ⟨fun ⟨r, hr⟩ => Mat.addInplaceB_valid hpos r hr, fun ⟨ha, hb⟩ =>
      let ⟨r, hr, _⟩ := Mat.addInplaceB_reps ha.reps hb.reps; ⟨r, hr⟩⟩,
   ⟨fun ⟨r, hr⟩ => Mat.subInplaceB_valid hpos r hr, fun ⟨ha, hb⟩ =>
      let ⟨r, hr, _⟩ := Mat.subInplaceB_reps ha.reps hb.reps; ⟨r, hr⟩⟩⟩

/-- C20 for the special square matrices. -/
theorem C20_square_ok_iff (m : Mat N N T) (hN : 0 < N) (d o : T) :
    ((∃ r, m.makeComatrix d o = .ok r) ↔ m.Valid) ∧ ((∃ r, m.setDiagonalToScalar d = .ok r) ↔ m.Valid) ∧
    ((∃ r, m.makeIdentity = .ok r) ↔ m.Valid) ∧ ((∃ r, m.makeScalar d = .ok r) ↔ m.Valid) := by
  have h : ∀ d o : T, (∃ r, m.makeComatrix d o = .ok r) ↔ m.Valid := fun d o =>
    ⟨fun ⟨r, hr⟩ => Mat.makeComatrix_valid hN d o r hr, fun hm =>
      let ⟨r, hr, _⟩ := Mat.makeComatrix_upd hm d o; ⟨r, hr⟩⟩
  exact ⟨h d o, ⟨fun ⟨r, hr⟩ => Mat.setDiagonalToScalar_valid hN d r hr, fun hm =>
    let ⟨r, hr, _⟩ := Mat.setDiagonalToScalar_upd hm d; ⟨r, hr⟩⟩, h 1 0, h d 0⟩

variable [MDT T]

/-- C20 for `cholesky_decompose_lower`: on a valid buffer it panics only if `square_root` or `recip` does; a `true`
is never reported for an undersized buffer. -/
theorem C20_cholesky (bld : Build) (m : Mat N N T) (hN : 0 < N) :
    (m.Valid → ∀ e, m.choleskyDecomposeLower bld = .error e → ScalarPanic T e) ∧
    (∀ r, m.choleskyDecomposeLower bld = .ok (r, true) → m.Valid) := by
  refine ⟨fun hm e he => ?_, fun r hr => Mat.chol_valid bld hN _ hr rfl⟩
  rcases chol_safe bld hN hm with ⟨e', h1, h2⟩ | ⟨r, h1, _⟩
  · rw [he] at h1; cases h1; exact h2
  · rw [he] at h1; cases h1

/-- C20 for `invert_l_cholesky`. -/
theorem C20_invert (m inverse : Mat N N T) (hN : 0 < N) :
    (m.Valid → inverse.Valid → ∀ e, m.invertLCholesky inverse = .error e → ScalarPanic T e) ∧
    (∀ r, m.invertLCholesky inverse = .ok r → m.Valid ∧ inverse.Valid) := by
  refine ⟨fun hm hi e he => ?_, fun r hr => (Mat.invert_valid r hr).2⟩
  rcases invert_safe hN hm hi with ⟨e', h1, h2⟩ | ⟨r, h1, _⟩
  · rw [he] at h1; cases h1; exact h2
  · rw [he] at h1; cases h1

/-- C20 for `invert_l_cholesky` with non-panicking scalars. -/
theorem C20_invert_ok_iff [TotalScalar T] (m inverse : Mat N N T) (hN : 0 < N) :
    (∃ r, m.invertLCholesky inverse = .ok r) ↔ m.Valid ∧ inverse.Valid :=
  ⟨fun ⟨r, hr⟩ => (Mat.invert_valid r hr).2, fun ⟨hm, hi⟩ =>
    let ⟨r, hr, _⟩ := (invert_safe hN hm hi).holds not_scalarPanic; ⟨r, hr⟩⟩

end

/-- An undersized buffer (three cells for a 2×2 matrix) panics, the right size works. -/
example : (⟨[1, 2, 3]⟩ : Mat 2 2 Int).mult (⟨[1, 2, 3, 4]⟩ : Mat 2 2 Int) ⟨[0, 0, 0, 0]⟩ = .error .bounds ∧
    (⟨[1, 2, 3, 4]⟩ : Mat 2 2 Int).mult (⟨[1, 2, 3, 4]⟩ : Mat 2 2 Int) ⟨[0, 0, 0, 0]⟩ = .ok ⟨[7, 10, 15, 22]⟩ :=
  ⟨rfl, rfl⟩

/-- The hypothesis `true` of `C20_cholesky` is needed: a too short buffer whose first pivot fails is reported as
`false` without touching the missing cells. -/
example : (⟨[-1]⟩ : Mat 2 2 ℚ).choleskyDecomposeLower ⟨true, false⟩ = .ok (⟨[0]⟩, false) := by decide +kernel

end Minikalman
