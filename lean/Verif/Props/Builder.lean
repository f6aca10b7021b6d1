import Verif.Proofs.Builder
import Verif.Props.ExtendedHistory

/-!
# Constructors: C39, C40 (objects made by the builders), C41, C46, C48
-/

set_option linter.unusedSectionVars false

namespace Minikalman

open Matrix

variable {T σ : Type} {R C n l m : Nat}

/-! ## C39 -/

section C39
variable [Inhabited T]

/-- C39: the builder of the regular filter succeeds in every build and for every number of states; all buffers have
exactly the size of their matrix and hold `T::default()` in all cells. -/
theorem C39_regular_filter (bld : Build) :
    ∃ f : RegularKalman n T, buildRegularKalman bld = .ok f ∧ f.Filled default := buildRegularKalman_filled bld

/-- C39 for the extended filter. -/
theorem C39_extended_filter (bld : Build) :
    ∃ f : ExtendedKalman n T, buildExtendedKalman bld = .ok f ∧ f.asRegular.Filled default :=
  buildExtendedKalman_filled bld

/-- C39 for controls. -/
theorem C39_control (bld : Build) : ∃ c : Control n l T, buildControl bld = .ok c ∧ c.Filled default :=
  buildControl_filled bld

/-- C39 for observations of the regular filter. -/
theorem C39_regular_observation (bld : Build) :
    ∃ o : RegularObservation n m T, buildRegularObservation bld = .ok o ∧ o.Filled default :=
  buildRegularObservation_filled bld

/-- C39 for observations of the extended filter. -/
theorem C39_extended_observation (bld : Build) :
    ∃ o : ExtendedObservation n m T, buildExtendedObservation bld = .ok o ∧ o.asRegular.Filled default :=
  buildExtendedObservation_filled bld

/-- C39, a whole program: a filter, controls and observations of any dimensions are built, in this order, with these
dimensions, all filled with the default value. -/
theorem C39_program (bld : Build) (ctls obs : List Nat) :
    ∃ w : World n T, buildWorld bld ctls obs = .ok w ∧ w.kf.Filled default ∧
      w.ctl.map Sigma.fst = ctls ∧ (∀ c ∈ w.ctl, c.2.Filled default) ∧
      w.obs.map Sigma.fst = obs ∧ (∀ o ∈ w.obs, o.2.Filled default) := buildWorld_filled bld ctls obs

/-- C39, a whole program with an extended filter. -/
theorem C39_extended_program (bld : Build) (obs : List Nat) (env : σ) :
    ∃ w : XWorld n T σ, buildXWorld bld obs env = .ok w ∧ w.env = env ∧ w.kf.asRegular.Filled default ∧
      w.obs.map Sigma.fst = obs ∧ (∀ o ∈ w.obs, o.2.asRegular.Filled default) := buildXWorld_filled bld obs env

end C39

section Assembled

/-- C39, `RegularKalmanBuilder::new` with the user's own buffers: the buffer passed as transition matrix, state,
covariance and process noise serves in that role (the constructor does not mix up the equally sized ones), so the
filter computes with exactly these matrices. -/
theorem C39_assembled_filter {a p q tp : Mat n n T} {x px : Mat n 1 T} {X : Fin n → T} {A P Q : Matrix (Fin n) (Fin n) T}
    (hA : a.Reps A) (hx : x.RepsV X) (hP : p.Reps P) (hQ : q.Reps Q) (hpx : px.Valid) (htp : tp.Valid) :
    (RegularKalman.mkNew a x p q px tp).Reps X A P Q := ⟨hx, hA, hP, hQ, hpx, htp⟩

/-- C39, `ExtendedKalmanBuilder::new` with the user's own buffers. -/
theorem C39_assembled_extended_filter {a p q tp : Mat n n T} {x px : Mat n 1 T} {X : Fin n → T}
    {A P Q : Matrix (Fin n) (Fin n) T} (hA : a.Reps A) (hx : x.RepsV X) (hP : p.Reps P) (hQ : q.Reps Q) (hpx : px.Valid)
    (htp : tp.Valid) : (ExtendedKalman.mkNew a x p q px tp).asRegular.Reps X A P Q := ⟨hx, hA, hP, hQ, hpx, htp⟩

/-- C39, `ControlBuilder::new` with the user's own buffers. -/
theorem C39_assembled_control {b t : Mat n l T} {u : Mat l 1 T} {q : Mat l l T} {B : Matrix (Fin n) (Fin l) T}
    {U : Fin l → T} {Q : Matrix (Fin l) (Fin l) T} (hB : b.Reps B) (hu : u.RepsV U) (hQ : q.Reps Q) (ht : t.Valid) :
    (Control.mkNew b u q t).Reps B U Q := ⟨hB, hu, hQ, ht⟩

/-- C39, `RegularObservationBuilder::new` with the user's own buffers; the innovation, its covariance and the gain can
be read from the buffers passed for them. -/
theorem C39_assembled_observation {h hp : Mat m n T} {z y : Mat m 1 T} {r s si : Mat m m T} {k ph : Mat n m T}
    {khp : Mat n n T} {H : Matrix (Fin m) (Fin n) T} {Z : Fin m → T} {R : Matrix (Fin m) (Fin m) T} (hH : h.Reps H)
    (hz : z.RepsV Z) (hR : r.Reps R) (hy : y.Valid) (hs : s.Valid) (hk : k.Valid) (hsi : si.Valid) (hhp : hp.Valid)
    (hph : ph.Valid) (hkhp : khp.Valid) :
    (RegularObservation.mkNew h z r y s k si hp ph khp).Reps H Z R ∧
      (RegularObservation.mkNew h z r y s k si hp ph khp).y = y ∧
      (RegularObservation.mkNew h z r y s k si hp ph khp).S = s ∧
      (RegularObservation.mkNew h z r y s k si hp ph khp).K = k :=
  ⟨⟨hH, hz, hR, hy, hs, hk, hsi, hhp, hph, hkhp⟩, rfl, rfl, rfl⟩

/-- C39, `ExtendedObservationBuilder::new` with the user's own buffers. -/
theorem C39_assembled_extended_observation {h hp : Mat m n T} {z y : Mat m 1 T} {r s si : Mat m m T} {k ph : Mat n m T}
    {khp : Mat n n T} {H : Matrix (Fin m) (Fin n) T} {Z : Fin m → T} {R : Matrix (Fin m) (Fin m) T} (hH : h.Reps H)
    (hz : z.RepsV Z) (hR : r.Reps R) (hy : y.Valid) (hs : s.Valid) (hk : k.Valid) (hsi : si.Valid) (hhp : hp.Valid)
    (hph : ph.Valid) (hkhp : khp.Valid) :
    (ExtendedObservation.mkNew h z r y s k si hp ph khp).asRegular.Reps H Z R ∧
      (ExtendedObservation.mkNew h z r y s k si hp ph khp).y = y ∧
      (ExtendedObservation.mkNew h z r y s k si hp ph khp).S = s ∧
      (ExtendedObservation.mkNew h z r y s k si hp ph khp).K = k :=
  ⟨⟨hH, hz, hR, hy, hs, hk, hsi, hhp, hph, hkhp⟩, rfl, rfl, rfl⟩

/-- A filter assembled from four different matrices: `A = 2`, `P = 3`, `Q = 5`, and its covariance after `predict`. -/
example : ((RegularKalman.mkNew ⟨[2]⟩ ⟨[7]⟩ ⟨[3]⟩ ⟨[5]⟩ ⟨[0]⟩ ⟨[0]⟩ : RegularKalman 1 ℚ).predict.toOption.map fun f =>
    (f.x.data, f.P.data)) = some ([14], [17]) := by decide +kernel

end Assembled

/-- `Filled` says that the buffer is the list of `R * C` copies. -/
example : ((buildWorld (n := 2) ⟨true, false⟩ [1] [2, 1] : Res (World 2 ℚ)).toOption.map fun w =>
    (w.kf.P.data, w.ctl.map fun c => c.2.B.data, w.obs.map fun o => o.2.H.data)) =
    some ([0, 0, 0, 0], [[0, 0]], [[0, 0, 0, 0], [0, 0]]) := by decide +kernel

/-! ## C40: programs that start with the builders -/

section C40
variable [Inhabited T] [Zero T] [One T] [Add T] [Sub T] [Mul T] [Neg T] [MDT T]

/-- C40: a program that builds a filter with at least one state, any controls, any observations with at least one
measurement each, and then makes any well formed calls in any order never panics, if `recip` and `square_root` of the
element type do not. -/
theorem C40_built_program_never_panics [TotalScalar T] (bld : Build) (hn : 0 < n) (ctls obs : List Nat)
    (ho : ∀ m ∈ obs, 0 < m) :
    ∃ w : World n T, buildWorld bld ctls obs = .ok w ∧ w.Valid ∧
      ∀ ops : List (Op T), (∀ op ∈ ops, op.WellFormed w) → ∃ w', w.run bld ops = .ok w' ∧ w'.Valid ∧ w.SameShape w' := by
  obtain ⟨w, h1, h2⟩ := buildWorld_valid (T := T) bld hn ctls obs ho
  exact ⟨w, h1, h2, fun ops hops => C40_history_never_panics bld h2 hops⟩

/-- C40 for element types whose `recip` or `square_root` may panic: no other panic is possible. -/
theorem C40_built_program_only_scalar_panics (bld : Build) (hn : 0 < n) (ctls obs : List Nat) (ho : ∀ m ∈ obs, 0 < m) :
    ∃ w : World n T, buildWorld bld ctls obs = .ok w ∧
      ∀ ops : List (Op T), (∀ op ∈ ops, op.WellFormed w) → ∀ e, w.run bld ops = .error e → ScalarPanic T e := by
  obtain ⟨w, h1, h2⟩ := buildWorld_valid (T := T) bld hn ctls obs ho
  exact ⟨w, h1, fun ops hops e he => C40_history_only_scalar_panics bld h2 hops he⟩

/-- C40 for the extended filter, with closures that do not panic. -/
theorem C40_built_extended_program_never_panics [TotalScalar T] (bld : Build) (hn : 0 < n) (obs : List Nat) (env : σ)
    (ho : ∀ m ∈ obs, 0 < m) :
    ∃ w : XWorld n T σ, buildXWorld bld obs env = .ok w ∧ w.Valid ∧
      ∀ ops : List (XOp n T σ), (∀ op ∈ ops, op.WellFormed w) → (∀ op ∈ ops, op.KeepsLength ∧ op.Total) →
        ∃ w', w.run bld ops = .ok w' ∧ w'.Valid := by
  obtain ⟨w, h1, h2⟩ := buildXWorld_valid (T := T) bld hn obs env ho
  refine ⟨w, h1, h2, fun ops hops hk => ?_⟩
  obtain ⟨w', h3, h4, _⟩ := C55_history_never_panics bld h2 hops hk
  exact ⟨w', h3, h4⟩

end C40

/-- A history on built objects, with a correction with all-zero covariances, over a total element type. -/
example : @TotalScalar ℝ totalReal ∧ ∃ w : World 2 ℝ, buildWorld ⟨true, false⟩ [1] [1] = .ok w ∧
    ∀ op ∈ ([.setZ 0 [3], .correct 0, .predict, .control 0, .setH 0 [1, 0], .setP [1, 0, 0, 1], .correct 0] : List (Op ℝ)),
      op.WellFormed w :=
  ⟨@TotalScalar.mk ℝ totalReal (fun x => ⟨x⁻¹, rfl⟩) (fun x => ⟨Real.sqrt x, rfl⟩), _, rfl, by
    intro op hop
    simp only [List.mem_cons, List.not_mem_nil, or_false] at hop
    rcases hop with rfl | rfl | rfl | rfl | rfl | rfl | rfl <;> first | trivial | exact Nat.one_pos⟩

/-! ## C41 -/

/-- C41: `is_valid` is true exactly if the buffer has at least as many elements as the matrix has cells. -/
theorem C41_isValid_iff_length (a : Mat R C T) : a.isValid = true ↔ R * C ≤ a.data.length := by
  rw [Mat.isValid, decide_eq_true_iff]; rfl

/-- C41: `is_valid` is true exactly if every cell of the matrix can be read. -/
theorem C41_isValid_iff_get (a : Mat R C T) :
    a.isValid = true ↔ ∀ r c, r < R → c < C → ∃ v, a.get r c = .ok v := by
  rw [C41_isValid_iff_length]
  exact valid_iff_get a

/-- C41: `is_empty` is true exactly if the matrix has no cell, however long its buffer is. -/
theorem C41_isEmpty (a : Mat R C T) : a.isEmpty = true ↔ ∀ r c, ¬ (r < R ∧ c < C) := by
  have e : a.isEmpty = true ↔ R = 0 ∨ C = 0 := by simp [Mat.isEmpty]
  rw [e]
  constructor
  · rintro (rfl | rfl) r c ⟨h1, h2⟩ <;> omega
  · intro h
    by_contra h'
    exact h 0 0 (by omega)

/-- C41: with assertions compiled in, a typed buffer made from a slice that is long enough is valid and is that slice. -/
theorem C41_slice_accepted (bld : Build) {v : List T} (h : R * C ≤ v.length) :
    ∃ a : Mat R C T, bufferFromSlice bld v = .ok a ∧ a.isValid = true ∧ a.data = v :=
  ⟨⟨v⟩, by simp [bufferFromSlice, debugAssert, h, newRef], (C41_isValid_iff_length _).2 h, rfl⟩

/-- C41: with assertions compiled in, a too short slice is rejected. -/
theorem C41_slice_rejected {bld : Build} (hb : bld.Asserting) {v : List T} (h : v.length < R * C) :
    (bufferFromSlice bld v : Res (Mat R C T)) = .error .assertion := by
  simp [bufferFromSlice, debugAssert, hb.1, hb.2, h]

/-- C41: without assertions (release build or feature `no_assert`) every slice is accepted; the buffer is valid exactly
if the slice is long enough. -/
theorem C41_slice_unchecked {bld : Build} (hb : ¬ bld.Asserting) (v : List T) :
    ∃ a : Mat R C T, bufferFromSlice bld v = .ok a ∧ a.data = v ∧ (a.isValid = true ↔ R * C ≤ v.length) := by
  refine ⟨⟨v⟩, ?_, rfl, C41_isValid_iff_length _⟩
  obtain ⟨d, na⟩ := bld
  cases d <;> cases na <;> simp_all [Build.Asserting, bufferFromSlice, debugAssert, newRef]

/-- C41 for arrays `[T; TOTAL]`. -/
theorem C41_array_accepted (bld : Build) {v : List T} (h : R * C ≤ v.length) :
    ∃ a : Mat R C T, bufferFromArray bld v = .ok a ∧ a.isValid = true ∧ a.data = v :=
  ⟨⟨v⟩, by simp [bufferFromArray, debugAssert, h, newArray], (C41_isValid_iff_length _).2 h, rfl⟩

/-- C41 for arrays `[T; TOTAL]`. -/
theorem C41_array_rejected {bld : Build} (hb : bld.Asserting) {v : List T} (h : v.length < R * C) :
    (bufferFromArray bld v : Res (Mat R C T)) = .error .assertion := by
  simp [bufferFromArray, debugAssert, hb.1, hb.2, h]

/-- C41: vectors made of exactly sized arrays are valid, without any assertion. -/
theorem C41_vector_array (v : { v : List T // v.length = n }) : (vectorFromArray v).isValid = true := by
  rw [C41_isValid_iff_length, vectorFromArray, newArray, v.2, Nat.mul_one]

/-- C41: unless `no_assert` is set, `MatrixDataArray::new` and `MatrixDataBoxed::new` accept exactly the arrays with one
element per cell. -/
theorem C41_checked_storage {bld : Build} (hb : bld.noAssert = false) (v : List T) :
    ((∃ a : Mat R C T, matrixDataArrayNew bld v = .ok a) ↔ v.length = R * C) ∧
    ((∃ a : Mat R C T, newBoxed bld v = .ok a) ↔ v.length = R * C) := by
  by_cases h : v.length = R * C
  · simp [matrixDataArrayNew, newBoxed, assertUnlessNoAssert, h]
  · have h' : ¬ R * C = v.length := fun e => h e.symm
    simp [matrixDataArrayNew, newBoxed, assertUnlessNoAssert, hb, h, h']

/-- C41: `MatrixData::new` allocates a valid matrix of exactly one element per cell, all equal to the initial value. -/
theorem C41_matrix_data_new (bld : Build) (init : T) :
    ∃ a : Mat R C T, matrixDataNew bld init = .ok a ∧ a.isValid = true ∧ a.data.length = R * C ∧
      ∀ r c, r < R → c < C → a.get r c = .ok init := by
  refine ⟨⟨List.replicate (R * C) init⟩, ?_, ?_, List.length_replicate, ?_⟩
  · simp [matrixDataNew, newBoxed, assertUnlessNoAssert]
  · rw [C41_isValid_iff_length, List.length_replicate]
  · intro r c hr hc
    obtain ⟨v, hv⟩ := (C41_isValid_iff_get (⟨List.replicate (R * C) init⟩ : Mat R C T)).1
      (by rw [C41_isValid_iff_length, List.length_replicate]) r c hr hc
    have : v = init := by
      have hm : v ∈ List.replicate (R * C) init := by
        unfold Mat.get Mat.getAt rd at hv
        split at hv
        · next w hw => cases hv; exact List.mem_of_getElem? hw
        · cases hv
      exact List.eq_of_mem_replicate hm
    rw [hv, this]

/-- C41: what the constructors accept is what `into_inner` and `as_slice` return. -/
theorem C41_into_inner {bld : Build} {v : List T} {a : Mat R C T} (h : matrixDataArrayNew bld v = .ok a ∨
    newBoxed bld v = .ok a ∨ bufferFromSlice bld v = .ok a ∨ bufferFromArray bld v = .ok a) :
    intoInner a = v ∧ a.data = v := by
  suffices a = ⟨v⟩ by subst this; exact ⟨rfl, rfl⟩
  simp only [matrixDataArrayNew, newBoxed, bufferFromSlice, bufferFromArray, debugAssert, assertUnlessNoAssert] at h
  rcases h with h | h | h | h <;> (split_ifs at h <;> first | cases h; rfl | cases h)

example : (⟨true, false⟩ : Build).Asserting ∧ ¬ (⟨false, false⟩ : Build).Asserting ∧ ¬ (⟨true, true⟩ : Build).Asserting := by
  simp [Build.Asserting]

/-! ## C46 -/

/-- C46: every `size_buffer_*!` macro yields the number of cells of the matrix of its role. -/
theorem C46_sizes (n l m : Nat) (r : Role) : sizeBuffer n l m r = r.rows n l m * r.cols n l m := by
  cases r <;> simp [sizeBuffer, Role.rows, Role.cols, Nat.mul_comm]

/-- C46: every `impl_buffer_*!` macro makes an array with that many cells, all holding the given value. -/
theorem C46_statics (n l m : Nat) (init : T) (r : Role) :
    implBuffer n l m init r = List.replicate (r.rows n l m * r.cols n l m) init := by
  cases r <;> simp [implBuffer, Role.rows, Role.cols]

/-- C46: filters, controls and observations made of `impl_buffer_*!` statics have exactly sized buffers in every
role. -/
theorem C46_static_objects (init : T) :
    (staticKalman init : RegularKalman n T).Filled init ∧ (staticControl init : Control n l T).Filled init ∧
    (staticObservation init : RegularObservation n m T).Filled init := by
  refine ⟨?_, ?_, ?_⟩ <;> constructor <;> exact filled_replicate _ (by simp)

/-- C46: filters, controls and observations made of arrays with the sizes of the `size_buffer_*!` macros are accepted in
all builds and have exactly sized buffers in every role. -/
theorem C46_sliced_objects (bld : Build) (init : T) :
    (∃ f : RegularKalman n T, slicedKalman bld init = .ok f ∧ f.Filled init) ∧
    (∃ c : Control n l T, slicedControl bld init = .ok c ∧ c.Filled init) ∧
    (∃ o : RegularObservation n m T, slicedObservation bld init = .ok o ∧ o.Filled init) :=
  ⟨slicedKalman_filled bld init, slicedControl_filled bld init, slicedObservation_filled bld init⟩

/-- C46: exactly sized objects with at least one state and measurement make a program that is valid, and so never panics
(C40). -/
theorem C46_static_program_valid (init : T) (hn : 0 < n) (ctls obs : List Nat) (ho : ∀ m ∈ obs, 0 < m) :
    (⟨staticKalman init, ctls.map fun l => ⟨l, staticControl init⟩, obs.map fun m => ⟨m, staticObservation init⟩⟩ :
      World n T).Valid := by
  refine ⟨hn, (C46_static_objects (l := 0) (m := 0) init).1.valid, ?_, ?_⟩
  · intro c hc
    obtain ⟨l, _, rfl⟩ := List.mem_map.1 hc
    exact (C46_static_objects (n := n) (l := l) (m := 0) init).2.1.valid
  · intro o ho'
    obtain ⟨m, hm, rfl⟩ := List.mem_map.1 ho'
    exact ⟨ho m hm, (C46_static_objects (n := n) (l := 0) (m := m) init).2.2.valid⟩

example : sizeBuffer 3 2 4 .tempHP = 12 ∧ (Role.tempHP).rows 3 2 4 = 4 ∧ (Role.tempHP).cols 3 2 4 = 3 := by decide

/-! ## C48 -/

/-- C48: nalgebra reads the same element as `get`, and reads outside the array exactly where `get` panics. -/
theorem C48_nalgebra_get (a : Mat R C T) (r c : Nat) (v : T) : nalgebraGet a r c = some v ↔ a.get r c = .ok v := by
  simp only [nalgebraGet, nalgebraLinearIndex, nalgebraRStride, nalgebraCStride, Nat.mul_one, Mat.get, Mat.getAt, rd]
  cases a.data[r * C + c]? <;> simp

/-- C48: for a valid buffer every in-range access of nalgebra is inside the array. -/
theorem C48_nalgebra_get_in_bounds {a : Mat R C T} (h : a.isValid = true) {r c : Nat} (hr : r < (nalgebraShape a).1)
    (hc : c < (nalgebraShape a).2) : nalgebraGet a r c ≠ none := by
  obtain ⟨v, hv⟩ := (C41_isValid_iff_get a).1 h r c hr hc
  rw [(C48_nalgebra_get a r c v).2 hv]; simp

/-- C48: different cells have different addresses. -/
theorem C48_nalgebra_injective (a : Mat R C T) {r c r' c' : Nat} (hc : c < C) (hc' : c' < C)
    (h : nalgebraLinearIndex a r c = nalgebraLinearIndex a r' c') : r = r' ∧ c = c' := by
  simp only [nalgebraLinearIndex, nalgebraRStride, nalgebraCStride, Nat.mul_one] at h
  have h1 : (r * C + c) % C = (r' * C + c') % C := by rw [h]
  have h2 : (r * C + c) / C = (r' * C + c') / C := by rw [h]
  have hC : 0 < C := by omega
  rw [Nat.mul_comm r, Nat.mul_comm r', Nat.mul_add_mod, Nat.mul_add_mod, Nat.mod_eq_of_lt hc, Nat.mod_eq_of_lt hc'] at h1
  rw [Nat.mul_comm r, Nat.mul_comm r', Nat.mul_add_div hC, Nat.mul_add_div hC, Nat.div_eq_of_lt hc,
    Nat.div_eq_of_lt hc'] at h2
  exact ⟨by simpa using h2, h1⟩

/-- C48: the slice of `ROWS * COLS` elements is inside the array exactly if the buffer is valid. -/
theorem C48_nalgebra_slice_iff (a : Mat R C T) : (nalgebraSlice a).isSome ↔ a.isValid = true := by
  rw [C41_isValid_iff_length, nalgebraSlice]
  split_ifs with h <;> simp [h]

/-- C48: the slice lists the cells row by row. -/
theorem C48_nalgebra_slice_row_major {a : Mat R C T} {A : Matrix (Fin R) (Fin C) T} (h : a.Reps A) (hv : a.Valid) :
    nalgebraSlice a = some (Spec.rowMajor A) := by
  rw [nalgebraSlice, if_pos (show R * C ≤ a.data.length from hv), rowMajor_eq_take h hv]

/-- C48, where the guarantee ends: the unchecked constructor makes an array of which an in-range access of nalgebra is
outside (undefined behaviour reachable from safe code: `MatrixData::new_array::<2, 2, 3, _>`); the checked constructor
rejects the same array, in debug and release builds. -/
theorem C48_unchecked_array_out_of_bounds :
    nalgebraGet (newArray [1, 2, 3] : Mat 2 2 Nat) 1 1 = none ∧ nalgebraSlice (newArray [1, 2, 3] : Mat 2 2 Nat) = none ∧
    ∀ d, (matrixDataArrayNew ⟨d, false⟩ [1, 2, 3] : Res (Mat 2 2 Nat)) = .error .assertion := by decide

/-- C48, where the guarantee ends: the slice is not in column-major order, which is the order nalgebra documents for the
slices of its matrices. -/
theorem C48_slice_not_column_major :
    nalgebraSlice (newArray [1, 2, 3, 4] : Mat 2 2 Nat) ≠
      some (Spec.columnMajor (!![1, 2; 3, 4] : Matrix (Fin 2) (Fin 2) Nat)) := by decide

end Minikalman
