import Verif.Proofs.Kernels
import Mathlib.LinearAlgebra.Matrix.Notation

/-!
# Properties C01 – C13, C47: the linear matrix kernels and accessors

`T` is any type with arbitrary operations unless a (semi)ring is assumed.
`m.Reps A` says that the buffer `m` holds the matrix `A`; `m.RepsV v` that it holds the vector `v`;
`c.SameTail c'` that the length and the surplus cells of the buffer are unchanged (`Verif/Spec/Buffers.lean`).
-/

namespace Minikalman

variable {T : Type} {R C U N : Nat}

/-! ## C01 -/

/-- C01, any arithmetic: `mult` never panics on valid buffers, writes the left-to-right sums
`0 + a[i,0]*b[0,j] + ...`, does not depend on the old target and keeps its surplus. -/
theorem C01_mult_any_arithmetic [Zero T] [Add T] [Mul T] {a : Mat R C T} {b : Mat C U T} {c : Mat R U T}
    {A : Matrix (Fin R) (Fin C) T} {B : Matrix (Fin C) (Fin U) T}
    (ha : a.Reps A) (hb : b.Reps B) (hc : c.Valid) :
    ∃ c', a.mult b c = .ok c' ∧
      c'.Reps (fun i j => Fin.foldl C (fun acc k => acc + A i k * B k j) 0) ∧ c.SameTail c' :=
  Mat.mult_reps ha hb hc

/-- C01: `mult` is the matrix product over every semiring. -/
theorem C01_mult_is_product [Semiring T] {a : Mat R C T} {b : Mat C U T} {c : Mat R U T}
    {A : Matrix (Fin R) (Fin C) T} {B : Matrix (Fin C) (Fin U) T}
    (ha : a.Reps A) (hb : b.Reps B) (hc : c.Valid) :
    ∃ c', a.mult b c = .ok c' ∧ c'.Reps (A * B) ∧ c.SameTail c' := by
  rw [← mulSeq_eq_mul]; exact Mat.mult_reps ha hb hc

example : (⟨[1, 2, 3, 4, 5, 6]⟩ : Mat 2 3 ℤ).Reps !![1, 2, 3; 4, 5, 6] ∧
    (⟨[1, 0, 2, 1, 0, 3, 77]⟩ : Mat 3 2 ℤ).Reps !![1, 0; 2, 1; 0, 3] ∧
    (⟨[9, 9, 9, 9, 42]⟩ : Mat 2 2 ℤ).Valid ∧
    ((⟨[1, 2, 3, 4, 5, 6]⟩ : Mat 2 3 ℤ).mult (⟨[1, 0, 2, 1, 0, 3, 77]⟩ : Mat 3 2 ℤ) ⟨[9, 9, 9, 9, 42]⟩)
      = .ok ⟨[5, 11, 14, 23, 42]⟩ := ⟨by decide, by decide, by decide, rfl⟩

/-! ## C02 -/

/-- C02: with an auxiliary slice of `COLS` elements (or, with assertions compiled out, any longer one)
`mult_buffered` yields exactly the buffer `mult` yields, in any arithmetic and for any old contents. -/
theorem C02_multBuffered_eq_mult [Zero T] [Add T] [Mul T] (bld : Build) {a : Mat R C T} {b : Mat C U T}
    {c : Mat R U T} {aux : List T} (hC : 0 < C) (ha : a.Valid) (hb : b.Valid) (hc : c.Valid)
    (haux : aux.length = C ∨ ((bld.debugAssertions = false ∨ bld.noAssert = true) ∧ C ≤ aux.length)) :
    ∃ c' aux', a.multBuffered bld b c aux = .ok (c', aux') ∧ a.mult b c = .ok c' := by
  have hass : debugAssert bld (aux.length == C) = .ok () := by
    rcases haux with h | ⟨h | h, _⟩ <;> simp [debugAssert, h]
  have hlen : C ≤ aux.length := by rcases haux with h | ⟨_, h⟩ <;> omega
  obtain ⟨⟨c', aux'⟩, h, h1, h2, _⟩ := Mat.multBuffered_reps bld hC ha.reps hb.reps hc hlen hass
  obtain ⟨c'', h', h1', h2'⟩ := Mat.mult_reps ha.reps hb.reps hc
  refine ⟨c', aux', h, ?_⟩
  rw [h', Mat.ext_of_reps h1' h1 h2' h2]

/-- C02: with assertions enabled an auxiliary slice of any other length panics. -/
theorem C02_multBuffered_aux_assert [Zero T] [Add T] [Mul T] (bld : Build) (a : Mat R C T) (b : Mat C U T)
    (c : Mat R U T) (aux : List T) (hd : bld.debugAssertions = true) (hn : bld.noAssert = false)
    (haux : aux.length ≠ C) : a.multBuffered bld b c aux = .error .assertion := by
  have : debugAssert bld (aux.length == C) = .error .assertion := by simp [debugAssert, hd, hn, haux]
  unfold Mat.multBuffered
  simp [this]

/-- C02, the excluded edge: for `COLS = 0` `mult` writes zeros while `mult_buffered` panics. -/
theorem C02_multBuffered_empty_panics [Zero T] [Add T] [Mul T] (bld : Build) (a : Mat R 0 T) (b : Mat 0 (U + 1) T)
    (c : Mat R (U + 1) T) : a.multBuffered bld b c [] = .error .underflow := by
  have : debugAssert bld true = .ok () := by simp [debugAssert]
  unfold Mat.multBuffered
  simp [this, forDown, Mat.getColumnCopy, usub]

example : (⟨[1, 2, 3, 4]⟩ : Mat 2 2 ℤ).multBuffered ⟨true, false⟩ (⟨[5, 6, 7, 8]⟩ : Mat 2 2 ℤ) ⟨[0, 0, 0, 0]⟩ [31, 41]
    = .ok (⟨[19, 22, 43, 50]⟩, [5, 7]) := rfl

/-! ## C03, C04 -/

/-- C03, any arithmetic. -/
theorem C03_multRowvector_any_arithmetic [Zero T] [Add T] [Mul T] {a : Mat R (C + 1) T} {x : Mat (C + 1) 1 T}
    {c : Mat R 1 T} {A : Matrix (Fin R) (Fin (C + 1)) T} {X : Fin (C + 1) → T}
    (ha : a.Reps A) (hx : x.RepsV X) (hc : c.Valid) :
    ∃ c', a.multRowvector x c = .ok c' ∧
      c'.RepsV (fun i => Fin.foldl C (fun acc k => acc + A i k.succ * X k.succ) (A i 0 * X 0)) ∧
      c.SameTail c' :=
  Mat.multRowvector_reps (by omega) ha hx hc

/-- C03: `mult_rowvector` is the matrix-vector product over every semiring. -/
theorem C03_multRowvector_is_mulVec [Semiring T] {a : Mat R C T} {x : Mat C 1 T} {c : Mat R 1 T}
    {A : Matrix (Fin R) (Fin C) T} {X : Fin C → T} (hC : 0 < C)
    (ha : a.Reps A) (hx : x.RepsV X) (hc : c.Valid) :
    ∃ c', a.multRowvector x c = .ok c' ∧ c'.RepsV (A.mulVec X) ∧ c.SameTail c' := by
  rw [← mulVecSeq_eq_mulVec]; exact Mat.multRowvector_reps hC ha hx hc

/-- C03, the excluded edge: an empty vector panics instead of giving the zero vector. -/
theorem C03_multRowvector_empty_panics [Zero T] [Add T] [Mul T] (a : Mat R 0 T) (c : Mat R 1 T) :
    a.multRowvector ⟨[]⟩ c = .error .bounds := rfl

example : (⟨[1, 2, 3, 4, 5, 6]⟩ : Mat 2 3 ℤ).multRowvector ⟨[1, 10, 100]⟩ ⟨[7, 7, 7]⟩
    = .ok ⟨[321, 654, 7]⟩ := rfl

/-- C04, any arithmetic. -/
theorem C04_multaddRowvector_any_arithmetic [Zero T] [Add T] [Mul T] {a : Mat R (C + 1) T}
    {x : Mat (C + 1) 1 T} {c : Mat R 1 T} {A : Matrix (Fin R) (Fin (C + 1)) T} {X : Fin (C + 1) → T}
    {Y : Fin R → T} (ha : a.Reps A) (hx : x.RepsV X) (hc : c.RepsV Y) :
    ∃ c', a.multaddRowvector x c = .ok c' ∧
      c'.RepsV (fun i => Y i + Fin.foldl C (fun acc k => acc + A i k.succ * X k.succ) (A i 0 * X 0)) ∧
      c.SameTail c' :=
  Mat.multaddRowvector_reps (by omega) ha hx hc

/-- C04: `multadd_rowvector` adds the matrix-vector product. -/
theorem C04_multaddRowvector_adds_mulVec [Semiring T] {a : Mat R C T} {x : Mat C 1 T} {c : Mat R 1 T}
    {A : Matrix (Fin R) (Fin C) T} {X : Fin C → T} {Y : Fin R → T} (hC : 0 < C)
    (ha : a.Reps A) (hx : x.RepsV X) (hc : c.RepsV Y) :
    ∃ c', a.multaddRowvector x c = .ok c' ∧ c'.RepsV (Y + A.mulVec X) ∧ c.SameTail c' := by
  rw [← mulVecSeq_eq_mulVec]; exact Mat.multaddRowvector_reps hC ha hx hc

example : (⟨[1, 2, 3, 4, 5, 6]⟩ : Mat 2 3 ℤ).multaddRowvector ⟨[1, 10, 100]⟩ ⟨[7, 7, 7]⟩
    = .ok ⟨[328, 661, 7]⟩ := rfl

/-! ## C05, C06 -/

/-- C05, any arithmetic. -/
theorem C05_multTransb_any_arithmetic [Zero T] [Add T] [Mul T] {a : Mat R C T} {b : Mat U C T} {c : Mat R U T}
    {A : Matrix (Fin R) (Fin C) T} {B : Matrix (Fin U) (Fin C) T}
    (ha : a.Reps A) (hb : b.Reps B) (hc : c.Valid) :
    ∃ c', a.multTransb b c = .ok c' ∧
      c'.Reps (fun i j => Fin.foldl C (fun acc k => acc + A i k * B j k) 0) ∧ c.SameTail c' :=
  Mat.multTransb_reps ha hb hc

/-- C05: `mult_transb` is `A * Bᵀ` over every semiring. -/
theorem C05_multTransb_is_product [Semiring T] {a : Mat R C T} {b : Mat U C T} {c : Mat R U T}
    {A : Matrix (Fin R) (Fin C) T} {B : Matrix (Fin U) (Fin C) T}
    (ha : a.Reps A) (hb : b.Reps B) (hc : c.Valid) :
    ∃ c', a.multTransb b c = .ok c' ∧ c'.Reps (A * B.transpose) ∧ c.SameTail c' := by
  rw [← mulSeq_eq_mul]; exact Mat.multTransb_reps ha hb hc

/-- C05: bit-for-bit agreement with `mult` on an explicitly transposed copy of `B`, in any arithmetic. -/
theorem C05_multTransb_eq_mult_transposed [Zero T] [Add T] [Mul T] {a : Mat R C T} {b : Mat U C T}
    {bt : Mat C U T} {c : Mat R U T} {B : Matrix (Fin U) (Fin C) T}
    (ha : a.Valid) (hb : b.Reps B) (hbt : bt.Reps B.transpose) (hc : c.Valid) :
    a.multTransb b c = a.mult bt c := by
  obtain ⟨c', h, h1, h2⟩ := Mat.multTransb_reps ha.reps hb hc
  obtain ⟨c'', h', h1', h2'⟩ := Mat.mult_reps ha.reps hbt hc
  rw [h, h', Mat.ext_of_reps h1 h1' h2 h2']

example : (⟨[1, 2, 3, 4, 5, 6]⟩ : Mat 2 3 ℤ).multTransb (⟨[1, 2, 0, 0, 1, 3]⟩ : Mat 2 3 ℤ) ⟨[9, 9, 9, 9, 42]⟩
      = .ok ⟨[5, 11, 14, 23, 42]⟩ ∧
    (⟨[1, 2, 0, 0, 1, 3]⟩ : Mat 2 3 ℤ).Reps !![1, 2, 0; 0, 1, 3] ∧
    (⟨[1, 0, 2, 1, 0, 3]⟩ : Mat 3 2 ℤ).Reps (Matrix.transpose !![1, 2, 0; 0, 1, 3]) :=
  ⟨rfl, by decide, by decide⟩

/-- C06, any arithmetic: `multadd_transb`. -/
theorem C06_multaddTransb_any_arithmetic [Zero T] [Add T] [Mul T] {a : Mat R C T} {b : Mat U C T}
    {c : Mat R U T} {A : Matrix (Fin R) (Fin C) T} {B : Matrix (Fin U) (Fin C) T}
    {D : Matrix (Fin R) (Fin U) T} (ha : a.Reps A) (hb : b.Reps B) (hc : c.Reps D) :
    ∃ c', a.multaddTransb b c = .ok c' ∧
      c'.Reps (fun i j => D i j + Fin.foldl C (fun acc k => acc + A i k * B j k) 0) ∧ c.SameTail c' :=
  Mat.multaddTransb_reps ha hb hc

/-- C06: `multadd_transb` adds `A * Bᵀ`. -/
theorem C06_multaddTransb_adds_product [Semiring T] {a : Mat R C T} {b : Mat U C T} {c : Mat R U T}
    {A : Matrix (Fin R) (Fin C) T} {B : Matrix (Fin U) (Fin C) T} {D : Matrix (Fin R) (Fin U) T}
    (ha : a.Reps A) (hb : b.Reps B) (hc : c.Reps D) :
    ∃ c', a.multaddTransb b c = .ok c' ∧ c'.Reps (D + A * B.transpose) ∧ c.SameTail c' := by
  rw [← mulSeq_eq_mul]; exact Mat.multaddTransb_reps ha hb hc

/-- C06, any arithmetic: `multscale_transb`. -/
theorem C06_multscaleTransb_any_arithmetic [Zero T] [Add T] [Mul T] {a : Mat R C T} {b : Mat U C T}
    {c : Mat R U T} (scale : T) {A : Matrix (Fin R) (Fin C) T} {B : Matrix (Fin U) (Fin C) T}
    (ha : a.Reps A) (hb : b.Reps B) (hc : c.Valid) :
    ∃ c', a.multscaleTransb b scale c = .ok c' ∧
      c'.Reps (fun i j => Fin.foldl C (fun acc k => acc + A i k * B j k) 0 * scale) ∧ c.SameTail c' :=
  Mat.multscaleTransb_reps scale ha hb hc

/-- C06: `multscale_transb` is `scale • (A * Bᵀ)` in a commutative ring. -/
theorem C06_multscaleTransb_is_scaled_product [CommSemiring T] {a : Mat R C T} {b : Mat U C T} {c : Mat R U T}
    (scale : T) {A : Matrix (Fin R) (Fin C) T} {B : Matrix (Fin U) (Fin C) T}
    (ha : a.Reps A) (hb : b.Reps B) (hc : c.Valid) :
    ∃ c', a.multscaleTransb b scale c = .ok c' ∧ c'.Reps (scale • (A * B.transpose)) ∧ c.SameTail c' := by
  have : scale • (A * B.transpose) = fun i j => Spec.mulSeq A B.transpose i j * scale := by
    ext i j; rw [mulSeq_eq_mul]; simp [mul_comm]
  rw [this]; exact Mat.multscaleTransb_reps scale ha hb hc

example : (⟨[1, 2, 3, 4, 5, 6]⟩ : Mat 2 3 ℤ).multaddTransb (⟨[1, 2, 0, 0, 1, 3]⟩ : Mat 2 3 ℤ) ⟨[1, 2, 3, 4, 42]⟩
      = .ok ⟨[6, 13, 17, 27, 42]⟩ ∧
    (⟨[1, 2, 3, 4, 5, 6]⟩ : Mat 2 3 ℤ).multscaleTransb (⟨[1, 2, 0, 0, 1, 3]⟩ : Mat 2 3 ℤ) 10 ⟨[1, 2, 3, 4, 42]⟩
      = .ok ⟨[50, 110, 140, 230, 42]⟩ := ⟨rfl, rfl⟩

/-! ## C07 -/

/-- C07: `sub`, any arithmetic. -/
theorem C07_sub [Zero T] [Sub T] {a b c : Mat R C T} {A B : Matrix (Fin R) (Fin C) T}
    (ha : a.Reps A) (hb : b.Reps B) (hc : c.Valid) :
    ∃ c', a.sub b c = .ok c' ∧ c'.Reps (A - B) ∧ c.SameTail c' := Mat.sub_reps ha hb hc

/-- C07: `add_inplace_b` is `b = b + a`, any arithmetic. -/
theorem C07_addInplaceB [Zero T] [Add T] {a b : Mat R C T} {A B : Matrix (Fin R) (Fin C) T}
    (ha : a.Reps A) (hb : b.Reps B) :
    ∃ b', a.addInplaceB b = .ok b' ∧ b'.Reps (B + A) ∧ b.SameTail b' := Mat.addInplaceB_reps ha hb

/-- C07: `sub_inplace_b` is `b = a - b`, any arithmetic. -/
theorem C07_subInplaceB [Zero T] [Sub T] {a b : Mat R C T} {A B : Matrix (Fin R) (Fin C) T}
    (ha : a.Reps A) (hb : b.Reps B) :
    ∃ b', a.subInplaceB b = .ok b' ∧ b'.Reps (A - B) ∧ b.SameTail b' := Mat.subInplaceB_reps ha hb

/-- C07: `add_inplace_a` is `a = a + b`, any arithmetic. -/
theorem C07_addInplaceA [Zero T] [Add T] {a b : Mat R C T} {A B : Matrix (Fin R) (Fin C) T}
    (ha : a.Reps A) (hb : b.Reps B) :
    ∃ a', a.addInplaceA b = .ok a' ∧ a'.Reps (A + B) ∧ a.SameTail a' := Mat.addInplaceA_reps ha hb

/-- C07: `sub_inplace_a` is `a = a - b`, any arithmetic. -/
theorem C07_subInplaceA [Zero T] [Sub T] {a b : Mat R C T} {A B : Matrix (Fin R) (Fin C) T}
    (ha : a.Reps A) (hb : b.Reps B) :
    ∃ a', a.subInplaceA b = .ok a' ∧ a'.Reps (A - B) ∧ a.SameTail a' := Mat.subInplaceA_reps ha hb

example : (⟨[1, 2, 3, 4]⟩ : Mat 2 2 ℤ).sub ⟨[10, 20, 30, 40]⟩ ⟨[0, 0, 0, 0, 5]⟩ = .ok ⟨[-9, -18, -27, -36, 5]⟩ ∧
    (⟨[1, 2, 3, 4]⟩ : Mat 2 2 ℤ).addInplaceB ⟨[10, 20, 30, 40, 5]⟩ = .ok ⟨[11, 22, 33, 44, 5]⟩ ∧
    (⟨[1, 2, 3, 4]⟩ : Mat 2 2 ℤ).subInplaceB ⟨[10, 20, 30, 40, 5]⟩ = .ok ⟨[-9, -18, -27, -36, 5]⟩ ∧
    (⟨[1, 2, 3, 4, 6]⟩ : Mat 2 2 ℤ).addInplaceA ⟨[10, 20, 30, 40, 5]⟩ = .ok ⟨[11, 22, 33, 44, 6]⟩ ∧
    (⟨[1, 2, 3, 4, 6]⟩ : Mat 2 2 ℤ).subInplaceA ⟨[10, 20, 30, 40, 5]⟩ = .ok ⟨[-9, -18, -27, -36, 6]⟩ :=
  ⟨rfl, rfl, rfl, rfl, rfl⟩

/-! ## C08, C09, C10 -/

/-- C08: `copy_to` copies exactly the matrix. -/
theorem C08_copyTo {a b : Mat R C T} {A : Matrix (Fin R) (Fin C) T} (hpos : 0 < R * C) (ha : a.Reps A)
    (hb : b.Valid) : ∃ b', a.copyTo b = .ok b' ∧ b'.Reps A ∧ b.SameTail b' :=
  Mat.copyTo_reps hpos ha hb

/-- C08: `copy` and `copy_from`. -/
theorem C08_copy_copyFrom {a b : Mat R C T} {A : Matrix (Fin R) (Fin C) T} (hpos : 0 < R * C) (ha : a.Reps A)
    (hb : b.Valid) :
    (∃ b', a.copy b = .ok b' ∧ b'.Reps A ∧ b.SameTail b') ∧
    (∃ b', b.copyFrom a = .ok b' ∧ b'.Reps A ∧ b.SameTail b') :=
  ⟨Mat.copyTo_reps hpos ha hb, Mat.copyTo_reps hpos ha hb⟩

/-- C08, the edge: copying an empty matrix panics. -/
theorem C08_copyTo_empty_panics (h : R * C = 0) (a b : Mat R C T) : a.copyTo b = .error .underflow := by
  unfold Mat.copyTo
  simp [Mat.len, h, usub]

example : (⟨[1, 2, 3, 4, 5]⟩ : Mat 2 2 ℤ).copyTo ⟨[0, 0, 0, 0, 7]⟩ = .ok ⟨[1, 2, 3, 4, 7]⟩ := rfl

/-- C09: `get_column_copy` copies the column and nothing else. -/
theorem C09_getColumnCopy {m : Mat R C T} {A : Matrix (Fin R) (Fin C) T} (hR : 0 < R) (hm : m.Reps A)
    (column : Fin C) {dst : List T} (hdst : R ≤ dst.length) :
    ∃ d, m.getColumnCopy column dst = .ok d ∧ d.length = dst.length ∧
      (∀ r : Fin R, d[(r : Nat)]? = some (A r column)) ∧ ∀ k, R ≤ k → d[k]? = dst[k]? := by
  obtain ⟨d, h, hd⟩ := Mat.getColumnCopy_spec (m := m) (column := column)
    (v := fun r => if h : r < R then A ⟨r, h⟩ column else A ⟨0, hR⟩ column) hR
    (fun r hr => by simpa [hr] using hm ⟨r, hr⟩ column) hdst
  refine ⟨d, h, hd.length, fun r => ?_, fun k hk => hd.old (by omega)⟩
  rw [hd.new r.2 (by omega)]; simp

example : (⟨[1, 2, 3, 4, 5, 6]⟩ : Mat 2 3 ℤ).getColumnCopy 1 [9, 9, 9] = .ok [2, 5, 9] := rfl

/-- C10, what the code does for every row: it copies the `COLS` consecutive cells starting at flat index
`row * (COLS - 1)`. -/
theorem C10_getRowCopy_actual {m : Mat R C T} (hC : 0 < C) {row : Nat} {dst : List T} (hdst : C ≤ dst.length)
    (hin : row * (C - 1) + C ≤ m.data.length) :
    ∃ d, m.getRowCopy row dst = .ok d ∧ d.length = dst.length ∧
      (∀ c, c < C → d[c]? = m.data[row * (C - 1) + c]?) ∧ ∀ k, C ≤ k → d[k]? = dst[k]? := by
  have hlt : ∀ c, c < C → row * (C - 1) + c < m.data.length := fun c hc => by omega
  obtain ⟨d, h, hd⟩ := Mat.getRowCopy_spec (m := m) (row := row)
    (v := fun c => if h : c < C then m.data[row * (C - 1) + c]'(hlt c h) else m.data[row * (C - 1) + 0]'(hlt 0 hC)) hC
    (fun c hc => by simp [hc, hlt c hc]) hdst
  refine ⟨d, h, hd.length, fun c hc => ?_, fun k hk => hd.old (by omega)⟩
  rw [hd.new hc (by omega)]
  simp [hc, hlt c hc]

/-- C10, full claim restricted to the first row (for the other rows it is false, see `C10_getRowCopy_wrong`). -/
theorem C10_getRowCopy_row0_partial {m : Mat R C T} {A : Matrix (Fin R) (Fin C) T} (hR : 0 < R) (hC : 0 < C)
    (hm : m.Reps A) {dst : List T} (hdst : C ≤ dst.length) :
    ∃ d, m.getRowCopy 0 dst = .ok d ∧ d.length = dst.length ∧
      (∀ c : Fin C, d[(c : Nat)]? = some (A ⟨0, hR⟩ c)) ∧ ∀ k, C ≤ k → d[k]? = dst[k]? := by
  have hv := hm.valid
  have : C ≤ R * C := Nat.le_mul_of_pos_left C hR
  obtain ⟨d, h, h1, h2, h3⟩ := C10_getRowCopy_actual (m := m) hC (row := 0) hdst
    (by unfold Mat.Valid at hv; omega)
  refine ⟨d, h, h1, fun c => ?_, h3⟩
  rw [h2 c c.2]
  simpa using hm ⟨0, hR⟩ c

/-- C10 refuted: for every shape and every row but the first there is a matrix (its cells are numbered
`0, 1, 2, ...`) for which every single entry `get_row_copy` delivers is wrong. -/
theorem C10_getRowCopy_wrong (hC : 0 < C) {row : Nat} (hrow0 : 0 < row) (hrow : row < R) :
    ∃ m : Mat R C Nat, m.Reps (fun i j => i * C + j) ∧
      ∃ d, m.getRowCopy row (List.replicate C 0) = .ok d ∧
        ∀ c : Fin C, d[(c : Nat)]? ≠ m.data[row * C + (c : Nat)]? := by
  refine ⟨⟨List.range (R * C)⟩, fun i j => ?_, ?_⟩
  · have := idx_lt i.2 j.2
    simp [List.getElem?_range this]
  · have h1 : row * (C - 1) + C ≤ R * C := by
      have h2 : row * (C - 1) ≤ row * C := Nat.mul_le_mul_left _ (by omega)
      have h3 : row * C + C ≤ R * C := by
        calc row * C + C = (row + 1) * C := by ring
          _ ≤ R * C := Nat.mul_le_mul_right _ hrow
      omega
    obtain ⟨d, h, _, h2, _⟩ := C10_getRowCopy_actual (m := (⟨List.range (R * C)⟩ : Mat R C Nat)) hC
      (row := row) (dst := List.replicate C 0) (by simp) (by simpa using h1)
    refine ⟨d, h, fun c => ?_⟩
    have hc := c.2
    rw [h2 c hc, List.getElem?_range (by omega), List.getElem?_range (idx_lt hrow hc)]
    have : row * (C - 1) + row = row * C := by
      obtain ⟨e, rfl⟩ : ∃ e, C = e + 1 := ⟨C - 1, by omega⟩
      simp; ring
    intro heq
    have := Option.some.inj heq
    omega

example : (⟨[1, 2, 3, 4]⟩ : Mat 2 2 ℤ).getRowCopy 0 [0, 0, 9] = .ok [1, 2, 9] ∧
    (⟨[1, 2, 3, 4]⟩ : Mat 2 2 ℤ).getRowCopy 1 [0, 0, 9] = .ok [2, 3, 9] := ⟨rfl, rfl⟩

/-! ## C11, C47 -/

/-- C11: `set` then `get`: the written cell has the new value, every other cell and the surplus are unchanged. -/
theorem C11_set_get {m : Mat R C T} {A : Matrix (Fin R) (Fin C) T} (hm : m.Reps A) (r : Fin R) (c : Fin C)
    (v : T) :
    ∃ m', m.set r c v = .ok m' ∧ m'.get r c = .ok v ∧
      (∀ (i : Fin R) (j : Fin C), (i, j) ≠ (r, c) → m'.get i j = .ok (A i j)) ∧ m.SameTail m' := by
  have hlt : (r : Nat) * C + c < m.data.length := lt_of_lt_of_le (idx_lt r.2 c.2) hm.valid
  refine ⟨⟨m.data.set (r * C + c) v⟩, ?_, ?_, ?_, ?_, ?_⟩
  · unfold Mat.set; rw [wr_eq hlt]; rfl
  · unfold Mat.get Mat.getAt; apply rd_eq; simp [hlt]
  · intro i j hij
    unfold Mat.get Mat.getAt
    apply rd_eq
    rw [List.getElem?_set, if_neg, hm i j]
    rw [idx_inj c.2 j.2]
    rintro ⟨h1, h2⟩
    exact hij (by rw [Prod.mk.injEq]; exact ⟨Fin.ext h1.symm, Fin.ext h2.symm⟩)
  · simp
  · intro k hk
    have := idx_lt r.2 c.2
    rw [List.getElem?_set, if_neg (by omega)]

/-- C11: `set_symmetric` writes both mirrored cells and nothing else. -/
theorem C11_setSymmetric {m : Mat N N T} {A : Matrix (Fin N) (Fin N) T} (hm : m.Reps A) (r c : Fin N) (v : T) :
    ∃ m', m.setSymmetric r c v = .ok m' ∧
      m'.Reps (fun i j => if (i = r ∧ j = c) ∨ (i = c ∧ j = r) then v else A i j) ∧ m.SameTail m' := by
  have hlt : (r : Nat) * N + c < m.data.length := lt_of_lt_of_le (idx_lt r.2 c.2) hm.valid
  have hlt' : (c : Nat) * N + r < m.data.length := lt_of_lt_of_le (idx_lt c.2 r.2) hm.valid
  refine ⟨⟨(m.data.set (r * N + c) v).set (c * N + r) v⟩, ?_, ?_, ?_, ?_⟩
  · unfold Mat.setSymmetric Mat.setAt
    rw [wr_eq hlt]
    simp only [res_bind_ok, pure, Except.pure]
    rw [wr_eq (by simpa using hlt')]
    rfl
  · intro i j
    simp only [List.getElem?_set, List.length_set, idx_inj r.2 j.2, idx_inj c.2 j.2]
    by_cases h1 : (c : Nat) = i ∧ (r : Nat) = j
    · rw [if_pos h1, if_pos hlt', if_pos (Or.inr ⟨Fin.ext h1.1.symm, Fin.ext h1.2.symm⟩)]
    · rw [if_neg h1]
      by_cases h2 : (r : Nat) = i ∧ (c : Nat) = j
      · rw [if_pos h2, if_pos hlt, if_pos (Or.inl ⟨Fin.ext h2.1.symm, Fin.ext h2.2.symm⟩)]
      · rw [if_neg h2, if_neg, hm i j]
        rintro (⟨rfl, rfl⟩ | ⟨rfl, rfl⟩)
        · exact h2 ⟨rfl, rfl⟩
        · exact h1 ⟨rfl, rfl⟩
  · simp
  · intro k hk
    have := idx_lt r.2 c.2
    have := idx_lt c.2 r.2
    rw [List.getElem?_set, if_neg (by omega), List.getElem?_set, if_neg (by omega)]

/-- C11: flat indexing and `get` agree on in-range cells, and both read the stored matrix. -/
theorem C11_index_eq_get {m : Mat R C T} {A : Matrix (Fin R) (Fin C) T} (hm : m.Reps A) (r : Fin R) (c : Fin C) :
    m.get r c = .ok (A r c) ∧ m.index ((r : Nat) * C + c) = .ok (A r c) :=
  ⟨rd_eq (hm r c), rd_eq (hm r c)⟩

/-- C11: the typed accessors agree with `get` and `set`. -/
theorem C11_typed_accessors (s : Mat 1 1 T) (rv : Mat R 1 T) (cv : Mat 1 C T) (k : Nat) (v : T) :
    s.getValue = s.get 0 0 ∧ s.setValue v = s.set 0 0 v ∧
    rv.getRow k = rv.get k 0 ∧ rv.setRow k v = rv.set k 0 v ∧ rv.getRow k = rv.index k ∧
    cv.getCol k = cv.get 0 k ∧ cv.setCol k v = cv.set 0 k v ∧ cv.getCol k = cv.index k := by
  refine ⟨rfl, rfl, rfl, rfl, ?_, rfl, rfl, ?_⟩ <;>
    simp [Mat.getRow, Mat.getCol, Mat.getAt, Mat.index]

/-- C47: an access with any row and column reads cell `row + column / COLS`, `column % COLS` of the matrix if that
cell exists, even if `column ≥ COLS`. -/
theorem C47_get_aliases {m : Mat R C T} {A : Matrix (Fin R) (Fin C) T} (hm : m.Reps A) (hC : 0 < C)
    (row column : Nat) (h : row + column / C < R) :
    m.get row column = .ok (A ⟨row + column / C, h⟩ ⟨column % C, Nat.mod_lt _ hC⟩) := by
  unfold Mat.get Mat.getAt
  apply rd_eq
  rw [← hm]
  congr 1
  have := Nat.div_add_mod' column C
  simp only [Nat.add_mul]
  omega

/-- C47: an access succeeds exactly if the flat index lies inside the buffer; a failing one is a panic. -/
theorem C47_get_ok_iff (m : Mat R C T) (row column : Nat) :
    (row * C + column < m.data.length → ∃ v, m.get row column = .ok v) ∧
    (m.data.length ≤ row * C + column → m.get row column = .error .bounds) ∧
    (∀ v, row * C + column < m.data.length → ∃ m', m.set row column v = .ok m' ∧
      m'.data = m.data.set (row * C + column) v) ∧
    (∀ v, m.data.length ≤ row * C + column → m.set row column v = .error .bounds) := by
  refine ⟨fun h => ⟨_, rd_eq (List.getElem?_eq_getElem h)⟩, fun h => rd_error h, fun v h => ?_, fun v h => ?_⟩
  · exact ⟨_, by unfold Mat.set; rw [wr_eq h]; rfl, rfl⟩
  · unfold Mat.set; rw [wr_error h]; rfl

example : (⟨[1, 2, 3, 4, 5, 6]⟩ : Mat 2 3 ℤ).get 0 4 = .ok 5 ∧
    (⟨[1, 2, 3, 4, 5, 6]⟩ : Mat 2 3 ℤ).get 1 4 = .error .bounds ∧
    (⟨[1, 2, 3, 4, 5, 6]⟩ : Mat 2 3 ℤ).set 1 1 9 = .ok ⟨[1, 2, 3, 4, 9, 6]⟩ ∧
    (⟨[1, 2, 3, 4]⟩ : Mat 2 2 ℤ).setSymmetric 0 1 9 = .ok ⟨[1, 9, 9, 4]⟩ := ⟨rfl, rfl, rfl, rfl⟩

/-! ## C12, C13 -/

/-- C12: `make_comatrix`. -/
theorem C12_makeComatrix {m : Mat N N T} (hm : m.Valid) (d o : T) :
    ∃ m', m.makeComatrix d o = .ok m' ∧ m'.Reps (fun i j => if i = j then d else o) ∧ m.SameTail m' := by
  obtain ⟨m', h, hu⟩ := Mat.makeComatrix_upd hm d o
  refine ⟨m', h, Mat.upd_reps hu hm fun i j => ?_⟩
  rw [idx_div j.2, idx_mod j.2]
  simp [Fin.ext_iff]

/-- C12: `make_identity` yields the identity matrix. -/
theorem C12_makeIdentity [Zero T] [One T] {m : Mat N N T} (hm : m.Valid) :
    ∃ m', m.makeIdentity = .ok m' ∧ m'.Reps (1 : Matrix (Fin N) (Fin N) T) ∧ m.SameTail m' := by
  have : (1 : Matrix (Fin N) (Fin N) T) = fun i j => if i = j then 1 else 0 := by
    ext i j; rw [Matrix.one_apply]
  rw [this]; exact C12_makeComatrix hm 1 0

/-- C12: `make_scalar` yields a multiple of the identity. -/
theorem C12_makeScalar [Zero T] {m : Mat N N T} (hm : m.Valid) (d : T) :
    ∃ m', m.makeScalar d = .ok m' ∧ m'.Reps (Matrix.diagonal fun _ => d) ∧ m.SameTail m' := by
  have : (Matrix.diagonal fun _ => d : Matrix (Fin N) (Fin N) T) = fun i j => if i = j then d else 0 := by
    ext i j; rw [Matrix.diagonal_apply]
  rw [this]; exact C12_makeComatrix hm d 0

/-- C12: `set_diagonal_to_scalar` changes the diagonal only. -/
theorem C12_setDiagonalToScalar {m : Mat N N T} {A : Matrix (Fin N) (Fin N) T} (hm : m.Reps A) (v : T) :
    ∃ m', m.setDiagonalToScalar v = .ok m' ∧ m'.Reps (fun i j => if i = j then v else A i j) ∧
      m.SameTail m' := by
  obtain ⟨m', h, hu⟩ := Mat.setDiagonalToScalar_upd hm.valid v
  refine ⟨m', h, fun i j => ?_, hu.length, fun k hk => hu.old (by omega)⟩
  have hlt := idx_lt i.2 j.2
  by_cases hij : i = j
  · subst hij
    rw [hu.new ⟨hlt, by rw [idx_div i.2, idx_mod i.2]⟩ (lt_of_lt_of_le hlt hm.valid)]
    simp
  · rw [hu.old, hm i j]
    · simp [hij]
    rintro ⟨_, h2⟩
    rw [idx_div j.2, idx_mod j.2] at h2
    exact hij (Fin.ext h2)

/-- C13: `set_all` sets every matrix cell and every surplus cell; the length stays. -/
theorem C13_setAll {m : Mat R C T} (hm : m.Valid) (v : T) :
    (m.setAll v).Reps (fun _ _ => v) ∧ (m.setAll v).data.length = m.data.length ∧
      ∀ k, k < m.data.length → (m.setAll v).data[k]? = some v := by
  have key : ∀ k, k < m.data.length → (m.setAll v).data[k]? = some v := by
    intro k hk
    simp [Mat.setAll, hk]
  exact ⟨fun i j => key _ (lt_of_lt_of_le (idx_lt i.2 j.2) hm), by simp [Mat.setAll], key⟩

/-- C13: `set_zero` and `clear` yield the zero matrix (and zero surplus). -/
theorem C13_setZero_clear [Zero T] {m : Mat R C T} (hm : m.Valid) :
    m.setZero.Reps (0 : Matrix (Fin R) (Fin C) T) ∧ m.clear.Reps (0 : Matrix (Fin R) (Fin C) T) ∧
      (∀ k, k < m.data.length → m.setZero.data[k]? = some 0 ∧ m.clear.data[k]? = some 0) :=
  ⟨(C13_setAll hm 0).1, (C13_setAll hm 0).1, fun k hk => ⟨(C13_setAll hm 0).2.2 k hk, (C13_setAll hm 0).2.2 k hk⟩⟩

example : (⟨[7, 7, 7, 7, 8]⟩ : Mat 2 2 ℤ).makeIdentity = .ok ⟨[1, 0, 0, 1, 8]⟩ ∧
    (⟨[7, 7, 7, 7, 8]⟩ : Mat 2 2 ℤ).makeScalar 3 = .ok ⟨[3, 0, 0, 3, 8]⟩ ∧
    (⟨[7, 7, 7, 7, 8]⟩ : Mat 2 2 ℤ).setDiagonalToScalar 3 = .ok ⟨[3, 7, 7, 3, 8]⟩ ∧
    (⟨[7, 7, 7, 7, 8]⟩ : Mat 2 2 ℤ).clear = ⟨[0, 0, 0, 0, 0]⟩ := ⟨rfl, rfl, rfl, rfl⟩

end Minikalman
