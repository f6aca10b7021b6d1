import Verif.Model.Basic

/-!
# Matrices over slices: `matrix/row_major.rs` and `matrix/traits.rs`

Paths are relative to `/repo/crates/minikalman/src`.
-/

namespace Minikalman



/-- A matrix: its backing slice. `R`, `C` are the const generics `ROWS`, `COLS`. All storages of the crate
(`matrix/data/*.rs`) and all typed buffers (`buffers/types/*.rs`) are wrappers around a slice whose length need
not be `ROWS * COLS`; `as_slice` (`matrix/row_major.rs:7`) is the field `data`. -/
structure Mat (R C : Nat) (T : Type) where
  data : List T
  deriving DecidableEq

namespace Mat

variable {T : Type} {R C U N : Nat}

/-! ## `RowMajorSequentialData` (`matrix/row_major.rs`) -/

/-- `len`, `matrix/row_major.rs:11-13`. -/
def len (_ : Mat R C T) : Nat := R * C

/-- `buffer_len`, `matrix/row_major.rs:17-19`. -/
def bufferLen (m : Mat R C T) : Nat := m.data.length

/-- `is_empty`, `matrix/row_major.rs:23-25`. -/
def isEmpty (_ : Mat R C T) : Bool := R * C == 0

/-- `is_valid`, `matrix/row_major.rs:28-30`. -/
def isValid (m : Mat R C T) : Bool := decide (m.len ≤ m.bufferLen)

/-- `get_at`, `matrix/row_major.rs:42-48`; `Matrix::get`, `matrix/traits.rs:59-64`.
`usize` overflow of the index is not modelled. -/
def getAt (m : Mat R C T) (row column : Nat) : Res T := rd m.data (row * C + column)

/-- `set_at`, `matrix/row_major.rs:68-71`. -/
def setAt (m : Mat R C T) (row column : Nat) (value : T) : Res (Mat R C T) := do
  let d ← wr m.data (row * C + column) value
  pure ⟨d⟩

/-- `Index::index`, e.g. `matrix/data/matrix_data_array.rs:77-80`. -/
def index (m : Mat R C T) (i : Nat) : Res T := rd m.data i

/-- Assignment through `IndexMut::index_mut`, e.g. `matrix/data/matrix_data_array.rs:87-90`. -/
def indexSet (m : Mat R C T) (i : Nat) (value : T) : Res (Mat R C T) := do
  let d ← wr m.data i value
  pure ⟨d⟩

/-! ## Accessors (`matrix/traits.rs`) -/

/-- `Matrix::get`, `matrix/traits.rs:59-64`. -/
def get (m : Mat R C T) (row column : Nat) : Res T := m.getAt row column

/-- `MatrixMut::set`, `matrix/traits.rs:980-983`. -/
def set (m : Mat R C T) (row column : Nat) (value : T) : Res (Mat R C T) := do
  let d ← wr m.data (row * C + column) value
  pure ⟨d⟩

/-- `MatrixMut::set_symmetric`, `matrix/traits.rs:1018-1024`. -/
def setSymmetric (m : Mat R C T) (row column : Nat) (value : T) : Res (Mat R C T) := do
  let m ← m.setAt row column value
  m.setAt column row value

/-- `MatrixMut::set_all`, `matrix/traits.rs:991-996` (`slice::fill`). -/
def setAll (m : Mat R C T) (value : T) : Mat R C T := ⟨m.data.map fun _ => value⟩

/-- `MatrixMut::set_zero`, `matrix/traits.rs:1003-1008`. -/
def setZero [Zero T] (m : Mat R C T) : Mat R C T := m.setAll 0

/-- `MatrixMut::clear`, `matrix/traits.rs:965-970`. -/
def clear [Zero T] (m : Mat R C T) : Mat R C T := m.setAll 0

/-- `Scalar::get_value`, `matrix/traits.rs:884-889`. -/
def getValue (m : Mat 1 1 T) : Res T := m.getAt 0 0

/-- `ScalarMut::set_value`, `matrix/traits.rs:917-919`. -/
def setValue (m : Mat 1 1 T) (value : T) : Res (Mat 1 1 T) := m.setAt 0 0 value

/-- `RowVector::get_row`, `matrix/traits.rs:895-900`. -/
def getRow (m : Mat R 1 T) (row : Nat) : Res T := m.getAt row 0

/-- `RowVectorMut::set_row`, `matrix/traits.rs:927-929`. -/
def setRow (m : Mat R 1 T) (row : Nat) (value : T) : Res (Mat R 1 T) := m.setAt row 0 value

/-- `ColumnVector::get_col`, `matrix/traits.rs:906-911`. -/
def getCol (m : Mat 1 C T) (column : Nat) : Res T := m.getAt 0 column

/-- `ColumnVectorMut::set_col`, `matrix/traits.rs:937-939`. -/
def setCol (m : Mat 1 C T) (column : Nat) (value : T) : Res (Mat 1 C T) := m.setAt 0 column value

/-! ## Copies -/

/-- The `while target_index != 0` loop of `get_column_copy`, `matrix/traits.rs:88-93`. The code uses `isize`; a
negative index cast to `usize` panics when used, here the subtraction itself panics. -/
def columnCopyLoop (src : List T) (stride : Nat) : Nat → Nat → List T → Res (List T)
  | 0, _, dst => .ok dst
  | t + 1, sourceIndex, dst => do
    let sourceIndex ← usub sourceIndex stride
    let v ← rd src sourceIndex
    let dst ← wr dst t v
    columnCopyLoop src stride t sourceIndex dst

/-- `Matrix::get_column_copy`, `matrix/traits.rs:73-94`. -/
def getColumnCopy (m : Mat R C T) (column : Nat) (colData : List T) : Res (List T) := do
  let targetIndex ← usub R 1
  let stride := C
  let sourceIndex := targetIndex * stride + column
  let v ← rd m.data sourceIndex
  let colData ← wr colData targetIndex v
  columnCopyLoop m.data stride targetIndex sourceIndex colData

/-- The `while target_index != 0` loop of `get_row_copy`, `matrix/traits.rs:112-116`. -/
def rowCopyLoop (src : List T) : Nat → Nat → List T → Res (List T)
  | 0, _, dst => .ok dst
  | t + 1, sourceIndex, dst => do
    let sourceIndex ← usub sourceIndex 1
    let v ← rd src sourceIndex
    let dst ← wr dst t v
    rowCopyLoop src t sourceIndex dst

/-- `Matrix::get_row_copy`, `matrix/traits.rs:103-117`; the start index is the code's
`(row + 1) * (cols - 1)`. -/
def getRowCopy (m : Mat R C T) (row : Nat) (rowData : List T) : Res (List T) := do
  let targetIndex ← usub C 1
  let c1 ← usub C 1
  let sourceIndex := (row + 1) * c1
  let v ← rd m.data sourceIndex
  let rowData ← wr rowData targetIndex v
  rowCopyLoop m.data targetIndex sourceIndex rowData

/-- `Matrix::copy_to`, `matrix/traits.rs:138-157` (the assertions compare equal const generics). -/
def copyTo (m : Mat R C T) (target : Mat R C T) : Res (Mat R C T) := do
  let count := m.len
  let last ← usub count 1
  let d ← forDown (last + 1) (fun index bdata => do
    let v ← rd m.data index
    wr bdata index v) target.data
  pure ⟨d⟩

/-- `Matrix::copy`, `matrix/traits.rs:125-131`. -/
def copy (m : Mat R C T) (target : Mat R C T) : Res (Mat R C T) := m.copyTo target

/-- `Matrix::copy_from`, `matrix/traits.rs:165-172`. -/
def copyFrom (m : Mat R C T) (source : Mat R C T) : Res (Mat R C T) := source.copyTo m

/-! ## Products -/

section Arith
variable [Zero T] [One T] [Add T] [Sub T] [Mul T] [Neg T]

/-- `Matrix::mult`, `matrix/traits.rs:296-335`. `index_a` is a running counter as in the code. -/
def mult (a : Mat R C T) (b : Mat C U T) (c : Mat R U T) : Res (Mat R U T) := do
  let arows := R
  let bcols := U
  let brows := C
  let ccols := U
  let cdata ← forDown bcols (fun j cdata => do
    let (cdata, _) ← forUp 0 arows (fun i (cdata, indexA) => do
      let (total, indexA) ← forUp 0 brows (fun k (total, indexA) => do
        let av ← rd a.data indexA
        let bv ← rd b.data (k * bcols + j)
        pure (total + av * bv, indexA + 1)) ((0 : T), indexA)
      let cdata ← wr cdata (i * ccols + j) total
      pure (cdata, indexA)) (cdata, 0)
    pure cdata) c.data
  pure ⟨cdata⟩

/-- `Matrix::mult_buffered`, `matrix/traits.rs:214-255`; the assertions other than the one on the length of the
auxiliary slice compare equal const generics. The auxiliary slice is returned as well. -/
def multBuffered (bld : Build) (a : Mat R C T) (b : Mat C U T) (c : Mat R U T) (baux : List T) :
    Res (Mat R U T × List T) := do
  let arows := R
  let brows := C
  let bcols := U
  let ccols := U
  debugAssert bld (baux.length == C)
  let (cdata, baux) ← forDown bcols (fun j (cdata, baux) => do
    let baux ← b.getColumnCopy j baux
    let (cdata, _) ← forUp 0 arows (fun i (cdata, indexA) => do
      let (total, indexA) ← forUp 0 brows (fun k (total, indexA) => do
        let av ← rd a.data indexA
        let bv ← rd baux k
        pure (total + av * bv, indexA + 1)) ((0 : T), indexA)
      let cdata ← wr cdata (i * ccols + j) total
      pure (cdata, indexA)) (cdata, 0)
    pure (cdata, baux)) (c.data, baux)
  pure (⟨cdata⟩, baux)

/-- `Matrix::mult_rowvector`, `matrix/traits.rs:345-385`. -/
def multRowvector (a : Mat R C T) (x : Mat C 1 T) (c : Mat R 1 T) : Res (Mat R 1 T) := do
  let arows := R
  let acols := C
  let b0 ← rd x.data 0
  let (cdata, _) ← forUp 0 arows (fun indexC (cdata, indexA) => do
    let a0 ← rd a.data indexA
    let (total, indexA) ← forUp 1 acols (fun j (total, indexA) => do
      let av ← rd a.data indexA
      let xv ← rd x.data j
      pure (total + av * xv, indexA + 1)) (a0 * b0, indexA + 1)
    let cdata ← wr cdata indexC total
    pure (cdata, indexA)) (c.data, 0)
  pure ⟨cdata⟩

/-- `Matrix::multadd_rowvector`, `matrix/traits.rs:397-437`. -/
def multaddRowvector (a : Mat R C T) (x : Mat C 1 T) (c : Mat R 1 T) : Res (Mat R 1 T) := do
  let arows := R
  let acols := C
  let b0 ← rd x.data 0
  let (cdata, _) ← forUp 0 arows (fun indexC (cdata, indexA) => do
    let a0 ← rd a.data indexA
    let (total, indexA) ← forUp 1 acols (fun j (total, indexA) => do
      let av ← rd a.data indexA
      let xv ← rd x.data j
      pure (total + av * xv, indexA + 1)) (a0 * b0, indexA + 1)
    let cv ← rd cdata indexC
    let cdata ← wr cdata indexC (cv + total)
    pure (cdata, indexA)) (c.data, 0)
  pure ⟨cdata⟩

/-- `Matrix::mult_transb`, `matrix/traits.rs:449-497`. The inner `while index_a < end` advances `index_a` by one per
iteration. -/
def multTransb (a : Mat R C T) (b : Mat U C T) (c : Mat R U T) : Res (Mat R U T) := do
  let arows := R
  let acols := C
  let bcols := C
  let brows := U
  let (cdata, _, _) ← forUp 0 arows (fun _ (cdata, cIndex, aIndexStart) => do
    let end_ := aIndexStart + bcols
    let (cdata, cIndex, _) ← forUp 0 brows (fun _ (cdata, cIndex, indexB) => do
      let (total, indexB) ← forUp aIndexStart end_ (fun indexA (total, indexB) => do
        let av ← rd a.data indexA
        let bv ← rd b.data indexB
        pure (total + av * bv, indexB + 1)) ((0 : T), indexB)
      let cdata ← wr cdata cIndex total
      pure (cdata, cIndex + 1, indexB)) (cdata, cIndex, 0)
    pure (cdata, cIndex, aIndexStart + acols)) (c.data, 0, 0)
  pure ⟨cdata⟩

/-- `Matrix::multadd_transb`, `matrix/traits.rs:509-557`. -/
def multaddTransb (a : Mat R C T) (b : Mat U C T) (c : Mat R U T) : Res (Mat R U T) := do
  let arows := R
  let acols := C
  let bcols := C
  let brows := U
  let (cdata, _, _) ← forUp 0 arows (fun _ (cdata, cIndex, aIndexStart) => do
    let end_ := aIndexStart + bcols
    let (cdata, cIndex, _) ← forUp 0 brows (fun _ (cdata, cIndex, indexB) => do
      let (total, indexB) ← forUp aIndexStart end_ (fun indexA (total, indexB) => do
        let av ← rd a.data indexA
        let bv ← rd b.data indexB
        pure (total + av * bv, indexB + 1)) ((0 : T), indexB)
      let cv ← rd cdata cIndex
      let cdata ← wr cdata cIndex (cv + total)
      pure (cdata, cIndex + 1, indexB)) (cdata, cIndex, 0)
    pure (cdata, cIndex, aIndexStart + acols)) (c.data, 0, 0)
  pure ⟨cdata⟩

/-- `Matrix::multscale_transb`, `matrix/traits.rs:570-620`. -/
def multscaleTransb (a : Mat R C T) (b : Mat U C T) (scale : T) (c : Mat R U T) : Res (Mat R U T) := do
  let arows := R
  let acols := C
  let bcols := C
  let brows := U
  let (cdata, _, _) ← forUp 0 arows (fun _ (cdata, cIndex, aIndexStart) => do
    let end_ := aIndexStart + bcols
    let (cdata, cIndex, _) ← forUp 0 brows (fun _ (cdata, cIndex, indexB) => do
      let (total, indexB) ← forUp aIndexStart end_ (fun indexA (total, indexB) => do
        let av ← rd a.data indexA
        let bv ← rd b.data indexB
        pure (total + av * bv, indexB + 1)) ((0 : T), indexB)
      let cdata ← wr cdata cIndex (total * scale)
      pure (cdata, cIndex + 1, indexB)) (cdata, cIndex, 0)
    pure (cdata, cIndex, aIndexStart + acols)) (c.data, 0, 0)
  pure ⟨cdata⟩

/-! ## Element-wise operations -/

/-- `Matrix::sub`, `matrix/traits.rs:630-652`: `c = a - b`. -/
def sub (a b c : Mat R C T) : Res (Mat R C T) := do
  let d ← forDown a.len (fun index cdata => do
    let av ← rd a.data index
    let bv ← rd b.data index
    wr cdata index (av - bv)) c.data
  pure ⟨d⟩

/-- `Matrix::add_inplace_b`, `matrix/traits.rs:662-682`: `b += a`. -/
def addInplaceB (a b : Mat R C T) : Res (Mat R C T) := do
  let d ← forDown a.len (fun index bdata => do
    let bv ← rd bdata index
    let av ← rd a.data index
    wr bdata index (bv + av)) b.data
  pure ⟨d⟩

/-- `Matrix::sub_inplace_b`, `matrix/traits.rs:690-710`: `b = a - b`. -/
def subInplaceB (a b : Mat R C T) : Res (Mat R C T) := do
  let d ← forDown a.len (fun index bdata => do
    let av ← rd a.data index
    let bv ← rd bdata index
    wr bdata index (av - bv)) b.data
  pure ⟨d⟩

/-- `MatrixMut::add_inplace_a`, `matrix/traits.rs:1033-1053`: `a += b`. -/
def addInplaceA (a b : Mat R C T) : Res (Mat R C T) := do
  let d ← forDown a.len (fun index adata => do
    let av ← rd adata index
    let bv ← rd b.data index
    wr adata index (av + bv)) a.data
  pure ⟨d⟩

/-- `MatrixMut::sub_inplace_a`, `matrix/traits.rs:1061-1081`: `a -= b`. -/
def subInplaceA (a b : Mat R C T) : Res (Mat R C T) := do
  let d ← forDown a.len (fun index adata => do
    let av ← rd adata index
    let bv ← rd b.data index
    wr adata index (av - bv)) a.data
  pure ⟨d⟩

/-! ## Special square matrices -/

/-- `SquareMatrixMut::make_comatrix`, `matrix/traits.rs:865-876`. -/
def makeComatrix (m : Mat N N T) (diagonal offDiagonal : T) : Res (Mat N N T) := do
  let d ← forUp 0 N (fun i data =>
    forUp 0 N (fun j data => wr data (i * N + j) (if i = j then diagonal else offDiagonal)) data) m.data
  pure ⟨d⟩

/-- `SquareMatrixMut::make_identity`, `matrix/traits.rs:826-831`. -/
def makeIdentity (m : Mat N N T) : Res (Mat N N T) := m.makeComatrix 1 0

/-- `SquareMatrixMut::make_scalar`, `matrix/traits.rs:838-843`. -/
def makeScalar (m : Mat N N T) (diagonal : T) : Res (Mat N N T) := m.makeComatrix diagonal 0

/-- `SquareMatrixMut::set_diagonal_to_scalar`, `matrix/traits.rs:849-857`. -/
def setDiagonalToScalar (m : Mat N N T) (value : T) : Res (Mat N N T) := do
  let d ← forUp 0 N (fun i data => wr data (i * N + i) value) m.data
  pure ⟨d⟩

/-! ## Cholesky decomposition and inverse -/

variable [MDT T]

/-- `MatrixMut::cholesky_decompose_lower`, `matrix/traits.rs:1119-1171`. Returns the buffer and the Boolean. The inner
`while i_el < end` starts at `i_el = i*n`, `j_el = j*n` and runs `i` times. The loop state is `(t, div_el_ii)`;
`return false` is `Ctl.ret`. -/
def choleskyDecomposeLower (bld : Build) (m : Mat R C T) : Res (Mat R C T × Bool) := do
  let n := R
  debugAssert bld (R == C)
  debugAssert bld (decide (0 < R))
  let r ← forUpR 0 n (fun i (s : List T × T) =>
    forUpR i n (fun j (s : List T × T) => do
      let t := s.1
      let sum ← rd t (i * n + j)
      let (sum, _) ← forUp (i * n) (i * n + i) (fun iEl (sum, jEl) => do
        let ti ← rd t iEl
        let tj ← rd t jEl
        pure (sum - ti * tj, jEl + 1)) (sum, j * n)
      let t ← wr t (j * n + i) (sum * s.2)
      if i = j then
        if MDT.le sum 0 then
          pure (Ctl.ret t)
        else do
          let elII ← MDT.squareRoot sum
          let t ← wr t (i * n + i) elII
          let divElII ← MDT.recip elII
          pure (Ctl.cont (t, divElII))
      else
        pure (Ctl.cont (t, s.2))) s) (m.data, (0 : T))
  match r with
  | .ret t => pure (⟨t⟩, false)
  | .cont (t, _) => do
    let t ← forUp 0 n (fun i t =>
      forUp (i + 1) n (fun j t => wr t (i * n + j) 0) t) t
    pure (⟨t⟩, true)

/-- The terms of the iterator `(lo..hi).map(|k| f(k))`, in order; a panicking term panics the whole. -/
def collect (lo hi : Nat) (f : Nat → Res T) : Res (List T) :=
  forUp lo hi (fun k l => do
    let v ← f k
    pure (l ++ [v])) []

/-- `SquareMatrix::invert_l_cholesky`, `matrix/traits.rs:769-817`. The branch `if i < j { sum = 0 }` of the second
phase (`traits.rs:802-804`) is kept although it is dead code. -/
def invertLCholesky (m : Mat N N T) (inverse : Mat N N T) : Res (Mat N N T) := do
  let n := N
  let mat := m.data
  let inv ← forUp 0 n (fun i inv => do
    let elII ← rd mat (i * n + i)
    let invElII ← MDT.recip elII
    forUp 0 (i + 1) (fun j inv => do
      let sum : T := if i = j then 1 else 0
      let terms ← collect j i (fun k => do
        let mv ← rd mat (i * n + k)
        let iv ← rd inv (j * n + k)
        pure ((-mv) * iv))
      let sum := sum + MDT.isum terms
      wr inv (j * n + i) (sum * invElII)) inv) inverse.data
  let last ← usub n 1
  let inv ← forDown (last + 1) (fun i inv => do
    let elII ← rd mat (i * n + i)
    let invElII ← MDT.recip elII
    forUp 0 (i + 1) (fun j inv => do
      let s0 ← rd inv (j * n + i)
      let sum := if i < j then 0 else s0
      let terms ← collect (i + 1) n (fun k => do
        let mv ← rd mat (k * n + i)
        let iv ← rd inv (j * n + k)
        pure ((-mv) * iv))
      let sum := sum + MDT.isum terms
      let value := sum * invElII
      let inv ← wr inv (i * n + j) value
      wr inv (j * n + i) value) inv) inv
  pure ⟨inv⟩

end Arith
end Mat
end Minikalman
