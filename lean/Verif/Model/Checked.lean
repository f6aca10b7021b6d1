import Verif.Model.ExtendedWorld
import Verif.Model.FixedPoint

/-!
# The same code with element types whose every operation may panic

`MatrixDataType` (`matrix/data_type.rs:7-34`) asks for the operators of the language. In `Model/Matrix` and `Model/Filter` the
operators `+ - *` and comparisons are total; that is the language for floats, and for fixed point numbers in builds without
overflow checks. In builds with overflow checks (the default of debug builds) the operators of `fixed::types::I16F16` and `I32F32`
panic if the result leaves the range of the type, at the place where the operation is executed. This is a second model of the same
functions in which every scalar operation may panic, in the order in which the code performs them; C93 relates the two.

Paths are relative to `/repo/crates/minikalman/src`.
-/

namespace Minikalman

/-- The operations of an element type, `matrix/data_type.rs:7-34`, each of which may panic. `sumStart` is what
`core::iter::Sum` starts with. -/
structure Ops (T : Type) where
  zero : T
  one : T
  add : T → T → Res T
  sub : T → T → Res T
  mul : T → T → Res T
  neg : T → Res T
  recip : T → Res T
  squareRoot : T → Res T
  le : T → T → Res Bool
  sumStart : T

/-- A result that is only used if it is in range; overflow checks panic otherwise. -/
def FixedPoint.checked {f : Nat} (exact : Int) (r : FixedPoint f) : Res (FixedPoint f) :=
  if -2 ^ (2 * f) ≤ 2 * exact ∧ 2 * exact < 2 ^ (2 * f) then .ok r else .error .arithmetic

/-- The operators of `I16F16` (`f = 16`) and `I32F32` (`f = 32`) in builds with overflow checks: `+ - *` and negation panic if the
exact result (of the product: rounded down) is out of range, `recip` also for zero, `sqrt` for negative numbers; comparison never
panics (documentation of the crate `fixed`, version 1.23; `matrix/data_type.rs:120-148`). -/
def FixedPoint.debugOps (f : Nat) : Ops (FixedPoint f) where
  zero := 0
  one := 1
  add a b := checked (a.bits.toInt + b.bits.toInt) (a + b)
  sub a b := checked (a.bits.toInt - b.bits.toInt) (a - b)
  mul a b := checked (a.bits.toInt * b.bits.toInt / 2 ^ f) (a * b)
  neg a := checked (-a.bits.toInt) (-a)
  recip a := do
    let r ← MDT.recip a
    checked (Int.tdiv (2 ^ (2 * f)) a.bits.toInt) r
  squareRoot a := do
    let r ← MDT.squareRoot a
    checked (Nat.sqrt (a.bits.toInt.toNat * 2 ^ f)) r
  le a b := .ok (MDT.le a b)
  sumStart := 0

/-- Operators that never panic, and `recip` and `square_root` of the element type. -/
def Ops.total (T : Type) [Zero T] [One T] [Add T] [Sub T] [Mul T] [Neg T] [MDT T] (sumStart : T) : Ops T where
  zero := 0
  one := 1
  add a b := .ok (a + b)
  sub a b := .ok (a - b)
  mul a b := .ok (a * b)
  neg a := .ok (-a)
  recip := MDT.recip
  squareRoot := MDT.squareRoot
  le a b := .ok (MDT.le a b)
  sumStart := sumStart

namespace Chk

variable {T σ : Type} (o : Ops T) {R C U N n l m : Nat}

/-! ## Kernels (`matrix/traits.rs`) -/

/-- `Matrix::mult`, `matrix/traits.rs:296-335`. -/
def mult (a : Mat R C T) (b : Mat C U T) (c : Mat R U T) : Res (Mat R U T) := do
  let cdata ← forDown U (fun j cdata => do
    let (cdata, _) ← forUp 0 R (fun i (cdata, indexA) => do
      let (total, indexA) ← forUp 0 C (fun k (total, indexA) => do
        let av ← rd a.data indexA
        let bv ← rd b.data (k * U + j)
        let p ← o.mul av bv
        let total ← o.add total p
        pure (total, indexA + 1)) (o.zero, indexA)
      let cdata ← wr cdata (i * U + j) total
      pure (cdata, indexA)) (cdata, 0)
    pure cdata) c.data
  pure ⟨cdata⟩

/-- `Matrix::mult_rowvector`, `matrix/traits.rs:345-385`. -/
def multRowvector (a : Mat R C T) (x : Mat C 1 T) (c : Mat R 1 T) : Res (Mat R 1 T) := do
  let b0 ← rd x.data 0
  let (cdata, _) ← forUp 0 R (fun indexC (cdata, indexA) => do
    let a0 ← rd a.data indexA
    let p ← o.mul a0 b0
    let (total, indexA) ← forUp 1 C (fun j (total, indexA) => do
      let av ← rd a.data indexA
      let xv ← rd x.data j
      let p ← o.mul av xv
      let total ← o.add total p
      pure (total, indexA + 1)) (p, indexA + 1)
    let cdata ← wr cdata indexC total
    pure (cdata, indexA)) (c.data, 0)
  pure ⟨cdata⟩

/-- `Matrix::multadd_rowvector`, `matrix/traits.rs:397-437`. -/
def multaddRowvector (a : Mat R C T) (x : Mat C 1 T) (c : Mat R 1 T) : Res (Mat R 1 T) := do
  let b0 ← rd x.data 0
  let (cdata, _) ← forUp 0 R (fun indexC (cdata, indexA) => do
    let a0 ← rd a.data indexA
    let p ← o.mul a0 b0
    let (total, indexA) ← forUp 1 C (fun j (total, indexA) => do
      let av ← rd a.data indexA
      let xv ← rd x.data j
      let p ← o.mul av xv
      let total ← o.add total p
      pure (total, indexA + 1)) (p, indexA + 1)
    let cv ← rd cdata indexC
    let v ← o.add cv total
    let cdata ← wr cdata indexC v
    pure (cdata, indexA)) (c.data, 0)
  pure ⟨cdata⟩

/-- `Matrix::mult_transb`, `matrix/traits.rs:449-497`. -/
def multTransb (a : Mat R C T) (b : Mat U C T) (c : Mat R U T) : Res (Mat R U T) := do
  let (cdata, _, _) ← forUp 0 R (fun _ (cdata, cIndex, aIndexStart) => do
    let (cdata, cIndex, _) ← forUp 0 U (fun _ (cdata, cIndex, indexB) => do
      let (total, indexB) ← forUp aIndexStart (aIndexStart + C) (fun indexA (total, indexB) => do
        let av ← rd a.data indexA
        let bv ← rd b.data indexB
        let p ← o.mul av bv
        let total ← o.add total p
        pure (total, indexB + 1)) (o.zero, indexB)
      let cdata ← wr cdata cIndex total
      pure (cdata, cIndex + 1, indexB)) (cdata, cIndex, 0)
    pure (cdata, cIndex, aIndexStart + C)) (c.data, 0, 0)
  pure ⟨cdata⟩

/-- `Matrix::multadd_transb`, `matrix/traits.rs:509-557`. -/
def multaddTransb (a : Mat R C T) (b : Mat U C T) (c : Mat R U T) : Res (Mat R U T) := do
  let (cdata, _, _) ← forUp 0 R (fun _ (cdata, cIndex, aIndexStart) => do
    let (cdata, cIndex, _) ← forUp 0 U (fun _ (cdata, cIndex, indexB) => do
      let (total, indexB) ← forUp aIndexStart (aIndexStart + C) (fun indexA (total, indexB) => do
        let av ← rd a.data indexA
        let bv ← rd b.data indexB
        let p ← o.mul av bv
        let total ← o.add total p
        pure (total, indexB + 1)) (o.zero, indexB)
      let cv ← rd cdata cIndex
      let v ← o.add cv total
      let cdata ← wr cdata cIndex v
      pure (cdata, cIndex + 1, indexB)) (cdata, cIndex, 0)
    pure (cdata, cIndex, aIndexStart + C)) (c.data, 0, 0)
  pure ⟨cdata⟩

/-- `Matrix::multscale_transb`, `matrix/traits.rs:570-620`. -/
def multscaleTransb (a : Mat R C T) (b : Mat U C T) (scale : T) (c : Mat R U T) : Res (Mat R U T) := do
  let (cdata, _, _) ← forUp 0 R (fun _ (cdata, cIndex, aIndexStart) => do
    let (cdata, cIndex, _) ← forUp 0 U (fun _ (cdata, cIndex, indexB) => do
      let (total, indexB) ← forUp aIndexStart (aIndexStart + C) (fun indexA (total, indexB) => do
        let av ← rd a.data indexA
        let bv ← rd b.data indexB
        let p ← o.mul av bv
        let total ← o.add total p
        pure (total, indexB + 1)) (o.zero, indexB)
      let v ← o.mul total scale
      let cdata ← wr cdata cIndex v
      pure (cdata, cIndex + 1, indexB)) (cdata, cIndex, 0)
    pure (cdata, cIndex, aIndexStart + C)) (c.data, 0, 0)
  pure ⟨cdata⟩

/-- `Matrix::add_inplace_b`, `matrix/traits.rs:662-682`: `b += a`. -/
def addInplaceB (a b : Mat R C T) : Res (Mat R C T) := do
  let d ← forDown a.len (fun index bdata => do
    let bv ← rd bdata index
    let av ← rd a.data index
    let v ← o.add bv av
    wr bdata index v) b.data
  pure ⟨d⟩

/-- `Matrix::sub_inplace_b`, `matrix/traits.rs:690-710`: `b = a - b`. -/
def subInplaceB (a b : Mat R C T) : Res (Mat R C T) := do
  let d ← forDown a.len (fun index bdata => do
    let av ← rd a.data index
    let bv ← rd bdata index
    let v ← o.sub av bv
    wr bdata index v) b.data
  pure ⟨d⟩

/-- `MatrixMut::add_inplace_a`, `matrix/traits.rs:1033-1053`: `a += b`. -/
def addInplaceA (a b : Mat R C T) : Res (Mat R C T) := do
  let d ← forDown a.len (fun index adata => do
    let av ← rd adata index
    let bv ← rd b.data index
    let v ← o.add av bv
    wr adata index v) a.data
  pure ⟨d⟩

/-- `MatrixMut::sub_inplace_a`, `matrix/traits.rs:1061-1081`: `a -= b`. -/
def subInplaceA (a b : Mat R C T) : Res (Mat R C T) := do
  let d ← forDown a.len (fun index adata => do
    let av ← rd adata index
    let bv ← rd b.data index
    let v ← o.sub av bv
    wr adata index v) a.data
  pure ⟨d⟩

/-- `MatrixMut::cholesky_decompose_lower`, `matrix/traits.rs:1119-1171`. The product `sum * div_el_ii` (line 1148) is computed on
the diagonal as well, where it is overwritten if the pivot is positive. -/
def choleskyDecomposeLower (bld : Build) (m : Mat R C T) : Res (Mat R C T × Bool) := do
  debugAssert bld (R == C)
  debugAssert bld (decide (0 < R))
  let r ← forUpR 0 R (fun i (s : List T × T) =>
    forUpR i R (fun j (s : List T × T) => do
      let t := s.1
      let sum ← rd t (i * R + j)
      let (sum, _) ← forUp (i * R) (i * R + i) (fun iEl (sum, jEl) => do
        let ti ← rd t iEl
        let tj ← rd t jEl
        let p ← o.mul ti tj
        let sum ← o.sub sum p
        pure (sum, jEl + 1)) (sum, j * R)
      let v ← o.mul sum s.2
      let t ← wr t (j * R + i) v
      if i = j then do
        let stop ← o.le sum o.zero
        if stop then
          pure (Ctl.ret t)
        else do
          let elII ← o.squareRoot sum
          let t ← wr t (i * R + i) elII
          let divElII ← o.recip elII
          pure (Ctl.cont (t, divElII))
      else
        pure (Ctl.cont (t, s.2))) s) (m.data, o.zero)
  match r with
  | .ret t => pure (⟨t⟩, false)
  | .cont (t, _) => do
    let t ← forUp 0 R (fun i t =>
      forUp (i + 1) R (fun j t => wr t (i * R + j) o.zero) t) t
    pure (⟨t⟩, true)

/-- `(lo..hi).map(|k| f(k)).sum()`: terms are computed and added one after the other. -/
def sumMap (lo hi : Nat) (f : Nat → Res T) : Res T :=
  forUp lo hi (fun k acc => do
    let v ← f k
    o.add acc v) o.sumStart

/-- `SquareMatrix::invert_l_cholesky`, `matrix/traits.rs:769-817`. -/
def invertLCholesky (m : Mat N N T) (inverse : Mat N N T) : Res (Mat N N T) := do
  let mat := m.data
  let inv ← forUp 0 N (fun i inv => do
    let elII ← rd mat (i * N + i)
    let invElII ← o.recip elII
    forUp 0 (i + 1) (fun j inv => do
      let sum : T := if i = j then o.one else o.zero
      let terms ← sumMap o j i (fun k => do
        let mv ← rd mat (i * N + k)
        let mv ← o.neg mv
        let iv ← rd inv (j * N + k)
        o.mul mv iv)
      let sum ← o.add sum terms
      let v ← o.mul sum invElII
      wr inv (j * N + i) v) inv) inverse.data
  let last ← usub N 1
  let inv ← forDown (last + 1) (fun i inv => do
    let elII ← rd mat (i * N + i)
    let invElII ← o.recip elII
    forUp 0 (i + 1) (fun j inv => do
      let s0 ← rd inv (j * N + i)
      let sum := if i < j then o.zero else s0
      let terms ← sumMap o (i + 1) N (fun k => do
        let mv ← rd mat (k * N + i)
        let mv ← o.neg mv
        let iv ← rd inv (j * N + k)
        o.mul mv iv)
      let sum ← o.add sum terms
      let value ← o.mul sum invElII
      let inv ← wr inv (i * N + j) value
      wr inv (j * N + i) value) inv) inv
  pure ⟨inv⟩

/-! ## Steps (`controls.rs`, `observations/*.rs`, `kalman/*.rs`) -/

/-- `Control::apply_control`, `controls.rs:199-227`. -/
def applyControl (c : Control n l T) (x : Mat n 1 T) (P : Mat n n T) : Res (Control n l T × Mat n 1 T × Mat n n T) := do
  if c.u.isEmpty || c.B.isEmpty then
    pure (c, x, P)
  else do
    let x ← multaddRowvector o c.B c.u x
    let tempBQ ← mult o c.B c.Q c.tempBQ
    let P ← multaddTransb o tempBQ c.B P
    pure ({ c with tempBQ := tempBQ }, x, P)

/-- `RegularObservation::update_with_innovation`, `observations/regular.rs:365-419`. -/
def updateWithInnovation (bld : Build) (b : RegularObservation n m T) (x : Mat n 1 T) (P : Mat n n T) :
    Res (RegularObservation n m T × Mat n 1 T × Mat n n T) := do
  let tempHP ← mult o b.H P b.tempHP
  let S ← multTransb o tempHP b.H b.S
  let S ← addInplaceA o S b.R
  let (S, _) ← choleskyDecomposeLower o bld S
  let tempSInv ← invertLCholesky o S b.tempSInv
  let tempPHt ← multTransb o P b.H b.tempPHt
  let K ← mult o tempPHt tempSInv b.K
  let x ← multaddRowvector o K b.y x
  let tempHP ← mult o b.H P tempHP
  let tempKHP ← mult o K tempHP b.tempKHP
  let P ← subInplaceA o P tempKHP
  pure ({ b with S := S, K := K, tempSInv := tempSInv, tempHP := tempHP,
                 tempPHt := tempPHt, tempKHP := tempKHP }, x, P)

/-- `RegularObservation::correct`, `observations/regular.rs:339-357`, and `RegularKalman::correct`, `kalman/regular.rs:589-597`. -/
def correct (bld : Build) (f : RegularKalman n T) (b : RegularObservation n m T) :
    Res (RegularKalman n T × RegularObservation n m T) := do
  let y ← multRowvector o b.H f.x b.y
  let y ← subInplaceB o b.z y
  let (b, x, P) ← updateWithInnovation o bld { b with y := y } f.x f.P
  pure ({ f with x := x, P := P }, b)

/-- `RegularKalman::predict_x`, `kalman/regular.rs:426-445`. -/
def predictX (f : RegularKalman n T) : Res (RegularKalman n T) := do
  let px ← multRowvector o f.A f.x f.predictedX
  let x ← px.copyTo f.x
  pure { f with x := x, predictedX := px }

/-- `RegularKalman::predict_P`, `kalman/regular.rs:449-471`. -/
def predictP (f : RegularKalman n T) : Res (RegularKalman n T) := do
  let tempP ← mult o f.A f.P f.tempP
  let P ← multTransb o tempP f.A f.P
  let P ← addInplaceB o f.Q P
  pure { f with P := P, tempP := tempP }

/-- `RegularKalman::predict_P_tuned`, `kalman/regular.rs:475-501`. -/
def predictPTuned (f : RegularKalman n T) (lambda : T) : Res (RegularKalman n T) := do
  let sq ← o.mul lambda lambda
  let factor ← o.recip sq
  let tempP ← mult o f.A f.P f.tempP
  let P ← multscaleTransb o tempP f.A factor f.P
  let P ← addInplaceB o f.Q P
  pure { f with P := P, tempP := tempP }

/-- `RegularKalman::predict`, `kalman/regular.rs:299-317`. -/
def predict (f : RegularKalman n T) : Res (RegularKalman n T) := do
  let f ← predictX o f
  predictP o f

/-- `RegularKalman::predict_tuned`, `kalman/regular.rs:404-421`. -/
def predictTuned (f : RegularKalman n T) (lambda : T) : Res (RegularKalman n T) := do
  let f ← predictX o f
  predictPTuned o f lambda

/-- `RegularKalman::control`, `kalman/regular.rs:505-513`. -/
def control (f : RegularKalman n T) (c : Control n l T) : Res (RegularKalman n T × Control n l T) := do
  let (c, x, P) ← applyControl o c f.x f.P
  pure ({ f with x := x, P := P }, c)

/-- One call of a program with a regular filter. Setters contain no arithmetic. -/
def step (bld : Build) (w : World n T) : Op T → Res (World n T)
  | .predict => do
    let kf ← predict o w.kf
    pure { w with kf := kf }
  | .predictTuned lambda => do
    let kf ← predictTuned o w.kf lambda
    pure { w with kf := kf }
  | .control i =>
    match w.ctl[i]? with
    | none => .error .bounds
    | some ⟨l, c⟩ => do
      let (kf, c) ← control o w.kf c
      pure { w with kf := kf, ctl := w.ctl.set i ⟨l, c⟩ }
  | .correct i =>
    match w.obs[i]? with
    | none => .error .bounds
    | some ⟨m, b⟩ => do
      let (kf, b) ← correct o bld w.kf b
      pure { w with kf := kf, obs := w.obs.set i ⟨m, b⟩ }
  | .setX v => do
    let x ← w.kf.x.copyFromSlice v
    pure { w with kf := { w.kf with x := x } }
  | .setA v => do
    let A ← w.kf.A.copyFromSlice v
    pure { w with kf := { w.kf with A := A } }
  | .setP v => do
    let P ← w.kf.P.copyFromSlice v
    pure { w with kf := { w.kf with P := P } }
  | .setQ v => do
    let Q ← w.kf.Q.copyFromSlice v
    pure { w with kf := { w.kf with Q := Q } }
  | .setU i v => w.withCtl i fun _ c => do
    let u ← c.u.copyFromSlice v
    pure { c with u := u }
  | .setB i v => w.withCtl i fun _ c => do
    let B ← c.B.copyFromSlice v
    pure { c with B := B }
  | .setQc i v => w.withCtl i fun _ c => do
    let Q ← c.Q.copyFromSlice v
    pure { c with Q := Q }
  | .setZ i v => w.withObs i fun _ o => do
    let z ← o.z.copyFromSlice v
    pure { o with z := z }
  | .setH i v => w.withObs i fun _ o => do
    let H ← o.H.copyFromSlice v
    pure { o with H := H }
  | .setR i v => w.withObs i fun _ o => do
    let R ← o.R.copyFromSlice v
    pure { o with R := R }

/-- A sequence of calls. -/
def run (bld : Build) (w : World n T) : List (Op T) → Res (World n T)
  | [] => .ok w
  | op :: ops => do
    let w ← step o bld w op
    run bld w ops

/-! ## The extended filter -/

/-- `ExtendedObservation::update_with_innovation`, `observations/extended.rs:377-431`. -/
def xupdateWithInnovation (bld : Build) (b : ExtendedObservation n m T) (x : Mat n 1 T) (P : Mat n n T) :
    Res (ExtendedObservation n m T × Mat n 1 T × Mat n n T) := do
  let tempHP ← mult o b.H P b.tempHP
  let S ← multTransb o tempHP b.H b.S
  let S ← addInplaceA o S b.R
  let (S, _) ← choleskyDecomposeLower o bld S
  let tempSInv ← invertLCholesky o S b.tempSInv
  let tempPHt ← multTransb o P b.H b.tempPHt
  let K ← mult o tempPHt tempSInv b.K
  let x ← multaddRowvector o K b.y x
  let tempHP ← mult o b.H P tempHP
  let tempKHP ← mult o K tempHP b.tempKHP
  let P ← subInplaceA o P tempKHP
  pure ({ b with S := S, K := K, tempSInv := tempSInv, tempHP := tempHP,
                 tempPHt := tempPHt, tempKHP := tempKHP }, x, P)

/-- `ExtendedObservation::correct_nonlinear`, `observations/extended.rs:350-369`, and `ExtendedKalman::correct_nonlinear`,
`kalman/extended.rs:507-520`. -/
def correctNonlinear (bld : Build) (f : ExtendedKalman n T) (b : ExtendedObservation n m T)
    (observation : σ → Mat n 1 T → Mat m 1 T → Res (σ × Mat m 1 T)) (st : σ) :
    Res (σ × ExtendedKalman n T × ExtendedObservation n m T) := do
  let (st, y) ← observation st f.x b.y
  let y ← subInplaceB o b.z y
  let (b, x, P) ← xupdateWithInnovation o bld { b with y := y } f.x f.P
  pure (st, { f with x := x, P := P }, b)

/-- `ExtendedKalman::predict_x_nonlinear`, `kalman/extended.rs:427-439`. No arithmetic of the crate. -/
def predictXNonlinear (f : ExtendedKalman n T) (stateTransition : σ → Mat n 1 T → Mat n 1 T → Res (σ × Mat n 1 T)) (st : σ) :
    Res (σ × ExtendedKalman n T) := do
  let (st, px) ← stateTransition st f.x f.predictedX
  let x ← px.copyTo f.x
  pure (st, { f with x := x, predictedX := px })

/-- `ExtendedKalman::predict_nonlinear`, `kalman/extended.rs:360-378, 443-465`. -/
def predictNonlinear (f : ExtendedKalman n T) (stateTransition : σ → Mat n 1 T → Mat n 1 T → Res (σ × Mat n 1 T)) (st : σ) :
    Res (σ × ExtendedKalman n T) := do
  let (st, f) ← predictXNonlinear f stateTransition st
  let tempP ← mult o f.A f.P f.tempP
  let P ← multTransb o tempP f.A f.P
  let P ← addInplaceB o f.Q P
  pure (st, { f with P := P, tempP := tempP })

/-- `ExtendedKalman::predict_tuned_nonlinear`, `kalman/extended.rs:405-423, 469-495`. -/
def predictTunedNonlinear (f : ExtendedKalman n T) (lambda : T)
    (stateTransition : σ → Mat n 1 T → Mat n 1 T → Res (σ × Mat n 1 T)) (st : σ) : Res (σ × ExtendedKalman n T) := do
  let (st, f) ← predictXNonlinear f stateTransition st
  let sq ← o.mul lambda lambda
  let factor ← o.recip sq
  let tempP ← mult o f.A f.P f.tempP
  let P ← multscaleTransb o tempP f.A factor f.P
  let P ← addInplaceB o f.Q P
  pure (st, { f with P := P, tempP := tempP })

/-- One call of a program with an extended filter. -/
def xstep (bld : Build) (w : XWorld n T σ) : XOp n T σ → Res (XWorld n T σ)
  | .predict g => do
    let (env, kf) ← predictNonlinear o w.kf g w.env
    pure { w with kf := kf, env := env }
  | .predictTuned lambda g => do
    let (env, kf) ← predictTunedNonlinear o w.kf lambda g w.env
    pure { w with kf := kf, env := env }
  | .correct i h =>
    match w.obs[i]? with
    | none => .error .bounds
    | some ⟨m, b⟩ => do
      let (env, kf, b) ← correctNonlinear o bld w.kf b (h m) w.env
      pure { kf := kf, obs := w.obs.set i ⟨m, b⟩, env := env }
  | .assign a => w.assign a

/-- A sequence of calls. -/
def xrun (bld : Build) (w : XWorld n T σ) : List (XOp n T σ) → Res (XWorld n T σ)
  | [] => .ok w
  | op :: ops => do
    let w ← xstep o bld w op
    xrun bld w ops

end Chk
end Minikalman
