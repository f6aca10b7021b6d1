import Verif.Model.Checked
import Verif.Model.Examples

/-!
# `examples/gravity_fixed.rs` with operations that may panic

`cargo run --example gravity_fixed` makes a build with overflow checks. Paths are relative to `/repo/crates/minikalman`.
-/

namespace Minikalman
namespace Chk

variable {T : Type} (o : Ops T)

/-- `initialize_state_vector`, `examples/gravity_fixed.rs:108-114`. -/
def gravityX (six : T) (x : Mat 3 1 T) : Res (Mat 3 1 T) := do
  let x ← x.indexSet 0 o.zero
  let x ← x.indexSet 1 o.zero
  x.indexSet 2 six

/-- `initialize_state_transition_matrix`, `examples/gravity_fixed.rs:124-146`; `T` of the code is 1. -/
def gravityA (half : T) (a : Mat 3 3 T) : Res (Mat 3 3 T) := do
  let a ← a.setAt 0 0 o.one
  let a ← a.setAt 0 1 o.one
  let h ← o.mul half o.one
  let h ← o.mul h o.one
  let a ← a.setAt 0 2 h
  let a ← a.setAt 1 0 o.zero
  let a ← a.setAt 1 1 o.one
  let a ← a.setAt 1 2 o.one
  let a ← a.setAt 2 0 o.zero
  let a ← a.setAt 2 1 o.zero
  a.setAt 2 2 o.one

/-- `initialize_state_covariance_matrix`, `examples/gravity_fixed.rs:153-166`. -/
def gravityP (tenth : T) (p : Mat 3 3 T) : Res (Mat 3 3 T) := do
  let p ← p.setAt 0 0 tenth
  let p ← p.setAt 0 1 o.zero
  let p ← p.setAt 0 2 o.zero
  let p ← p.setAt 1 1 o.one
  let p ← p.setAt 1 2 o.zero
  p.setAt 2 2 o.one

/-- `initialize_position_measurement_transformation_matrix`, `examples/gravity_fixed.rs:175-183`. -/
def gravityH (h : Mat 1 3 T) : Res (Mat 1 3 T) := do
  let h ← h.setAt 0 0 o.one
  let h ← h.setAt 0 1 o.zero
  h.setAt 0 2 o.zero

/-- Building and initialisation, `examples/gravity_fixed.rs:72-83`. -/
def gravityStart [Inhabited T] (bld : Build) (half tenth six : T) : Res (RegularKalman 3 T × RegularObservation 3 1 T) := do
  let f ← buildRegularKalman bld
  let b ← buildRegularObservation bld
  let x ← gravityX o six f.x
  let A ← gravityA o half f.A
  let P ← gravityP o tenth f.P
  let H ← gravityH o b.H
  let R ← b.R.setAt 0 0 half
  pure ({ f with x := x, A := A, P := P }, { b with H := H, R := R })

/-- The loop of `examples/gravity_fixed.rs:86-99`: `data` are the pairs of `REAL_DISTANCE` and `OBSERVATION_ERROR`. -/
def gravityLoop (bld : Build) (f : RegularKalman 3 T) (b : RegularObservation 3 1 T) :
    List (T × T) → Res (RegularKalman 3 T × RegularObservation 3 1 T)
  | [] => .ok (f, b)
  | (m, e) :: data => do
    let f ← predict o f
    let s ← o.add m e
    let z ← b.z.indexSet 0 s
    let (f, b) ← correct o bld f { b with z := z }
    gravityLoop bld f b data

/-- `main` of `examples/gravity_fixed.rs:71-105`: the estimated acceleration, over which the program asserts
`g_estimated > 9.0 && g_estimated < 10.0`. -/
def gravityFixedExample [Inhabited T] (bld : Build) (half tenth six : T) (data : List (T × T)) : Res T := do
  let (f, b) ← gravityStart o bld half tenth six
  let (f, _) ← gravityLoop o bld f b data
  f.x.index 2

end Chk
end Minikalman
