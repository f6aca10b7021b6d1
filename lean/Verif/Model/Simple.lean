import Verif.Model.Builder

/-!
# Model of the test filter

`/repo/crates/minikalman/tests/simple.rs` and `/repo/crates/minikalman/src/test_filter.rs`: a filter for position, velocity and
acceleration with one control input and two measurements. `half`, `tenth` and `third` are the constants `0.5`, `0.1` and `1.0 / 3.0`.
-/

namespace Minikalman
namespace Examples

variable {T : Type} [Zero T] [One T] [Add T] [Sub T] [Mul T] [Neg T] [MDT T]

/-- The closure passed to `state_transition_mut().apply`, `tests/simple.rs:30-42`, `src/test_filter.rs:28-40`; likewise
`state_transition_jacobian_mut().apply`, `src/test_filter.rs:93-106`. -/
def simpleA (half dt : T) (a : Mat 3 3 T) : Res (Mat 3 3 T) := do
  let a ← a.setAt 0 0 1
  let a ← a.setAt 0 1 dt
  let a ← a.setAt 0 2 (half * dt * dt)
  let a ← a.setAt 1 0 0
  let a ← a.setAt 1 1 1
  let a ← a.setAt 1 2 dt
  let a ← a.setAt 2 0 0
  let a ← a.setAt 2 1 0
  a.setAt 2 2 1

/-- The closure passed to `control_matrix_mut().apply`, `tests/simple.rs:52-56`, `src/test_filter.rs:50-54`. -/
def simpleB (half dt : T) (b : Mat 3 1 T) : Res (Mat 3 1 T) := do
  let b ← b.setAt 0 0 (half * dt * dt)
  let b ← b.setAt 1 0 dt
  b.setAt 2 0 1

/-- `observation_matrix_mut()` is filled with `1.0 / 3.0`, then the first row is overwritten, `tests/simple.rs:67-72`,
`src/test_filter.rs:65-70`; likewise `observation_jacobian_matrix_mut()`, `src/test_filter.rs:115-123`. -/
def simpleH (third : T) (h : Mat 2 3 T) : Res (Mat 2 3 T) := do
  let h ← (h.setAll third).setAt 0 0 1
  let h ← h.setAt 0 1 0
  h.setAt 0 2 0

/-- The filter, `tests/simple.rs:30-48`, `src/test_filter.rs:28-46`. -/
def simpleFilter (half tenth dt : T) (f : RegularKalman 3 T) : Res (RegularKalman 3 T) := do
  let A ← simpleA half dt f.A
  let x := f.x.setZero
  let P ← f.P.makeScalar tenth
  pure { f with x := x, A := A, P := P }

/-- The control, `tests/simple.rs:52-64`, `src/test_filter.rs:50-62`. -/
def simpleControl (half tenth dt : T) (c : Control 3 1 T) : Res (Control 3 1 T) := do
  let B ← simpleB half dt c.B
  let u := c.u.setZero
  let Q ← c.Q.makeComatrix 1 tenth
  pure { c with B := B, u := u, Q := Q }

/-- The observation, `tests/simple.rs:67-77`, `src/test_filter.rs:65-75`. -/
def simpleObservation (third : T) (o : RegularObservation 3 2 T) : Res (RegularObservation 3 2 T) := do
  let H ← simpleH third o.H
  let R ← o.R.makeIdentity
  pure { o with H := H, R := R }

variable [Inhabited T]

/-- `create_test_filter`, `tests/simple.rs:19-84`, `src/test_filter.rs:17-82`: the returned structure holds one filter, one control
and one observation. -/
def createTestFilter (bld : Build) (half tenth third dt : T) : Res (World 3 T) := do
  let filter ← buildRegularKalman bld
  let control ← buildControl bld
  let measurement ← buildRegularObservation bld
  let filter ← simpleFilter half tenth dt filter
  let control ← simpleControl half tenth dt control
  let measurement ← simpleObservation third measurement
  pure ⟨filter, [⟨1, control⟩], [⟨2, measurement⟩]⟩

/-- `create_test_filter_ekf`, `src/test_filter.rs:85-134`; `env` is whatever the closures capture. -/
def createTestFilterEkf {σ : Type} (bld : Build) (half tenth third dt : T) (env : σ) : Res (XWorld 3 T σ) := do
  let filter ← buildExtendedKalman bld
  let measurement ← buildExtendedObservation bld
  let A ← simpleA half dt filter.A
  let x := filter.x.setZero
  let P ← filter.P.makeScalar tenth
  let H ← simpleH third measurement.H
  let R ← measurement.R.makeIdentity
  pure ⟨{ filter with x := x, A := A, P := P }, [⟨2, { measurement with H := H, R := R }⟩], env⟩

end Examples
end Minikalman
