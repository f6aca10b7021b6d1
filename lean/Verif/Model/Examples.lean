import Mathlib.Analysis.SpecialFunctions.Complex.Arg
import Mathlib.Analysis.Real.Sqrt
import Verif.Model.Builder

/-!
# Model of the example programs

`/repo/crates/minikalman/examples/{gravity,gravity_fixed,radar_2d}.rs` and `/repo/crates/minikalman/tests/{gravity,gravity_q_tuned}.rs`.
Printing is left out. Measurement noise drawn from random number generators and the constant arrays of observation errors
are parameters.
-/

namespace Minikalman
namespace Examples

variable {T : Type}

section Gravity
variable [Zero T] [One T] [Add T] [Sub T] [Mul T] [Neg T] [MDT T]

/-- `initialize_state_vector`, `tests/gravity.rs:115-121`, `tests/gravity_q_tuned.rs:118-124`,
`examples/gravity.rs:110-116`, `examples/gravity_fixed.rs:108-114`; `six` is `6 as _`. -/
def gravityX (six : T) (x : Mat 3 1 T) : Res (Mat 3 1 T) := do
  let x ← x.indexSet 0 0
  let x ← x.indexSet 1 0
  x.indexSet 2 six

/-- `initialize_state_transition_matrix`, `tests/gravity.rs:131-151`, `tests/gravity_q_tuned.rs:134-154`,
`examples/gravity.rs:126-146`, `examples/gravity_fixed.rs:124-146`; the constant `T` of the code is 1; `half` is `0.5`. -/
def gravityA (half : T) (a : Mat 3 3 T) : Res (Mat 3 3 T) := do
  let a ← a.setAt 0 0 1
  let a ← a.setAt 0 1 1
  let a ← a.setAt 0 2 (half * 1 * 1)
  let a ← a.setAt 1 0 0
  let a ← a.setAt 1 1 1
  let a ← a.setAt 1 2 1
  let a ← a.setAt 2 0 0
  let a ← a.setAt 2 1 0
  a.setAt 2 2 1

/-- `initialize_state_covariance_matrix`, `tests/gravity.rs:158-169`, `tests/gravity_q_tuned.rs:161-172`,
`examples/gravity.rs:153-164`, `examples/gravity_fixed.rs:153-166`; `tenth` is `0.1`. -/
def gravityP (tenth : T) (p : Mat 3 3 T) : Res (Mat 3 3 T) := do
  let p ← p.setAt 0 0 tenth
  let p ← p.setAt 0 1 0
  let p ← p.setAt 0 2 0
  let p ← p.setAt 1 1 1
  let p ← p.setAt 1 2 0
  p.setAt 2 2 1

/-- `initialize_position_measurement_transformation_matrix`, `tests/gravity.rs:178-186`,
`tests/gravity_q_tuned.rs:181-189`, `examples/gravity.rs:198-206`, `examples/gravity_fixed.rs:175-183`. -/
def gravityH (h : Mat 1 3 T) : Res (Mat 1 3 T) := do
  let h ← h.setAt 0 0 1
  let h ← h.setAt 0 1 0
  h.setAt 0 2 0

/-- `initialize_position_measurement_process_noise_matrix`, `tests/gravity.rs:193-199`,
`tests/gravity_q_tuned.rs:196-202`, `examples/gravity.rs:213-219`, `examples/gravity_fixed.rs:190-196`; `half` is `0.5`. -/
def gravityR (half : T) (r : Mat 1 1 T) : Res (Mat 1 1 T) := r.setAt 0 0 half

/-- `initialize_control_vector`, `examples/gravity.rs:167-171`. -/
def gravityU (u : Mat 1 1 T) : Res (Mat 1 1 T) := u.indexSet 0 0

/-- `initialize_control_matrix`, `examples/gravity.rs:174-180`. -/
def gravityB (b : Mat 3 1 T) : Res (Mat 3 1 T) := do
  let b ← b.indexSet 0 0
  let b ← b.indexSet 1 0
  b.indexSet 2 1

/-- `initialize_control_covariance_matrix`, `examples/gravity.rs:183-189`. -/
def gravityQc (q : Mat 1 1 T) : Res (Mat 1 1 T) := q.indexSet 0 1

/-- The filter of the gravity programs after its initialisation: `tests/gravity.rs:87-89`,
`tests/gravity_q_tuned.rs:88-90`, `examples/gravity.rs:29-31`, `examples/gravity_fixed.rs:77-79`. -/
def gravityFilter (half tenth six : T) (f : RegularKalman 3 T) : Res (RegularKalman 3 T) := do
  let x ← gravityX six f.x
  let A ← gravityA half f.A
  let P ← gravityP tenth f.P
  pure { f with x := x, A := A, P := P }

/-- The observation of the gravity programs after its initialisation: `tests/gravity.rs:90-93`,
`tests/gravity_q_tuned.rs:91-94`, `examples/gravity.rs:39-42`, `examples/gravity_fixed.rs:80-83`. -/
def gravityObservation (half : T) (o : RegularObservation 3 1 T) : Res (RegularObservation 3 1 T) := do
  let H ← gravityH o.H
  let R ← gravityR half o.R
  pure { o with H := H, R := R }

/-- The control of `examples/gravity.rs:34-36`. -/
def gravityControl (c : Control 3 1 T) : Res (Control 3 1 T) := do
  let u ← gravityU c.u
  let B ← gravityB c.B
  let Q ← gravityQc c.Q
  pure { c with u := u, B := B, Q := Q }

/-- The loop of `tests/gravity.rs:96-106` and `examples/gravity_fixed.rs:86-99`: `data` are the pairs of `REAL_DISTANCE` and `OBSERVATION_ERROR`. -/
def gravityLoop (bld : Build) (f : RegularKalman 3 T) (o : RegularObservation 3 1 T) :
    List (T × T) → Res (RegularKalman 3 T × RegularObservation 3 1 T)
  | [] => .ok (f, o)
  | (m, e) :: data => do
    let f ← f.predict
    let z ← o.z.indexSet 0 (m + e)
    let (f, o) ← f.correct bld { o with z := z }
    gravityLoop bld f o data

/-- The loop of `tests/gravity_q_tuned.rs:99-109`; `lambda` is `LAMBDA`. -/
def gravityTunedLoop (bld : Build) (lambda : T) (f : RegularKalman 3 T) (o : RegularObservation 3 1 T) :
    List (T × T) → Res (RegularKalman 3 T × RegularObservation 3 1 T)
  | [] => .ok (f, o)
  | (m, e) :: data => do
    let f ← f.predictTuned lambda
    let z ← o.z.indexSet 0 (m + e)
    let (f, o) ← f.correct bld { o with z := z }
    gravityTunedLoop bld lambda f o data

/-- The loop of `examples/gravity.rs:49-69`. -/
def gravityControlLoop (bld : Build) (f : RegularKalman 3 T) (c : Control 3 1 T) (o : RegularObservation 3 1 T) :
    List (T × T) → Res (RegularKalman 3 T × Control 3 1 T × RegularObservation 3 1 T)
  | [] => .ok (f, c, o)
  | (m, e) :: data => do
    let f ← f.predict
    let (f, c) ← f.control c
    let z ← o.z.indexSet 0 (m + e)
    let (f, o) ← f.correct bld { o with z := z }
    gravityControlLoop bld f c o data

/-- `test_gravity_estimation`, `tests/gravity.rs:39-112`: the estimated acceleration. -/
def gravityTest (bld : Build) (half tenth six : T) (data : List (T × T)) : Res T := do
  let f ← gravityFilter half tenth six (staticKalman 0)
  let o ← gravityObservation half (staticObservation 0)
  let (f, _) ← gravityLoop bld f o data
  f.x.index 2

/-- `test_gravity_estimation_tuned`, `tests/gravity_q_tuned.rs:40-115`: the estimated acceleration. -/
def gravityTunedTest (bld : Build) (half tenth six lambda : T) (data : List (T × T)) : Res T := do
  let f ← gravityFilter half tenth six (staticKalman 0)
  let o ← gravityObservation half (staticObservation 0)
  let (f, _) ← gravityTunedLoop bld lambda f o data
  f.x.index 2

/-- `main` of `examples/gravity.rs:22-75`: the estimated acceleration (read as column 2 of row 0 of the 3×1 state
vector, `examples/gravity.rs:73`). -/
def gravityExample [Inhabited T] (bld : Build) (half tenth six : T) (data : List (T × T)) : Res T := do
  let f ← buildRegularKalman bld
  let c ← buildControl bld
  let o ← buildRegularObservation bld
  let f ← gravityFilter half tenth six f
  let c ← gravityControl c
  let o ← gravityObservation half o
  let (f, _, _) ← gravityControlLoop bld f c o data
  f.x.getAt 0 2

/-- `main` of `examples/gravity_fixed.rs:71-99`: building, initialisation and filter loop. -/
def gravityFixedRun [Inhabited T] (bld : Build) (half tenth six : T) (data : List (T × T)) :
    Res (RegularKalman 3 T × RegularObservation 3 1 T) := do
  let f ← buildRegularKalman bld
  let o ← buildRegularObservation bld
  let f ← gravityFilter half tenth six f
  let o ← gravityObservation half o
  gravityLoop bld f o data

/-- `main` of `examples/gravity_fixed.rs:71-105`: the estimated acceleration, over which the program asserts
`g_estimated > 9.0 && g_estimated < 10.0`. -/
def gravityFixedExample [Inhabited T] (bld : Build) (half tenth six : T) (data : List (T × T)) : Res T := do
  let (f, _) ← gravityFixedRun bld half tenth six data
  f.x.index 2

/-- The loop of `generate_values`, `examples/gravity.rs:77-93`, from displacement `s` and velocity `v`;
`delta_t` is 1. -/
def generateFrom (half g : T) : Nat → T → T → List T
  | 0, _, _ => []
  | n + 1, s, v =>
    let s := s + v * 1 + g * half * 1 * 1
    let v := v + g * 1
    s :: generateFrom half g n s v

/-- `generate_values`, `examples/gravity.rs:77-93`. -/
def generateValues (half g : T) (n : Nat) : List T := generateFrom half g n 0 0

end Gravity

/-- `REAL_DISTANCE`, `tests/gravity.rs:18-21`, `tests/gravity_q_tuned.rs:19-22`, `examples/gravity_fixed.rs:27-43`. -/
def realDistance : List ℚ :=
  [0, 4.905, 19.62, 44.145, 78.48, 122.63, 176.58, 240.35, 313.92, 397.31, 490.5, 593.51, 706.32, 828.94, 961.38]

/-- `OBSERVATION_ERROR`, `tests/gravity.rs:29-32`, `tests/gravity_q_tuned.rs:30-33`, `examples/gravity_fixed.rs:51-67`. -/
def observationError : List ℚ :=
  [0.13442, 0.45847, -0.56471, 0.21554, 0.079691, -0.32692, -0.1084, 0.085656, 0.8946, 0.69236, -0.33747, 0.75873,
    0.18135, -0.015764, 0.17869]

/-! ## `examples/radar_2d.rs`

The program computes with `f32`; here with exact real numbers, `atan2(y, x)` being the argument of `x + iy`. -/

section Radar

/-- The transition Jacobian, `examples/radar_2d.rs:58-62`. -/
def radarTransitionJacobian (dt : ℝ) (mat : Mat 4 4 ℝ) : Res (Mat 4 4 ℝ) := do
  let mat ← mat.makeIdentity
  let mat ← mat.setAt 0 2 dt
  mat.setAt 1 3 dt

/-- The transition closure, `examples/radar_2d.rs:65-71`. -/
def radarTransition (dt : ℝ) (_ : Unit) (state next : Mat 4 1 ℝ) : Res (Unit × Mat 4 1 ℝ) := do
  let next ← next.indexSet 0 ((← state.index 0) + (← state.index 2) * dt)
  let next ← next.indexSet 1 ((← state.index 1) + (← state.index 3) * dt)
  let next ← next.indexSet 2 (← state.index 2)
  let next ← next.indexSet 3 (← state.index 3)
  pure ((), next)

/-- The observation Jacobian, `examples/radar_2d.rs:106-138`. -/
noncomputable def radarObservationJacobian (rx ry : ℝ) (state : Mat 4 1 ℝ) (mat : Mat 3 4 ℝ) : Res (Mat 3 4 ℝ) := do
  let x ← state.getRow 0
  let y ← state.getRow 1
  let vx ← state.getRow 2
  let vy ← state.getRow 3
  let normSq := (x - rx) ^ 2 + (y - ry) ^ 2
  let norm := √normSq
  let dx := x / norm
  let dy := y / norm
  let mat ← mat.setAt 0 0 dx
  let mat ← mat.setAt 0 1 dy
  let mat ← mat.setAt 0 2 0
  let mat ← mat.setAt 0 3 0
  let mat ← mat.setAt 1 0 (-(y - ry) / normSq)
  let mat ← mat.setAt 1 1 ((x - rx) / normSq)
  let mat ← mat.setAt 1 2 0
  let mat ← mat.setAt 1 3 0
  let mat ← mat.setAt 2 0 ((y - ry) * vy / √(normSq ^ 3))
  let mat ← mat.setAt 2 1 (((x - rx) * vy + (y - ry) * vx) / √(normSq ^ 3))
  let mat ← mat.setAt 2 2 dx
  mat.setAt 2 3 dy

/-- The observation closure, `examples/radar_2d.rs:141-154`. -/
noncomputable def radarObservation (rx ry : ℝ) (_ : Unit) (state : Mat 4 1 ℝ) (observation : Mat 3 1 ℝ) :
    Res (Unit × Mat 3 1 ℝ) := do
  let x ← state.getRow 0
  let y ← state.getRow 1
  let vx ← state.getRow 2
  let vy ← state.getRow 3
  let z := √((x - rx) ^ 2 + (y - ry) ^ 2)
  let theta := Complex.arg ⟨x - rx, y - ry⟩
  let v := ((x - rx) * vx + (y - ry) * vy) / z
  let observation ← observation.setRow 0 z
  let observation ← observation.setRow 1 theta
  let observation ← observation.setRow 2 v
  pure ((), observation)

/-- The initialisation of the filter, `examples/radar_2d.rs:33-44`. -/
noncomputable def radarFilter [MDT ℝ] (f : ExtendedKalman 4 ℝ) : Res (ExtendedKalman 4 ℝ) := do
  let x ← f.x.setRow 0 0
  let x ← x.setRow 1 0
  let x ← x.setRow 2 (1 / 2)
  let x ← x.setRow 3 2
  let P ← f.P.makeIdentity
  let Q ← f.Q.makeScalar (1 / 10)
  pure { f with x := x, P := P, Q := Q }

/-- The initialisation of the measurement noise, `examples/radar_2d.rs:47-51`. -/
noncomputable def radarMeasurement (o : ExtendedObservation 4 3 ℝ) : Res (ExtendedObservation 4 3 ℝ) := do
  let R ← o.R.setAt 0 0 (1 / 2)
  let R ← R.setAt 1 1 (1 / 10)
  let R ← R.setAt 2 2 (1 / 5)
  pure { o with R := R }

/-- One iteration of the loop, `examples/radar_2d.rs:54-157`. The measurement, if this iteration makes one, is a
parameter (in the program it is drawn at random). -/
noncomputable def radarStep [MDT ℝ] (bld : Build) (rx ry dt : ℝ) (f : ExtendedKalman 4 ℝ) (o : ExtendedObservation 4 3 ℝ)
    (measured : Option (ℝ × ℝ × ℝ)) : Res (ExtendedKalman 4 ℝ × ExtendedObservation 4 3 ℝ) := do
  let A ← radarTransitionJacobian dt f.A
  let (_, f) ← ({ f with A := A } : ExtendedKalman 4 ℝ).predictNonlinear (radarTransition dt) ()
  match measured with
  | none => pure (f, o)
  | some (z0, z1, z2) => do
    let z ← o.z.setRow 0 z0
    let z ← z.setRow 1 z1
    let z ← z.setRow 2 z2
    let H ← radarObservationJacobian rx ry f.x o.H
    let (_, f, o) ← f.correctNonlinear bld { o with z := z, H := H } (radarObservation rx ry) ()
    pure (f, o)

/-- The loop, `examples/radar_2d.rs:54-157`. -/
noncomputable def radarLoop [MDT ℝ] (bld : Build) (rx ry dt : ℝ) (f : ExtendedKalman 4 ℝ)
    (o : ExtendedObservation 4 3 ℝ) :
    List (Option (ℝ × ℝ × ℝ)) → Res (ExtendedKalman 4 ℝ × ExtendedObservation 4 3 ℝ)
  | [] => .ok (f, o)
  | d :: data => do
    let (f, o) ← radarStep bld rx ry dt f o d
    radarLoop bld rx ry dt f o data

/-- `main`, `examples/radar_2d.rs:17-158`. -/
noncomputable def radarExample [MDT ℝ] (bld : Build) (rx ry dt : ℝ) (data : List (Option (ℝ × ℝ × ℝ))) :
    Res (ExtendedKalman 4 ℝ × ExtendedObservation 4 3 ℝ) := do
  let f ← buildExtendedKalman bld
  let o ← buildExtendedObservation bld
  let f ← radarFilter f
  let o ← radarMeasurement o
  radarLoop bld rx ry dt f o data

end Radar

end Examples
end Minikalman
