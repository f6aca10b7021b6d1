import Verif.Model.Examples
import Verif.Model.Float

/-!
# Model of `/repo/crates/minikalman/examples/car_1d.rs`, and of floating point literals

Printing (`print_state`) is left out: it only reads.
-/

namespace Minikalman

/-- A floating point literal: the decimal number, rounded to nearest. Integers that are converted (`6 as _`) and the negation of
a literal (`-0.1333333`) are covered, too. -/
def Bin.lit {fmt : Format} (q : ℚ) : Bin fmt := .round (decide (q < 0)) (q.num.natAbs * 2 ^ fmt.frac) q.den

/-- `f32::default()`, `f64::default()`: zero. -/
instance {fmt : Format} : Inhabited (Bin fmt) := ⟨0⟩

namespace Examples

variable {T : Type} [Zero T] [One T] [Add T] [Sub T] [Mul T] [Neg T] [MDT T]

/-- The initialisation of the filter, `examples/car_1d.rs:28-55` (`DELTA_T` is 1); `pos` is `-5.0`, `acc` is `0.3`. -/
def carFilter (half pos acc : T) (f : RegularKalman 3 T) : Res (RegularKalman 3 T) := do
  let x ← f.x.indexSet 0 pos
  let x ← x.indexSet 1 0
  let x ← x.indexSet 2 acc
  let A ← gravityA half f.A
  let P ← f.P.makeIdentity
  pure { f with x := x, A := A, P := P }

/-- The initialisation of the control, `examples/car_1d.rs:58-68`. -/
def carControl (c : Control 3 1 T) : Res (Control 3 1 T) := do
  let B ← c.B.setAt 0 0 0
  let B ← B.setAt 1 0 0
  let B ← B.setAt 2 0 1
  let u := c.u.setZero
  let Q ← c.Q.makeIdentity
  pure { c with B := B, u := u, Q := Q }

/-- The initialisation of the measurement, `examples/car_1d.rs:71-83`; `tenth` is `0.1`. -/
def carObservation (tenth : T) (o : RegularObservation 3 1 T) : Res (RegularObservation 3 1 T) := do
  let H ← o.H.setAt 0 0 1
  let R ← o.R.makeScalar tenth
  let R ← R.setAt 0 0 1
  pure { o with H := H, R := R }

/-- The first loop, `examples/car_1d.rs:88-96`: `k` predictions. -/
def carDrive : Nat → RegularKalman 3 T → Res (RegularKalman 3 T)
  | 0, f => .ok f
  | k + 1, f => do
    let f ← f.predict
    carDrive k f

/-- The second loop, `examples/car_1d.rs:110-133`, from time `t` with the remaining observations; `brake` is
`ACCELERATION`. -/
def carBrake (bld : Build) (brake : T) (t : Nat) (f : RegularKalman 3 T) (c : Control 3 1 T) (o : RegularObservation 3 1 T) :
    List T → Res (RegularKalman 3 T × Control 3 1 T × RegularObservation 3 1 T)
  | [] => .ok (f, c, o)
  | z :: zs => do
    let u ← c.u.setAt 0 0 brake
    let f ← f.predict
    let (f, c) ← f.control { c with u := u }
    if t % 2 != 0 then
      carBrake bld brake (t + 1) f c o zs
    else
      let zv ← o.z.indexSet 0 z
      let (f, o) ← f.correct bld { o with z := zv }
      carBrake bld brake (t + 1) f c o zs

/-- `is_between`, `examples/car_1d.rs:175-177`. -/
def isBetween (value low high : T) : Bool := MDT.le low value && MDT.le value high

/-- `main` of `examples/car_1d.rs:18-142`: the state vectors over which the program makes assertions, after the first and after
the second loop. -/
def carExample [Inhabited T] (bld : Build) (half tenth pos acc brake : T) (observations : List T) :
    Res (Mat 3 1 T × Mat 3 1 T) := do
  let f ← buildRegularKalman bld
  let c ← buildControl bld
  let o ← buildRegularObservation bld
  let f ← carFilter half pos acc f
  let c ← carControl c
  let o ← carObservation tenth o
  let f ← carDrive 10 f
  let (f', _, _) ← carBrake bld brake 10 f c o observations
  pure (f.x, f'.x)

end Examples

/-- `OBSERVATIONS`, `examples/car_1d.rs:107`. -/
def Examples.carObservations : List ℚ := [13.2, 16.5, 20.0, 23.5, 26.8, 29.7, 32.8, 34.3, 35.6, 36.00]

end Minikalman
