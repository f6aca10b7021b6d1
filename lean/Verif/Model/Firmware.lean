import Verif.Model.Examples

/-!
# Model of the firmware of `/repo/xbuild-tests/stm32/src`

`kalman_float_example.rs` and `kalman_fixed_example.rs` hold the same function `predict_gravity` for `f32` and `I16F16`. Its
buffers are `static mut`, so what one call leaves in them is what the next call finds. The peripherals and the blinking loop of
`main.rs` are not modelled; `main` calls `predict_gravity` once (`main.rs:16-25`).
-/

namespace Minikalman
namespace Firmware

variable {T : Type}

/-- The `static mut` buffers of `predict_gravity`, `kalman_float_example.rs:36-59`, `kalman_fixed_example.rs:67-119`, grouped
by the object made from them. -/
structure Statics (T : Type) where
  /-- `gravity_x`, `gravity_A`, `gravity_P`, `gravity_Q`, `gravity_temp_x`, `gravity_temp_P`. -/
  filter : RegularKalman 3 T
  /-- `gravity_H`, `gravity_z`, `gravity_R`, `gravity_y`, `gravity_S`, `gravity_K` and the four temporaries. -/
  observation : RegularObservation 3 1 T

/-- The contents of the buffers when the device starts: `0.0` respectively `I16F16::ZERO` everywhere,
`kalman_float_example.rs:36-59`, `kalman_fixed_example.rs:67-119`. (The fixed-point file makes its buffer `gravity_z` with the
macro for process noise matrices; with one observation it has the same single cell.) -/
def Statics.boot [Zero T] : Statics T := ⟨staticKalman 0, staticObservation 0⟩

variable [Zero T] [One T] [Add T] [Sub T] [Mul T] [Neg T] [MDT T]

/-- A call of `predict_gravity`, `kalman_float_example.rs:34-109`, `kalman_fixed_example.rs:65-169`: the buffers are wrapped
(their sizes match, so no assertion fires), initialised as in `tests/gravity.rs` (`kalman_float_example.rs:85-92`, 111-196;
`kalman_fixed_example.rs:145-152`, 171-260), the measurements are filtered, and `gravity_x[2]` is returned. The buffers keep what the call leaves in them. -/
def predictGravity (bld : Build) (half tenth six : T) (data : List (T × T)) (s : Statics T) : Res (T × Statics T) := do
  let f ← Examples.gravityFilter half tenth six s.filter
  let o ← Examples.gravityObservation half s.observation
  let (f, o) ← Examples.gravityLoop bld f o data
  let g ← f.x.index 2
  pure (g, ⟨f, o⟩)

/-- Successive calls of `predict_gravity`, one for each list of measurements: the results. (The measurements of the code are
constants, so all lists are the same there.) -/
def calls (bld : Build) (half tenth six : T) : List (List (T × T)) → Statics T → Res (List T)
  | [], _ => .ok []
  | data :: rest, s => do
    let (g, s) ← predictGravity bld half tenth six data s
    let gs ← calls bld half tenth six rest s
    pure (g :: gs)

end Firmware
end Minikalman
