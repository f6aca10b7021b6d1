import Verif.Spec.Extended
import Verif.Spec.Float

/-!
# Filters at rest

A program is at rest if its state, inputs and measurements are zero. In floating point arithmetic there are two zeros, and zero times
infinity is not a number. No reference to kernels or filter steps of the model.
-/

namespace Minikalman

variable {T σ : Type} {n : Nat}

/-- What zeros have in common in all arithmetics: sums and differences of zeros are zeros, and zero times anything is zero. -/
structure Absorbing [Zero T] [Add T] [Sub T] [Mul T] (Z : T → Prop) : Prop where
  zero : Z 0
  add : ∀ {a b}, Z a → Z b → Z (a + b)
  sub : ∀ {a b}, Z a → Z b → Z (a - b)
  left : ∀ {a} (b : T), Z a → Z (a * b)
  right : ∀ (a : T) {b}, Z b → Z (a * b)

/-- A floating point number that is `0.0` or `-0.0` or not a number. -/
def Bin.ZeroOrNan {fmt : Format} (a : Bin fmt) : Prop := a = .nan ∨ ∃ neg h, a = .fin neg 0 h

/-- The vector held by the buffer consists of zeros. -/
def Mat.RestV (Z : T → Prop) (m : Mat n 1 T) : Prop := ∃ v, m.RepsV v ∧ ∀ i, Z (v i)

/-- All cells of the buffer are zeros. -/
def Mat.Zeros {R C : Nat} (Z : T → Prop) (m : Mat R C T) : Prop := ∀ a ∈ m.data, Z a

/-- State, inputs and measurements are zero; everything else may be anything. -/
structure World.AtRest (Z : T → Prop) (w : World n T) : Prop where
  x : w.kf.x.RestV Z
  u : ∀ c ∈ w.ctl, c.2.u.Zeros Z
  z : ∀ o ∈ w.obs, o.2.z.Zeros Z

/-- The call does not assign anything but zeros to state, inputs and measurements. -/
def Op.KeepsRest (Z : T → Prop) : Op T → Prop
  | .setX v => ∀ a ∈ v, Z a
  | .setU _ v => ∀ a ∈ v, Z a
  | .setZ _ v => ∀ a ∈ v, Z a
  | _ => True

/-- The same for programs with an extended filter. -/
structure XWorld.AtRest (Z : T → Prop) (w : XWorld n T σ) : Prop where
  x : w.kf.x.RestV Z
  z : ∀ o ∈ w.obs, o.2.z.Zeros Z

/-- Zero is a fixed point of the transition functions and is observed as zero. -/
def XOp.KeepsRest (Z : T → Prop) : XOp n T σ → Prop
  | .predict g => ∀ st x px st' px', px.Valid → g st x px = .ok (st', px') → x.RestV Z → px'.RestV Z
  | .predictTuned _ g => ∀ st x px st' px', px.Valid → g st x px = .ok (st', px') → x.RestV Z → px'.RestV Z
  | .correct _ h => ∀ m st x (y : Mat m 1 T) st' y', y.Valid → h m st x y = .ok (st', y') → x.RestV Z → y'.RestV Z
  | .assign a => a.toOp.KeepsRest Z

end Minikalman
