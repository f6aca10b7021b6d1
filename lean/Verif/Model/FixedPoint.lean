import Mathlib.Algebra.Order.Ring.Rat
import Verif.Model.Basic

/-!
# The fixed point element types

`matrix/data_type.rs:122-148` implements `MatrixDataType` for `fixed::types::I16F16` and `fixed::types::I32F32` by forwarding
to the crate `fixed`. That crate is not part of `/repo`; this is a model of its documented behaviour in release builds: two's
complement numbers, half of whose bits are fractional, wrapping on overflow, multiplication rounding down, division rounding
to zero, the root rounded down; `recip` of zero and `sqrt` of a negative number panic. (With overflow checks, the default of
debug builds, an overflow panics instead of wrapping; the operations here do not panic, but see `Watched` in
`Spec/FixedPoint.lean` for a way to talk about the absence of overflows.)
-/

namespace Minikalman

/-- Fixed point numbers of `2 f` bits, `f` of them fractional: the value is `bits / 2^f`. -/
structure FixedPoint (f : Nat) where
  bits : BitVec (2 * f)
  deriving DecidableEq, Repr

/-- `fixed::types::I16F16`. -/
abbrev I16F16 := FixedPoint 16

/-- `fixed::types::I32F32`. -/
abbrev I32F32 := FixedPoint 32

namespace FixedPoint
variable {f : Nat}

instance : Zero (FixedPoint f) := ⟨⟨0⟩⟩
instance : One (FixedPoint f) := ⟨⟨BitVec.ofNat _ (2 ^ f)⟩⟩
instance : Add (FixedPoint f) := ⟨fun a b => ⟨a.bits + b.bits⟩⟩
instance : Sub (FixedPoint f) := ⟨fun a b => ⟨a.bits - b.bits⟩⟩
instance : Neg (FixedPoint f) := ⟨fun a => ⟨-a.bits⟩⟩

/-- Product of the intermediate of `4 f` bits, shifted right by `f`. -/
instance : Mul (FixedPoint f) := ⟨fun a b => ⟨BitVec.ofInt _ (a.bits.toInt * b.bits.toInt / 2 ^ f)⟩⟩

/-- `matrix/data_type.rs:122-148`. -/
instance : MDT (FixedPoint f) where
  recip a := if a.bits.toInt = 0 then .error .arithmetic else .ok ⟨BitVec.ofInt _ (Int.tdiv (2 ^ (2 * f)) a.bits.toInt)⟩
  squareRoot a :=
    if a.bits.toInt < 0 then .error .arithmetic else .ok ⟨BitVec.ofNat _ (Nat.sqrt (a.bits.toInt.toNat * 2 ^ f))⟩
  le a b := decide (a.bits.toInt ≤ b.bits.toInt)
  isum l := l.foldl (· + ·) 0

/-- The default value, used by the builders: zero. -/
instance : Inhabited (FixedPoint f) := ⟨0⟩

/-- `from_num` of a number literal, for example `examples/gravity_fixed.rs:28-66`: the nearest number of the type. (The rounding
of the literal to `f64` and ties are left out; neither changes any number of that program.) -/
def fromNum (q : ℚ) : FixedPoint f := ⟨BitVec.ofInt _ (q * 2 ^ f + 1 / 2).floor⟩

end FixedPoint
end Minikalman
