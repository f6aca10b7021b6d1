/-!
# Basics of the model: panics, slices, loops, element types

Everything here models language features used by `crates/minikalman/src` (bounds checked slices, checked
`usize` subtraction, `for`/`while` loops, early `return`) and the element type traits of
`crates/minikalman/src/matrix/data_type.rs`.
-/

namespace Minikalman



/-- The ways a Rust function of the crate can panic. A panic ends the run; partially mutated
buffers after unwinding are not modelled (simplification). -/
inductive Panic
  /-- slice index out of range -/
  | bounds
  /-- `usize` subtraction below zero. In release builds the subtraction wraps; in each place where the crate
  does this the wrapped value is then used as a slice index, which panics as well (simplification: one panic kind). -/
  | underflow
  /-- `assert!`/`debug_assert!` -/
  | assertion
  /-- panic of a scalar operation (fixed point reciprocal of zero, root of a negative number) -/
  | arithmetic
  deriving DecidableEq, Repr

/-- Result of running Rust code: a value or a panic. -/
abbrev Res (α : Type) := Except Panic α

/-- Build configuration: `debug_assertions` and the cargo feature `no_assert`
(`/repo/crates/minikalman/Cargo.toml`, `[features]`). -/
structure Build where
  debugAssertions : Bool
  noAssert : Bool
  deriving DecidableEq, Repr

/-- `debug_assert!` guarded by `#[cfg(not(feature = "no_assert"))]`, as in
`matrix/traits.rs:1131-1135` or `buffers/macros.rs:68-71`. -/
def debugAssert (bld : Build) (cond : Bool) : Res Unit :=
  if bld.debugAssertions && !bld.noAssert && !cond then .error .assertion else .ok ()

/-- `assert!` guarded by `#[cfg(not(feature = "no_assert"))]`, as in
`matrix/data/matrix_data_array.rs:27-31`. -/
def assertUnlessNoAssert (bld : Build) (cond : Bool) : Res Unit :=
  if !bld.noAssert && !cond then .error .assertion else .ok ()

section Slices
variable {T : Type}

/-- `slice[i]` as a value (`T: Copy`): bounds checked read. -/
def rd (s : List T) (i : Nat) : Res T :=
  match s[i]? with
  | some v => .ok v
  | none => .error .bounds

/-- `slice[i] = v`: bounds checked write. -/
def wr (s : List T) (i : Nat) (v : T) : Res (List T) :=
  if i < s.length then .ok (s.set i v) else .error .bounds

/-- `a - b` on `usize`. -/
def usub (a b : Nat) : Res Nat :=
  if b ≤ a then .ok (a - b) else .error .underflow

end Slices

section Loops
variable {σ : Type} {ρ : Type}

/-- `n` iterations with an ascending counter starting at `lo`. -/
def forCount : Nat → Nat → (Nat → σ → Res σ) → σ → Res σ
  | 0, _, _, s => .ok s
  | n + 1, lo, body, s => do
    let s ← body lo s
    forCount n (lo + 1) body s

/-- `for i in lo..hi { body }`; also `while i < hi { body; i += 1 }` starting at `i = lo`. -/
def forUp (lo hi : Nat) (body : Nat → σ → Res σ) (s : σ) : Res σ :=
  forCount (hi - lo) lo body s

/-- `for i in (0..n).rev() { body }`. -/
def forDown : Nat → (Nat → σ → Res σ) → σ → Res σ
  | 0, _, s => .ok s
  | n + 1, body, s => do
    let s ← body n s
    forDown n body s

/-- Outcome of a loop body that may `return` from the enclosing function. -/
inductive Ctl (σ : Type) (ρ : Type)
  /-- go on with the next iteration -/
  | cont (s : σ)
  /-- `return r` -/
  | ret (r : ρ)

/-- `n` iterations of a body that may return early. -/
def forCountR : Nat → Nat → (Nat → σ → Res (Ctl σ ρ)) → σ → Res (Ctl σ ρ)
  | 0, _, _, s => .ok (.cont s)
  | n + 1, lo, body, s =>
    match body lo s with
    | .error e => .error e
    | .ok (.ret r) => .ok (.ret r)
    | .ok (.cont s) => forCountR n (lo + 1) body s

/-- `for i in lo..hi { body }` where the body may `return`. -/
def forUpR (lo hi : Nat) (body : Nat → σ → Res (Ctl σ ρ)) (s : σ) : Res (Ctl σ ρ) :=
  forCountR (hi - lo) lo body s

end Loops

/-- The parts of `MatrixDataType` (`matrix/data_type.rs:7-34`) besides `0 1 + - * neg`, which are taken from
Lean's notation classes (`AddAssign`/`SubAssign` are taken to agree with `Add`/`Sub`). No law is assumed.
`recip` and `square_root` may panic (the fixed point implementations, `matrix/data_type.rs:120-148`, do).
`le` is `PartialOrd::le`, `isum` is `core::iter::Sum`. `Div` is not used by the kernels except through
`recip`. -/
class MDT (T : Type) where
  recip : T → Res T
  squareRoot : T → Res T
  le : T → T → Bool
  isum : List T → T

end Minikalman
