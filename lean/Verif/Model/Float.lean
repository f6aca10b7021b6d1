import Verif.Model.Basic

/-!
# Binary floating point element types

`matrix/data_type.rs:52-118` implements `MatrixDataType` for `f32` and `f64`, `recip` and `sqrt` being those of the standard
library or `1.0 / self` and those of `libm`. The operators of these types belong to the language; this is a model of IEEE 754
binary arithmetic with round to nearest, ties to even, gradual underflow, signed zeros, infinities and NaN. NaN payloads are
left out. The configurations with `micromath` (`matrix/data_type.rs:64-67, 80-83, 114-117`), which approximate, are not modelled.

A finite number is an integer multiple of the smallest positive number (`2^-149` for `f32`, `2^-1074` for `f64`). All operations
are computed on these integers.
-/

namespace Minikalman

/-- A binary floating point format. -/
structure Format where
  /-- number of bits of a significand, including the hidden one -/
  prec : Nat
  /-- the smallest positive number is `2^-frac` -/
  frac : Nat
  /-- finite numbers are smaller than `2^(top - frac)` -/
  top : Nat
  /-- `Iterator::sum` starts with `-0.0` (newer versions of Rust) instead of `0.0` -/
  sumNeg : Bool
  two_le : 2 ≤ prec
  one_lt : frac < top
  prec_le : prec ≤ top

namespace Format
variable (fmt : Format)

/-- The exponent of `k < 2^(2^i)`, by bisection. -/
def exponentBelow : Nat → Nat → Nat
  | 0, _ => 0
  | i + 1, k => if k < 2 ^ 2 ^ i then exponentBelow i k else 2 ^ i + exponentBelow i (k / 2 ^ 2 ^ i)

/-- The exponent of `k`, that is `k.log2` (`exponent_eq`), in a form that Lean's kernel computes quickly. -/
def exponent (k : Nat) : Nat := if k < 2 ^ 2 ^ 12 then exponentBelow 12 k else k.log2

theorem exponentBelow_eq (i k : Nat) (h : k < 2 ^ 2 ^ i) : exponentBelow i k = k.log2 := by
  induction i generalizing k with
  | zero =>
    have : k = 0 ∨ k = 1 := by
      have : k < 2 := h
      omega
    rcases this with rfl | rfl <;> decide
  | succ i ih =>
    unfold exponentBelow
    by_cases hk : k < 2 ^ 2 ^ i
    · rw [if_pos hk, ih k hk]
    · rw [if_neg hk]
      have hk' : 2 ^ 2 ^ i ≤ k := Nat.le_of_not_lt hk
      have hp := Nat.two_pow_pos (2 ^ i)
      have hq : 0 < k / 2 ^ 2 ^ i := Nat.div_pos hk' hp
      have hlt : k / 2 ^ 2 ^ i < 2 ^ 2 ^ i := by
        rw [Nat.div_lt_iff_lt_mul hp, ← Nat.pow_add]
        rwa [show 2 ^ i + 2 ^ i = 2 ^ (i + 1) by rw [Nat.pow_succ]; omega]
      rw [ih _ hlt]
      have h1 : 2 ^ (k / 2 ^ 2 ^ i).log2 ≤ k / 2 ^ 2 ^ i := Nat.log2_self_le (Nat.ne_of_gt hq)
      have h2 : k / 2 ^ 2 ^ i < 2 ^ ((k / 2 ^ 2 ^ i).log2 + 1) := Nat.lt_log2_self
      rw [Nat.le_div_iff_mul_le hp, ← Nat.pow_add] at h1
      rw [Nat.div_lt_iff_lt_mul hp, ← Nat.pow_add] at h2
      have hk0 : k ≠ 0 := by omega
      have h3 := (Nat.le_log2 hk0).2 h1
      have h4 := (Nat.log2_lt hk0).2 h2
      omega

theorem exponent_eq (k : Nat) : exponent k = k.log2 := by
  unfold exponent
  by_cases h : k < 2 ^ 2 ^ 12
  · rw [if_pos h, exponentBelow_eq 12 k h]
  · rw [if_neg h]

/-- The spacing of numbers around `k` units is `2 ^ fmt.gap k` units. -/
def gap (k : Nat) : Nat := exponent k + 1 - fmt.prec

theorem gap_def (k : Nat) : fmt.gap k = k.log2 + 1 - fmt.prec := by rw [gap, exponent_eq]

/-- `k` units are a finite number: no overflow, and at most `prec` significant bits. -/
def Rep (k : Nat) : Prop := k < 2 ^ fmt.top ∧ 2 ^ fmt.gap k ∣ k

instance (k : Nat) : Decidable (fmt.Rep k) := inferInstanceAs (Decidable (_ ∧ _))

theorem rep_zero : fmt.Rep 0 :=
  ⟨Nat.two_pow_pos _, Nat.dvd_zero _⟩

theorem rep_one : fmt.Rep (2 ^ fmt.frac) := by
  refine ⟨Nat.pow_lt_pow_right (by decide) fmt.one_lt, Nat.pow_dvd_pow _ ?_⟩
  have := fmt.two_le
  rw [gap_def, Nat.log2_two_pow]
  omega

end Format

/-- A floating point number: NaN, an infinity, or a sign and a number of units. -/
inductive Bin (fmt : Format)
  | nan
  | inf (neg : Bool)
  | fin (neg : Bool) (k : Nat) (h : fmt.Rep k)
  deriving DecidableEq

namespace Bin
variable {fmt : Format}

/-- Number of units with sign. -/
def signed (neg : Bool) (k : Nat) : Int := if neg then -(k : Int) else k

/-- The number between `f * 2^s` and `(f + 1) * 2^s` units that is nearest to an exact result, given how the exact result
compares with the midpoint; ties to even, overflow to infinity. -/
def settle (neg : Bool) (s f : Nat) (mid : Ordering) : Bin fmt :=
  let k := match mid with
    | .lt => f
    | .eq => f + f % 2
    | .gt => f + 1
  if h : fmt.Rep (k * 2 ^ s) then .fin neg (k * 2 ^ s) h else .inf neg

/-- `a / d` units, rounded. -/
def round (neg : Bool) (a d : Nat) : Bin fmt :=
  let s := fmt.gap (a / d)
  let f := a / d / 2 ^ s
  settle neg s f (compare (2 * a) ((2 * f + 1) * 2 ^ s * d))

/-- The square root of `a`, in units, rounded. -/
def roundSqrt (a : Nat) : Bin fmt :=
  let s := fmt.gap a.sqrt
  let f := a.sqrt / 2 ^ s
  settle false s f (compare (4 * a) (((2 * f + 1) * 2 ^ s) ^ 2))

instance : Zero (Bin fmt) := ⟨.fin false 0 fmt.rep_zero⟩
instance : One (Bin fmt) := ⟨.fin false (2 ^ fmt.frac) fmt.rep_one⟩

/-- `-a` flips the sign. -/
instance : Neg (Bin fmt) := ⟨fun
  | .nan => .nan
  | .inf s => .inf !s
  | .fin s k h => .fin (!s) k h⟩

/-- `a + b`. An exact zero is positive unless both operands are negative. -/
protected def add : Bin fmt → Bin fmt → Bin fmt
  | .nan, _ => .nan
  | _, .nan => .nan
  | .inf s, .inf t => if s = t then .inf s else .nan
  | .inf s, .fin _ _ _ => .inf s
  | .fin _ _ _, .inf t => .inf t
  | .fin s k _, .fin t l _ =>
    let z := signed s k + signed t l
    if z = 0 then .fin (s && t) 0 fmt.rep_zero else round (decide (z < 0)) z.natAbs 1

instance : Add (Bin fmt) := ⟨Bin.add⟩
instance : Sub (Bin fmt) := ⟨fun a b => a + -b⟩

/-- `a * b`. -/
protected def mul : Bin fmt → Bin fmt → Bin fmt
  | .nan, _ => .nan
  | _, .nan => .nan
  | .inf s, .inf t => .inf (s != t)
  | .inf s, .fin t l _ => if l = 0 then .nan else .inf (s != t)
  | .fin s k _, .inf t => if k = 0 then .nan else .inf (s != t)
  | .fin s k _, .fin t l _ => round (s != t) (k * l) (2 ^ fmt.frac)

instance : Mul (Bin fmt) := ⟨Bin.mul⟩

/-- `1.0 / a`, `matrix/data_type.rs:55-63, 89-97`. -/
protected def recip : Bin fmt → Bin fmt
  | .nan => .nan
  | .inf s => .fin s 0 fmt.rep_zero
  | .fin s k _ => if k = 0 then .inf s else round s (2 ^ (2 * fmt.frac)) k

/-- `a.sqrt()`, `matrix/data_type.rs:71-79, 105-113`. -/
protected def sqrt : Bin fmt → Bin fmt
  | .nan => .nan
  | .inf s => if s then .nan else .inf false
  | .fin s k h => if k = 0 then .fin s k h else if s then .nan else roundSqrt (k * 2 ^ fmt.frac)

/-- `a <= b`: false if one of them is NaN. -/
protected def le : Bin fmt → Bin fmt → Bool
  | .nan, _ => false
  | _, .nan => false
  | .inf s, .inf t => s || !t
  | .inf s, .fin _ _ _ => s
  | .fin _ _ _, .inf t => !t
  | .fin s k _, .fin t l _ => decide (signed s k ≤ signed t l)

/-- `matrix/data_type.rs:52-118`; `isum` is `f32::sum`, `f64::sum`. Nothing panics. -/
instance : MDT (Bin fmt) where
  recip a := .ok a.recip
  squareRoot a := .ok a.sqrt
  le := Bin.le
  isum l := l.foldl (· + ·) (.fin fmt.sumNeg 0 fmt.rep_zero)

end Bin

/-- `f32`. -/
def Format.f32 (sumNeg : Bool) : Format := ⟨24, 149, 277, sumNeg, by decide, by decide, by decide⟩

/-- `f64`. -/
def Format.f64 (sumNeg : Bool) : Format := ⟨53, 1074, 2098, sumNeg, by decide, by decide, by decide⟩

/-- `f32`, with a sum that starts with `-0.0`. -/
abbrev F32 := Bin (.f32 true)

/-- `f64`, with a sum that starts with `-0.0`. -/
abbrev F64 := Bin (.f64 true)

end Minikalman
