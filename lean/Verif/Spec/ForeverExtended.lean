import Verif.Spec.ForeverFixed
import Verif.Spec.Extended

/-!
# An extended filter with one state that runs forever: conditions on the functions
-/

namespace Minikalman
namespace Spec
open FixedPoint

/-- The vector holds the number `a`, which is finite and at most `X`. -/
def StateIs {fmt : Format} (X : ℝ) (x : Mat 1 1 (Bin fmt)) (a : Bin fmt) : Prop :=
  x.data[0]? = some a ∧ a.Finite ∧ |a.val| ≤ X

/-- The calls: predictions with functions that map states of at most `X` to states of at most `X`; corrections with functions that differ from the state
by at most `D`; new measurements of at most `Z`, states of at most `X`, variances between 0 and `B` and Jacobians `A` of at most 1. The functions do not
panic for states of at most `X`, write to the buffer they get and do not change its length. What they capture (`st`) is arbitrary. -/
def XTame {fmt : Format} {σ : Type} (X Z D B : ℝ) : Minikalman.XOp 1 (Bin fmt) σ → Prop
  | .predict g => ∀ st x out a, 0 < out.data.length → StateIs X x a →
      ∃ st' out' b, g st x out = .ok (st', out') ∧ out'.data.length = out.data.length ∧ StateIs X out' b
  | .correct _ h => ∀ st x out a, 0 < out.data.length → StateIs X x a →
      ∃ st' out' b, h 1 st x out = .ok (st', out') ∧ out'.data.length = out.data.length ∧ out'.data[0]? = some b ∧ b.Finite ∧ |b.val - a.val| ≤ D
  | .assign a => Tame X Z B a.toOp
  | .predictTuned _ _ => False

/-- The vector holds the number `a`, which is at most `X`. -/
def StateIsFixed {f : Nat} (X : ℝ) (x : Mat 1 1 (FixedPoint f)) (a : FixedPoint f) : Prop := x.data[0]? = some a ∧ |a.val| ≤ X

/-- The same for fixed point numbers. -/
def XTameFixed {f : Nat} {σ : Type} (X Z D B : ℝ) : Minikalman.XOp 1 (FixedPoint f) σ → Prop
  | .predict g => ∀ st x out a, 0 < out.data.length → StateIsFixed X x a →
      ∃ st' out' b, g st x out = .ok (st', out') ∧ out'.data.length = out.data.length ∧ StateIsFixed X out' b
  | .correct _ h => ∀ st x out a, 0 < out.data.length → StateIsFixed X x a →
      ∃ st' out' b, h 1 st x out = .ok (st', out') ∧ out'.data.length = out.data.length ∧ out'.data[0]? = some b ∧ |b.val - a.val| ≤ D
  | .assign a => TameFixed X Z B a.toOp
  | .predictTuned _ _ => False

end Spec
end Minikalman
