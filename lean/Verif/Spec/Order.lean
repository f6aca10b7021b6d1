import Verif.Spec.History

/-!
# Which calls may be exchanged

Every call touches some of the vectors and matrices a program works with. Two calls are independent if one of them is an
assignment of something the other one does not touch, or both are corrections, or both are control inputs. A history is a
reordering of another one if it arises by exchanging adjacent independent calls. No reference to the model.
-/

namespace Minikalman

variable {T : Type}

/-- The vectors and matrices of a program: those of the filter, of the `i`-th control and of the `i`-th observation. -/
inductive Cell
  | x | A | P | Q
  | u (i : Nat) | B (i : Nat) | Qc (i : Nat)
  | z (i : Nat) | H (i : Nat) | R (i : Nat)
  deriving DecidableEq

/-- What an assignment assigns; other calls assign nothing in this sense. -/
def Op.assigns : Op T → Option Cell
  | .setX _ => some .x
  | .setA _ => some .A
  | .setP _ => some .P
  | .setQ _ => some .Q
  | .setU i _ => some (.u i)
  | .setB i _ => some (.B i)
  | .setQc i _ => some (.Qc i)
  | .setZ i _ => some (.z i)
  | .setH i _ => some (.H i)
  | .setR i _ => some (.R i)
  | _ => none

/-- What a call reads or writes. -/
def Op.touches : Op T → List Cell
  | .predict => [.x, .A, .P, .Q]
  | .predictTuned _ => [.x, .A, .P, .Q]
  | .control i => [.x, .P, .u i, .B i, .Qc i]
  | .correct i => [.x, .P, .z i, .H i, .R i]
  | .setX _ => [.x]
  | .setA _ => [.A]
  | .setP _ => [.P]
  | .setQ _ => [.Q]
  | .setU i _ => [.u i]
  | .setB i _ => [.B i]
  | .setQc i _ => [.Qc i]
  | .setZ i _ => [.z i]
  | .setH i _ => [.H i]
  | .setR i _ => [.R i]

/-- `a` assigns something `b` does not touch. -/
def Op.AssignsBeside (a b : Op T) : Prop := ∃ c, a.assigns = some c ∧ c ∉ b.touches

/-- Two calls whose order does not matter in exact arithmetic. -/
inductive Op.Independent : Op T → Op T → Prop
  | corrections (i j : Nat) : Independent (.correct i) (.correct j)
  | controls (i j : Nat) : Independent (.control i) (.control j)
  | left {a b : Op T} : a.AssignsBeside b → Independent a b
  | right {a b : Op T} : b.AssignsBeside a → Independent a b

/-- The second history arises from the first one by exchanging adjacent calls that are `I`. -/
inductive Reordered (I : Op T → Op T → Prop) : List (Op T) → List (Op T) → Prop
  | nil : Reordered I [] []
  | cons (op : Op T) {a b : List (Op T)} : Reordered I a b → Reordered I (op :: a) (op :: b)
  | swap {a b : Op T} (h : I a b) (l : List (Op T)) : Reordered I (a :: b :: l) (b :: a :: l)
  | trans {a b c : List (Op T)} : Reordered I a b → Reordered I b c → Reordered I a c

/-- One of the calls assigns something the other one does not touch. -/
def Op.Beside (a b : Op T) : Prop := a.AssignsBeside b ∨ b.AssignsBeside a

end Minikalman
