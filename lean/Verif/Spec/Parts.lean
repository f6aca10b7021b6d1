import Verif.Spec.History
import Mathlib.Order.Monotone.Defs

/-!
# A filter that contains a smaller one

A filter with `n` states, `k` of which, `p 0 < p 1 < ...`, are not coupled to the others, and a filter with these `k` states only.
Any arithmetic in which zero is neutral. No reference to the model.
-/

namespace Minikalman
namespace Spec

/-- Adding and subtracting zero changes nothing, and zero times anything is zero: exact arithmetic and fixed point numbers, but not
floating point numbers, where `0 * ∞` is NaN and `-0 + 0` is not `-0`. -/
structure ZeroExact (T : Type) [Zero T] [Add T] [Sub T] [Mul T] : Prop where
  add_zero : ∀ a : T, a + 0 = a
  zero_add : ∀ a : T, 0 + a = a
  sub_zero : ∀ a : T, a - 0 = a
  mul_zero : ∀ a : T, a * 0 = 0
  zero_mul : ∀ a : T, 0 * a = 0

variable {T : Type} {n k R C R' C' : Nat}

/-- `N` consists of the rows `p` and columns `q` of `M`. Nothing else is in these columns, nor in these rows. -/
structure Block [Zero T] (p : Fin R' → Fin R) (q : Fin C' → Fin C) (M : Matrix (Fin R) (Fin C) T) (N : Matrix (Fin R') (Fin C') T) : Prop where
  same : ∀ a b, N a b = M (p a) (q b)
  rows : ∀ a j, (∀ b, j ≠ q b) → M (p a) j = 0
  cols : ∀ i b, (∀ a, i ≠ p a) → M i (q b) = 0

/-- Which control and which observation of the small filter a control or observation of the large one is, if it is one of them. -/
structure Share where
  ctl : Nat → Option Nat
  obs : Nat → Option Nat
  ctl_inj : ∀ i i' j, ctl i = some j → ctl i' = some j → i = i'
  obs_inj : ∀ i i' j, obs i = some j → obs i' = some j → i = i'

/-- The control of the large filter acts on the small one as its control does, and on nothing else. -/
inductive CtlPart [Zero T] (p : Fin k → Fin n) : (l : Nat) × Ctl n l T → (l : Nat) × Ctl k l T → Prop
  | mk {l : Nat} {c : Ctl n l T} {d : Ctl k l T} (B : Block p id c.B d.B) (u : d.u = c.u) (Q : d.Q = c.Q) : CtlPart p ⟨l, c⟩ ⟨l, d⟩

/-- The sensor of the large filter sees of the small one what its sensor sees, and nothing else. -/
inductive ObsPart [Zero T] (p : Fin k → Fin n) : (m : Nat) × Obs n m T → (m : Nat) × Obs k m T → Prop
  | mk {m : Nat} {o : Obs n m T} {d : Obs k m T} (H : Block id p o.H d.H) (z : d.z = o.z) (R : d.R = o.R) : ObsPart p ⟨m, o⟩ ⟨m, d⟩

/-- `t` is the part `p` of `s`. The controls and sensors of `s` that are not controls and sensors of `t` have nothing to do with this
part. -/
structure State.Part [Zero T] (p : Fin k → Fin n) (g : Share) (s : State n T) (t : State k T) : Prop where
  x : ∀ a, t.x a = s.x (p a)
  A : Block p p s.A t.A
  P : Block p p s.P t.P
  Q : Block p p s.Q t.Q
  ctlIn : ∀ i j c, g.ctl i = some j → s.ctl[i]? = some c → ∃ d, t.ctl[j]? = some d ∧ CtlPart p c d
  ctlOut : ∀ i c, g.ctl i = none → s.ctl[i]? = some c → ∀ a b, c.2.B (p a) b = 0
  obsIn : ∀ i j o, g.obs i = some j → s.obs[i]? = some o → ∃ d, t.obs[j]? = some d ∧ ObsPart p o d
  obsOut : ∀ i o, g.obs i = none → s.obs[i]? = some o → ∀ b a, o.2.H b (p a) = 0

/-- The call of the large filter is a call of the small one, too: the second. `ls` and `ms` are the numbers of inputs of the controls
and of measured values of the sensors. -/
inductive OpPart [Zero T] (p : Fin k → Fin n) (g : Share) (ls ms : List Nat) : Op T → Op T → Prop
  | predict : OpPart p g ls ms .predict .predict
  | predictTuned (a : T) : OpPart p g ls ms (.predictTuned a) (.predictTuned a)
  | setX (v v' : List T) (h : ∀ a, (vecOf v' : Fin k → T) a = (vecOf v : Fin n → T) (p a)) : OpPart p g ls ms (.setX v) (.setX v')
  | setA (v v' : List T) (h : Block p p (matOf v) (matOf v')) : OpPart p g ls ms (.setA v) (.setA v')
  | setP (v v' : List T) (h : Block p p (matOf v) (matOf v')) : OpPart p g ls ms (.setP v) (.setP v')
  | setQ (v v' : List T) (h : Block p p (matOf v) (matOf v')) : OpPart p g ls ms (.setQ v) (.setQ v')
  | control (i j : Nat) (hi : g.ctl i = some j) : OpPart p g ls ms (.control i) (.control j)
  | setU (i j : Nat) (v : List T) (hi : g.ctl i = some j) : OpPart p g ls ms (.setU i v) (.setU j v)
  | setB (i j : Nat) (v v' : List T) (hi : g.ctl i = some j)
      (h : ∀ l, ls[i]? = some l → Block p id (matOf v : Matrix (Fin n) (Fin l) T) (matOf v' : Matrix (Fin k) (Fin l) T)) :
      OpPart p g ls ms (.setB i v) (.setB j v')
  | setQc (i j : Nat) (v : List T) (hi : g.ctl i = some j) : OpPart p g ls ms (.setQc i v) (.setQc j v)
  | correct (i j : Nat) (hi : g.obs i = some j) : OpPart p g ls ms (.correct i) (.correct j)
  | setZ (i j : Nat) (v : List T) (hi : g.obs i = some j) : OpPart p g ls ms (.setZ i v) (.setZ j v)
  | setH (i j : Nat) (v v' : List T) (hi : g.obs i = some j)
      (h : ∀ m, ms[i]? = some m → Block id p (matOf v : Matrix (Fin m) (Fin n) T) (matOf v' : Matrix (Fin m) (Fin k) T)) :
      OpPart p g ls ms (.setH i v) (.setH j v')
  | setR (i j : Nat) (v : List T) (hi : g.obs i = some j) : OpPart p g ls ms (.setR i v) (.setR j v)

/-- The call concerns a control or a sensor that has nothing to do with the part, and keeps it so. -/
def OpOther [Zero T] (p : Fin k → Fin n) (g : Share) (ls ms : List Nat) : Op T → Prop
  | .control i | .setU i _ | .setQc i _ => g.ctl i = none
  | .correct i | .setZ i _ | .setR i _ => g.obs i = none
  | .setB i v => g.ctl i = none ∧ ∀ l, ls[i]? = some l → ∀ a b, (matOf v : Matrix (Fin n) (Fin l) T) (p a) b = 0
  | .setH i v => g.obs i = none ∧ ∀ m, ms[i]? = some m → ∀ b a, (matOf v : Matrix (Fin m) (Fin n) T) b (p a) = 0
  | _ => False

/-- The second history is what the first one is for the small filter: the calls that have nothing to do with it are missing. -/
inductive OpsPart [Zero T] (p : Fin k → Fin n) (g : Share) (ls ms : List Nat) : List (Op T) → List (Op T) → Prop
  | nil : OpsPart p g ls ms [] []
  | part {op op' ops ops'} (h : OpPart p g ls ms op op') (ht : OpsPart p g ls ms ops ops') : OpsPart p g ls ms (op :: ops) (op' :: ops')
  | other {op ops ops'} (h : OpOther p g ls ms op) (ht : OpsPart p g ls ms ops ops') : OpsPart p g ls ms (op :: ops) ops'

end Spec
end Minikalman
