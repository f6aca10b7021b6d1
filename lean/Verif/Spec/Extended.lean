import Verif.Model.ExtendedWorld
import Verif.Spec.History

/-!
# Specification of the extended filter

What the objects hold, the textbook extended Kalman filter as a transition system, and what it means that a closure
computes a function. No reference to kernels or filter steps of the model.
-/

namespace Minikalman

open Matrix

variable {T σ : Type} {n m : Nat}

/-- The buffers of the extended filter in a regular one. -/
def ExtendedKalman.asRegular (f : ExtendedKalman n T) : RegularKalman n T :=
  ⟨f.x, f.A, f.P, f.Q, f.predictedX, f.tempP⟩

/-- The buffers of a regular filter in an extended one. -/
def RegularKalman.asExtended (f : RegularKalman n T) : ExtendedKalman n T :=
  ⟨f.x, f.A, f.P, f.Q, f.predictedX, f.tempP⟩

/-- The buffers of the extended observation in a regular one. -/
def ExtendedObservation.asRegular (o : ExtendedObservation n m T) : RegularObservation n m T :=
  ⟨o.H, o.z, o.R, o.y, o.S, o.K, o.tempSInv, o.tempHP, o.tempPHt, o.tempKHP⟩

/-- The buffers of a regular observation in an extended one. -/
def RegularObservation.asExtended (o : RegularObservation n m T) : ExtendedObservation n m T :=
  ⟨o.H, o.z, o.R, o.y, o.S, o.K, o.tempSInv, o.tempHP, o.tempPHt, o.tempKHP⟩

/-- The buffers of the program in a program with a regular filter (without controls). -/
def XWorld.asRegular (w : XWorld n T σ) : World n T :=
  ⟨w.kf.asRegular, [], w.obs.map fun o => ⟨o.1, o.2.asRegular⟩⟩

/-- The buffers of a program with a regular filter without controls in one with an extended filter. -/
def World.asExtended (w : World n T) (env : σ) : XWorld n T σ :=
  ⟨w.kf.asExtended, w.obs.map fun o => ⟨o.1, o.2.asExtended⟩, env⟩

/-- All buffers are large enough, there is a state and every observation has a measurement. -/
def XWorld.Valid (w : XWorld n T σ) : Prop := w.asRegular.Valid

/-- The program holds a textbook filter. -/
def XWorld.Reps (w : XWorld n T σ) (s : Spec.State n T) : Prop := w.asRegular.Reps s

/-- Assignments as calls on the textbook filter. -/
def Assign.toOp : Assign T → Op T
  | .x v => .setX v
  | .A v => .setA v
  | .P v => .setP v
  | .Q v => .setQ v
  | .z i v => .setZ i v
  | .H i v => .setH i v
  | .R i v => .setR i v

/-- The call names an existing object, and an assignment supplies a slice of the length of the buffer. -/
def XOp.WellFormed (w : XWorld n T σ) : XOp n T σ → Prop
  | .predict _ => True
  | .predictTuned _ _ => True
  | .correct i _ => i < w.obs.length
  | .assign a => a.toOp.WellFormed w.asRegular

/-! ## Closures -/

/-- When the closure returns, the buffer it was given still has its length (closures can replace the whole buffer
object only by assigning a new one; this excludes assigning one of another length). -/
def KeepsLength {k : Nat} (g : σ → Mat n 1 T → Mat k 1 T → Res (σ × Mat k 1 T)) : Prop :=
  ∀ st x out st' out', g st x out = .ok (st', out') → out'.data.length = out.data.length

/-- All closures of the call keep buffer lengths. -/
def XOp.KeepsLength : XOp n T σ → Prop
  | .predict g => Minikalman.KeepsLength g
  | .predictTuned _ g => Minikalman.KeepsLength g
  | .correct _ h => ∀ m, Minikalman.KeepsLength (h m)
  | .assign _ => True

/-- The closure of the call can raise the panic `e`. -/
def XOp.ClosurePanic (e : Panic) : XOp n T σ → Prop
  | .predict g => ∃ st x out, g st x out = .error e
  | .predictTuned _ g => ∃ st x out, g st x out = .error e
  | .correct _ h => ∃ m st x out, h m st x out = .error e
  | .assign _ => False

/-- The closure computes the function `g` (from any buffer holding `X` to a buffer holding `g X`), without panic,
whatever its captured state and the old contents of the output buffer. -/
def Computes {k : Nat} (c : σ → Mat n 1 T → Mat k 1 T → Res (σ × Mat k 1 T)) (g : (Fin n → T) → Fin k → T) : Prop :=
  ∀ st x (out : Mat k 1 T) X, x.RepsV X → out.Valid →
    ∃ st' out', c st x out = .ok (st', out') ∧ out'.RepsV (g X) ∧ out'.data.length = out.data.length

namespace Spec

/-- One call of the textbook extended filter: arbitrary state transition and observation functions. -/
inductive XOp (n : Nat) (T : Type)
  | predict (g : (Fin n → T) → Fin n → T)
  | predictTuned (lambda : T) (g : (Fin n → T) → Fin n → T)
  | correct (i : Nat) (h : (m : Nat) → (Fin n → T) → Fin m → T)
  | assign (a : Assign T)

/-- One step of the textbook extended filter: `x = g(x)`, `P = A P Aᵀ (/ λ²) + Q`; `x = x + K (z - h(x))`,
`P = P - K H P` with the gain of the Jacobian `H`. -/
noncomputable def State.xstep [Field T] (s : State n T) : XOp n T → Option (State n T)
  | .predict g => some { s with x := g s.x, P := predP s.A s.P s.Q }
  | .predictTuned lambda g => some { s with x := g s.x, P := predPTuned lambda s.A s.P s.Q }
  | .correct i h => s.obs[i]?.map fun o =>
      { s with x := s.x + gain o.2.H s.P o.2.R *ᵥ (o.2.z - h o.1 s.x), P := corrP o.2.H s.P o.2.R }
  | .assign a => s.step a.toOp

/-- A history of the textbook extended filter. -/
noncomputable def State.xrun [Field T] (s : State n T) : List (XOp n T) → Option (State n T)
  | [] => some s
  | op :: ops => (s.xstep op).bind fun s' => s'.xrun ops

/-- The call of the regular filter with the same effect on the covariance. -/
def XOp.linear : XOp n T → Op T
  | .predict _ => .predict
  | .predictTuned lambda _ => .predictTuned lambda
  | .correct i _ => .correct i
  | .assign a => a.toOp

/-- All steps of the history are meaningful in the states in which they happen: `λ ≠ 0`, positive definite innovation
covariances. -/
def State.XRegularRun (s : State n ℝ) : List (XOp n ℝ) → Prop
  | [] => True
  | op :: ops => s.Regular op.linear ∧ ∀ s', s.xstep op = some s' → s'.XRegularRun ops

end Spec

/-- The call on the program is the call on the textbook filter: its closure computes the function. -/
inductive XOp.Implements : XOp n T σ → Spec.XOp n T → Prop
  | predict {c g} : Computes c g → Implements (.predict c) (.predict g)
  | predictTuned {lambda c g} : Computes c g → Implements (.predictTuned lambda c) (.predictTuned lambda g)
  | correct {i c} {h : (m : Nat) → (Fin n → T) → Fin m → T} : (∀ m, Computes (c m) (h m)) →
      Implements (.correct i c) (.correct i h)
  | assign {a} : Implements (.assign a) (.assign a)

/-- The closures of the call never panic. -/
def XOp.Total : XOp n T σ → Prop
  | .predict g => ∀ st x out, ∃ r, g st x out = .ok r
  | .predictTuned _ g => ∀ st x out, ∃ r, g st x out = .ok r
  | .correct _ h => ∀ m st x out, ∃ r, h m st x out = .ok r
  | .assign _ => True

/-- The closure `g` instrumented so that it appends the arguments of every call to a list. -/
def logged {k : Nat} (g : σ → Mat n 1 T → Mat k 1 T → Res (σ × Mat k 1 T)) :
    σ × List (Mat n 1 T × Mat k 1 T) → Mat n 1 T → Mat k 1 T →
      Res ((σ × List (Mat n 1 T × Mat k 1 T)) × Mat k 1 T) :=
  fun st x out => do
    let (st', out') ← g st.1 x out
    pure ((st', st.2 ++ [(x, out)]), out')

/-- The closure `g` instrumented so that it counts its calls. -/
def counted {k : Nat} (g : σ → Mat n 1 T → Mat k 1 T → Res (σ × Mat k 1 T)) :
    σ × Nat → Mat n 1 T → Mat k 1 T → Res ((σ × Nat) × Mat k 1 T) :=
  fun st x out => do
    let (st', out') ← g st.1 x out
    pure ((st', st.2 + 1), out')

/-- The same call with its closure instrumented by `counted`. -/
def XOp.counted : XOp n T σ → XOp n T (σ × Nat)
  | .predict g => .predict (Minikalman.counted g)
  | .predictTuned lambda g => .predictTuned lambda (Minikalman.counted g)
  | .correct i h => .correct i fun m => Minikalman.counted (h m)
  | .assign a => .assign a

/-- The number of predictions and corrections of a history. -/
def XOp.updates : List (XOp n T σ) → Nat
  | [] => 0
  | .assign _ :: ops => XOp.updates ops
  | _ :: ops => XOp.updates ops + 1

/-- The same program with other things captured by its closures. -/
def XWorld.withEnv {τ : Type} (w : XWorld n T σ) (env : τ) : XWorld n T τ := { kf := w.kf, obs := w.obs, env := env }

/-- The same call, except that closures and assignments of `x` and `z` may differ. -/
inductive XOp.SameUpToData : XOp n T σ → XOp n T σ → Prop
  | predict (g g') : SameUpToData (.predict g) (.predict g')
  | predictTuned (lambda g g') : SameUpToData (.predictTuned lambda g) (.predictTuned lambda g')
  | correct (i h h') : SameUpToData (.correct i h) (.correct i h')
  | assign (a) : SameUpToData (.assign a) (.assign a)
  | assignX (v v') : SameUpToData (.assign (.x v)) (.assign (.x v'))
  | assignZ (i v v') : SameUpToData (.assign (.z i v)) (.assign (.z i v'))

end Minikalman
