import Verif.Spec.Kalman
import Verif.Spec.Exact
import Mathlib.LinearAlgebra.Matrix.PosDef
import Mathlib.Algebra.Order.Star.Real

/-!
# Specification of histories

Which calls are well formed, what it means that a world holds given matrices, and the textbook filter as a transition
system. No reference to kernels or filter steps of the model.
-/

namespace Minikalman

open Matrix

variable {T : Type} {n l m R C : Nat}

/-- All objects of the world have large enough buffers, there is a state and every observation has a measurement. -/
structure World.Valid (w : World n T) : Prop where
  states : 0 < n
  kf : w.kf.Valid
  ctl : ∀ c ∈ w.ctl, c.2.Valid
  obs : ∀ o ∈ w.obs, 0 < o.1 ∧ o.2.Valid

/-- Number of controls and lengths of the user writable buffers of a control. -/
def ctlShape (c : (l : Nat) × Control n l T) : Nat × Nat × Nat × Nat :=
  (c.1, c.2.u.data.length, c.2.B.data.length, c.2.Q.data.length)

/-- Number of observations and lengths of the user writable buffers of an observation. -/
def obsShape (o : (m : Nat) × RegularObservation n m T) : Nat × Nat × Nat × Nat :=
  (o.1, o.2.z.data.length, o.2.H.data.length, o.2.R.data.length)

/-- Same number of objects, of the same dimensions, with user writable buffers of the same lengths. -/
structure World.SameShape (w w' : World n T) : Prop where
  x : w'.kf.x.data.length = w.kf.x.data.length
  A : w'.kf.A.data.length = w.kf.A.data.length
  P : w'.kf.P.data.length = w.kf.P.data.length
  Q : w'.kf.Q.data.length = w.kf.Q.data.length
  ctl : w'.ctl.map ctlShape = w.ctl.map ctlShape
  obs : w'.obs.map obsShape = w.obs.map obsShape

/-- The call names an existing object, and an assignment supplies a slice of the length of the buffer. -/
def Op.WellFormed (w : World n T) : Op T → Prop
  | .predict => True
  | .predictTuned _ => True
  | .control i => i < w.ctl.length
  | .correct i => i < w.obs.length
  | .setX v => v.length = w.kf.x.data.length
  | .setA v => v.length = w.kf.A.data.length
  | .setP v => v.length = w.kf.P.data.length
  | .setQ v => v.length = w.kf.Q.data.length
  | .setU i v => (w.ctl[i]?.map fun c => c.2.u.data.length) = some v.length
  | .setB i v => (w.ctl[i]?.map fun c => c.2.B.data.length) = some v.length
  | .setQc i v => (w.ctl[i]?.map fun c => c.2.Q.data.length) = some v.length
  | .setZ i v => (w.obs[i]?.map fun o => o.2.z.data.length) = some v.length
  | .setH i v => (w.obs[i]?.map fun o => o.2.H.data.length) = some v.length
  | .setR i v => (w.obs[i]?.map fun o => o.2.R.data.length) = some v.length

namespace Spec

/-- The matrix a slice holds in row-major order (cells beyond the slice read as zero; they do not occur in well formed
calls). -/
def matOf [Zero T] (v : List T) : Matrix (Fin R) (Fin C) T := fun i j => (v[(i : Nat) * C + (j : Nat)]?).getD 0

/-- The vector a slice holds. -/
def vecOf [Zero T] (v : List T) : Fin n → T := fun i => (v[(i : Nat)]?).getD 0

/-- A control input of the textbook filter. -/
structure Ctl (n l : Nat) (T : Type) where
  B : Matrix (Fin n) (Fin l) T
  u : Fin l → T
  Q : Matrix (Fin l) (Fin l) T

/-- A measurement of the textbook filter. -/
structure Obs (n m : Nat) (T : Type) where
  H : Matrix (Fin m) (Fin n) T
  z : Fin m → T
  R : Matrix (Fin m) (Fin m) T

/-- The textbook filter with its controls and measurements. -/
structure State (n : Nat) (T : Type) where
  x : Fin n → T
  A : Matrix (Fin n) (Fin n) T
  P : Matrix (Fin n) (Fin n) T
  Q : Matrix (Fin n) (Fin n) T
  ctl : List ((l : Nat) × Ctl n l T)
  obs : List ((m : Nat) × Obs n m T)

/-- One step of the textbook filter; `none` if the object does not exist. -/
noncomputable def State.step [Field T] (s : State n T) : Op T → Option (State n T)
  | .predict => some { s with x := s.A *ᵥ s.x, P := predP s.A s.P s.Q }
  | .predictTuned lambda => some { s with x := s.A *ᵥ s.x, P := predPTuned lambda s.A s.P s.Q }
  | .control i => s.ctl[i]?.map fun c => { s with x := ctlX c.2.B c.2.u s.x, P := ctlP c.2.B c.2.Q s.P }
  | .correct i => s.obs[i]?.map fun o =>
      { s with x := corrX o.2.H s.P o.2.R s.x o.2.z, P := corrP o.2.H s.P o.2.R }
  | .setX v => some { s with x := vecOf v }
  | .setA v => some { s with A := matOf v }
  | .setP v => some { s with P := matOf v }
  | .setQ v => some { s with Q := matOf v }
  | .setU i v => s.ctl[i]?.map fun c => { s with ctl := s.ctl.set i ⟨c.1, { c.2 with u := vecOf v }⟩ }
  | .setB i v => s.ctl[i]?.map fun c => { s with ctl := s.ctl.set i ⟨c.1, { c.2 with B := matOf v }⟩ }
  | .setQc i v => s.ctl[i]?.map fun c => { s with ctl := s.ctl.set i ⟨c.1, { c.2 with Q := matOf v }⟩ }
  | .setZ i v => s.obs[i]?.map fun o => { s with obs := s.obs.set i ⟨o.1, { o.2 with z := vecOf v }⟩ }
  | .setH i v => s.obs[i]?.map fun o => { s with obs := s.obs.set i ⟨o.1, { o.2 with H := matOf v }⟩ }
  | .setR i v => s.obs[i]?.map fun o => { s with obs := s.obs.set i ⟨o.1, { o.2 with R := matOf v }⟩ }

/-- A history of the textbook filter. -/
noncomputable def State.run [Field T] (s : State n T) : List (Op T) → Option (State n T)
  | [] => some s
  | op :: ops => (s.step op).bind fun s' => s'.run ops

/-- The step is mathematically meaningful: `λ ≠ 0`, and the innovation covariance of a correction is positive
definite. -/
def State.Regular (s : State n ℝ) : Op ℝ → Prop
  | .predictTuned lambda => lambda ≠ 0
  | .correct i => ∀ o, s.obs[i]? = some o → (o.2.H * s.P * o.2.Hᵀ + o.2.R).PosDef
  | _ => True

/-- All steps of the history are meaningful in the states in which they happen. -/
def State.RegularRun (s : State n ℝ) : List (Op ℝ) → Prop
  | [] => True
  | op :: ops => s.Regular op ∧ ∀ s', s.step op = some s' → s'.RegularRun ops

/-- All covariances satisfy `G` and all measurement noises satisfy `G'`. -/
structure State.Cov (G G' : ∀ {k : Nat}, Matrix (Fin k) (Fin k) ℝ → Prop) (s : State n ℝ) : Prop where
  P : G s.P
  Q : G s.Q
  ctl : ∀ c ∈ s.ctl, G c.2.Q
  obs : ∀ o ∈ s.obs, G' o.2.R

/-- A call that assigns a covariance assigns one that satisfies `G`, resp. `G'` for a measurement noise. -/
def State.CovData (G G' : ∀ {k : Nat}, Matrix (Fin k) (Fin k) ℝ → Prop) (s : State n ℝ) : Op ℝ → Prop
  | .setP v => G (matOf v : Matrix (Fin n) (Fin n) ℝ)
  | .setQ v => G (matOf v : Matrix (Fin n) (Fin n) ℝ)
  | .setQc i v => ∀ l, (s.ctl.map Sigma.fst)[i]? = some l → G (matOf v : Matrix (Fin l) (Fin l) ℝ)
  | .setR i v => ∀ m, (s.obs.map Sigma.fst)[i]? = some m → G' (matOf v : Matrix (Fin m) (Fin m) ℝ)
  | _ => True

/-- `P`, `Q`, the noises of controls and of measurements are symmetric. -/
abbrev State.Symm (s : State n ℝ) : Prop := s.Cov Matrix.IsSymm Matrix.IsSymm

/-- Assigned covariances are symmetric. -/
abbrev State.SymmData (s : State n ℝ) : Op ℝ → Prop := s.CovData Matrix.IsSymm Matrix.IsSymm

/-- `P`, `Q` and the noises of controls are positive semi-definite, the noises of measurements positive definite. -/
abbrev State.Psd (s : State n ℝ) : Prop := s.Cov Matrix.PosSemidef Matrix.PosDef

/-- Assigned covariances are positive semi-definite, assigned measurement noises positive definite. -/
abbrev State.PsdData (s : State n ℝ) : Op ℝ → Prop := s.CovData Matrix.PosSemidef Matrix.PosDef

end Spec

/-- The call is not `predict_tuned(0)`. -/
def Op.NonzeroLambda : Op ℝ → Prop
  | .predictTuned lambda => lambda ≠ 0
  | _ => True

/-- A control object holds a control input. -/
inductive CtlReps : (l : Nat) × Control n l T → (l : Nat) × Spec.Ctl n l T → Prop
  | mk {l : Nat} {c : Control n l T} {d : Spec.Ctl n l T} : c.Reps d.B d.u d.Q → CtlReps ⟨l, c⟩ ⟨l, d⟩

/-- An observation object holds a measurement. -/
inductive ObsReps : (m : Nat) × RegularObservation n m T → (m : Nat) × Spec.Obs n m T → Prop
  | mk {m : Nat} {o : RegularObservation n m T} {p : Spec.Obs n m T} : 0 < m → o.Reps p.H p.z p.R →
      ObsReps ⟨m, o⟩ ⟨m, p⟩

/-- The world holds the state of a textbook filter. -/
structure World.Reps (w : World n T) (s : Spec.State n T) : Prop where
  states : 0 < n
  kf : w.kf.Reps s.x s.A s.P s.Q
  ctl : List.Forall₂ CtlReps w.ctl s.ctl
  obs : List.Forall₂ ObsReps w.obs s.obs

/-! ## Two histories that differ in their data only -/

/-- The controls have the same number of inputs and hold the same control matrix and noise. -/
inductive CtlCovEq : (l : Nat) × Control n l T → (l : Nat) × Control n l T → Prop
  | mk {l : Nat} {c d : Control n l T} : c.B.Agree d.B → c.Q.Agree d.Q → CtlCovEq ⟨l, c⟩ ⟨l, d⟩

/-- The observations have the same number of measurements and hold the same observation matrix and noise. -/
inductive ObsCovEq : (m : Nat) × RegularObservation n m T → (m : Nat) × RegularObservation n m T → Prop
  | mk {m : Nat} {o p : RegularObservation n m T} : o.H.Agree p.H → o.R.Agree p.R → ObsCovEq ⟨m, o⟩ ⟨m, p⟩

/-- The worlds hold the same matrices `A`, `P`, `Q`, `B`, `Q` (of controls), `H`, `R`. The data `x`, `u`, `z`, all
temporaries and the surplus cells of buffers may differ. -/
structure World.CovEq (w w' : World n T) : Prop where
  A : w.kf.A.Agree w'.kf.A
  P : w.kf.P.Agree w'.kf.P
  Q : w.kf.Q.Agree w'.kf.Q
  ctl : List.Forall₂ CtlCovEq w.ctl w'.ctl
  obs : List.Forall₂ ObsCovEq w.obs w'.obs

/-- The same call, except that assignments of `x`, `u` and `z` may supply different data. -/
inductive Op.SameUpToData : Op T → Op T → Prop
  | same (op : Op T) : SameUpToData op op
  | setX (v v' : List T) : SameUpToData (.setX v) (.setX v')
  | setU (i : Nat) (v v' : List T) : SameUpToData (.setU i v) (.setU i v')
  | setZ (i : Nat) (v v' : List T) : SameUpToData (.setZ i v) (.setZ i v')

/-! ## Superposition of two histories -/

/-- Related triples of lists of the same length. -/
inductive Forall₃ {α β γ : Type} (Q : α → β → γ → Prop) : List α → List β → List γ → Prop
  | nil : Forall₃ Q [] [] []
  | cons {a b c s t u} : Q a b c → Forall₃ Q s t u → Forall₃ Q (a :: s) (b :: t) (c :: u)

section Comb
variable [Ring T]

/-- The third buffer holds the combination `p X + q Y` of the vectors `X` and `Y` held by the others. -/
def Mat.Comb (p q : T) (a b c : Mat n 1 T) : Prop := ∃ X Y, a.RepsV X ∧ b.RepsV Y ∧ c.RepsV (p • X + q • Y)

/-- The control inputs are combined. -/
inductive CtlComb (p q : T) :
    (l : Nat) × Control n l T → (l : Nat) × Control n l T → (l : Nat) × Control n l T → Prop
  | mk {l : Nat} {a b c : Control n l T} : Mat.Comb p q a.u b.u c.u → CtlComb p q ⟨l, a⟩ ⟨l, b⟩ ⟨l, c⟩

/-- The measurements are combined. -/
inductive ObsComb (p q : T) : (m : Nat) × RegularObservation n m T → (m : Nat) × RegularObservation n m T →
    (m : Nat) × RegularObservation n m T → Prop
  | mk {m : Nat} {a b c : RegularObservation n m T} : Mat.Comb p q a.z b.z c.z → ObsComb p q ⟨m, a⟩ ⟨m, b⟩ ⟨m, c⟩

/-- State, control inputs and measurements of the third world are the combinations of those of the others. -/
structure World.Comb (p q : T) (w₁ w₂ w₃ : World n T) : Prop where
  x : Mat.Comb p q w₁.kf.x w₂.kf.x w₃.kf.x
  ctl : Forall₃ (CtlComb p q) w₁.ctl w₂.ctl w₃.ctl
  obs : Forall₃ (ObsComb p q) w₁.obs w₂.obs w₃.obs

/-- The same call, except that assignments of `x`, `u` and `z` supply the combined data. -/
inductive Op.Comb (p q : T) : Op T → Op T → Op T → Prop
  | predict : Comb p q .predict .predict .predict
  | predictTuned (a : T) : Comb p q (.predictTuned a) (.predictTuned a) (.predictTuned a)
  | control (i : Nat) : Comb p q (.control i) (.control i) (.control i)
  | correct (i : Nat) : Comb p q (.correct i) (.correct i) (.correct i)
  | setA (v : List T) : Comb p q (.setA v) (.setA v) (.setA v)
  | setP (v : List T) : Comb p q (.setP v) (.setP v) (.setP v)
  | setQ (v : List T) : Comb p q (.setQ v) (.setQ v) (.setQ v)
  | setB (i : Nat) (v : List T) : Comb p q (.setB i v) (.setB i v) (.setB i v)
  | setQc (i : Nat) (v : List T) : Comb p q (.setQc i v) (.setQc i v) (.setQc i v)
  | setH (i : Nat) (v : List T) : Comb p q (.setH i v) (.setH i v) (.setH i v)
  | setR (i : Nat) (v : List T) : Comb p q (.setR i v) (.setR i v) (.setR i v)
  | setX (v₁ v₂ : List T) : Comb p q (.setX v₁) (.setX v₂) (.setX (v₁.zipWith (fun a b => p * a + q * b) v₂))
  | setU (i : Nat) (v₁ v₂ : List T) :
      Comb p q (.setU i v₁) (.setU i v₂) (.setU i (v₁.zipWith (fun a b => p * a + q * b) v₂))
  | setZ (i : Nat) (v₁ v₂ : List T) :
      Comb p q (.setZ i v₁) (.setZ i v₂) (.setZ i (v₁.zipWith (fun a b => p * a + q * b) v₂))

end Comb
end Minikalman
