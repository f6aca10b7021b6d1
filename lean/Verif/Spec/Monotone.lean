import Verif.Spec.History

/-!
# Comparing two histories with more and less noise

What it means that one program is told at least as much noise as another one and sees at most as many measurements. No
reference to the model.
-/

namespace Minikalman
namespace Spec

open Matrix

variable {n : Nat}

/-- Same control matrix, at least as much noise; the inputs may differ. -/
inductive CtlBelow : (l : Nat) × Ctl n l ℝ → (l : Nat) × Ctl n l ℝ → Prop
  | mk {l : Nat} {c d : Ctl n l ℝ} (B : d.B = c.B) (Q : (d.Q - c.Q).PosSemidef) : CtlBelow ⟨l, c⟩ ⟨l, d⟩

/-- Same observation matrix, at least as much noise; the measurements may differ. -/
inductive ObsBelow : (m : Nat) × Obs n m ℝ → (m : Nat) × Obs n m ℝ → Prop
  | mk {m : Nat} {o p : Obs n m ℝ} (H : p.H = o.H) (R : (p.R - o.R).PosSemidef) : ObsBelow ⟨m, o⟩ ⟨m, p⟩

/-- Same transition, control and observation matrices; all covariances of the second filter are at least those of the
first (differences are positive semi-definite). States, inputs and measurements may differ. -/
structure State.Below (s s' : State n ℝ) : Prop where
  A : s'.A = s.A
  P : (s'.P - s.P).PosSemidef
  Q : (s'.Q - s.Q).PosSemidef
  ctl : List.Forall₂ CtlBelow s.ctl s'.ctl
  obs : List.Forall₂ ObsBelow s.obs s'.obs

/-- The same call with at least as much noise in the second history. `ls` and `ms` are the numbers of inputs of the
controls and of values of the measurements. -/
inductive OpBelow (n : Nat) (ls ms : List Nat) : Op ℝ → Op ℝ → Prop
  | predict : OpBelow n ls ms .predict .predict
  | predictTuned (a b : ℝ) (h : |b| ≤ |a|) : OpBelow n ls ms (.predictTuned a) (.predictTuned b)
  | inflated (b : ℝ) (h : |b| ≤ 1) : OpBelow n ls ms .predict (.predictTuned b)
  | deflated (a : ℝ) (h : 1 ≤ |a|) : OpBelow n ls ms (.predictTuned a) .predict
  | control (i : Nat) : OpBelow n ls ms (.control i) (.control i)
  | correct (i : Nat) : OpBelow n ls ms (.correct i) (.correct i)
  | setX (v v' : List ℝ) : OpBelow n ls ms (.setX v) (.setX v')
  | setA (v v' : List ℝ) (h : (matOf v' : Matrix (Fin n) (Fin n) ℝ) = matOf v) : OpBelow n ls ms (.setA v) (.setA v')
  | setP (v v' : List ℝ) (h : ((matOf v' : Matrix (Fin n) (Fin n) ℝ) - matOf v).PosSemidef) :
      OpBelow n ls ms (.setP v) (.setP v')
  | setQ (v v' : List ℝ) (h : ((matOf v' : Matrix (Fin n) (Fin n) ℝ) - matOf v).PosSemidef) :
      OpBelow n ls ms (.setQ v) (.setQ v')
  | setU (i : Nat) (v v' : List ℝ) : OpBelow n ls ms (.setU i v) (.setU i v')
  | setB (i : Nat) (v v' : List ℝ) (h : ∀ l, ls[i]? = some l → (matOf v' : Matrix (Fin n) (Fin l) ℝ) = matOf v) :
      OpBelow n ls ms (.setB i v) (.setB i v')
  | setQc (i : Nat) (v v' : List ℝ)
      (h : ∀ l, ls[i]? = some l → ((matOf v' : Matrix (Fin l) (Fin l) ℝ) - matOf v).PosSemidef) :
      OpBelow n ls ms (.setQc i v) (.setQc i v')
  | setZ (i : Nat) (v v' : List ℝ) : OpBelow n ls ms (.setZ i v) (.setZ i v')
  | setH (i : Nat) (v v' : List ℝ) (h : ∀ m, ms[i]? = some m → (matOf v' : Matrix (Fin m) (Fin n) ℝ) = matOf v) :
      OpBelow n ls ms (.setH i v) (.setH i v')
  | setR (i : Nat) (v v' : List ℝ)
      (h : ∀ m, ms[i]? = some m → ((matOf v' : Matrix (Fin m) (Fin m) ℝ) - matOf v).PosSemidef) :
      OpBelow n ls ms (.setR i v) (.setR i v')

/-- The same calls with at least as much noise in the second history; the first history may have additional
measurements (corrections, wherever the second one has none), the second one additional control inputs. -/
inductive OpsBelow (n : Nat) (ls ms : List Nat) : List (Op ℝ) → List (Op ℝ) → Prop
  | nil : OpsBelow n ls ms [] []
  | cons {op op' : Op ℝ} {ops ops' : List (Op ℝ)} : OpBelow n ls ms op op' → OpsBelow n ls ms ops ops' →
      OpsBelow n ls ms (op :: ops) (op' :: ops')
  | measured (i : Nat) {ops ops' : List (Op ℝ)} : OpsBelow n ls ms ops ops' →
      OpsBelow n ls ms (.correct i :: ops) ops'
  | controlled (i : Nat) {ops ops' : List (Op ℝ)} : OpsBelow n ls ms ops ops' →
      OpsBelow n ls ms ops (.control i :: ops')

end Spec
end Minikalman
