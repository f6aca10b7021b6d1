import Verif.Spec.History

/-!
# Two independent subsystems in one filter

A part `p` of the state variables that is not coupled to the rest, with its own controls and sensors; two filters and two
histories that agree on this part and may differ in everything else. No reference to the model.
-/

namespace Minikalman
namespace Spec

open Matrix

variable {n l m : Nat}

/-- Nothing couples the part `p` and the rest. -/
def Blocks (p : Fin n → Bool) (M : Matrix (Fin n) (Fin n) ℝ) : Prop := ∀ i j, p i ≠ p j → M i j = 0

/-- Two matrices without coupling that agree on the part `p`. -/
structure SameBlock (p : Fin n → Bool) (M M' : Matrix (Fin n) (Fin n) ℝ) : Prop where
  left : Blocks p M
  right : Blocks p M'
  same : ∀ i j, p i = true → p j = true → M i j = M' i j

/-- The two vectors agree on the part `p`. -/
def SameEntries (p : Fin n → Bool) (x x' : Fin n → ℝ) : Prop := ∀ i, p i = true → x i = x' i

/-- A control acts on the part `p` only (`b = true`), or not at all on it (`b = false`). -/
def ActsOn (p : Fin n → Bool) (b : Bool) (B : Matrix (Fin n) (Fin l) ℝ) : Prop := ∀ r k, p r ≠ b → B r k = 0

/-- A sensor sees the part `p` only (`b = true`), or not at all (`b = false`). -/
def Sees (p : Fin n → Bool) (b : Bool) (H : Matrix (Fin m) (Fin n) ℝ) : Prop := ∀ k r, p r ≠ b → H k r = 0

/-- Which controls and which sensors belong to the part `p`. -/
structure Owner where
  ctl : Nat → Bool
  obs : Nat → Bool

/-- The two filters consist of the part `p` and a rest not coupled to it, and agree on this part and on the controls and sensors
that belong to it. The other controls and sensors have nothing to do with the part, and may differ in number and in all data. -/
structure State.Agree (p : Fin n → Bool) (g : Owner) (s s' : State n ℝ) : Prop where
  x : SameEntries p s.x s'.x
  A : SameBlock p s.A s'.A
  P : SameBlock p s.P s'.P
  Q : SameBlock p s.Q s'.Q
  ctlIn : ∀ i, g.ctl i = true → s'.ctl[i]? = s.ctl[i]?
  obsIn : ∀ i, g.obs i = true → s'.obs[i]? = s.obs[i]?
  ctl : ∀ i c, s.ctl[i]? = some c → ActsOn p (g.ctl i) c.2.B
  ctl' : ∀ i c, s'.ctl[i]? = some c → ActsOn p (g.ctl i) c.2.B
  obs : ∀ i o, s.obs[i]? = some o → Sees p (g.obs i) o.2.H
  obs' : ∀ i o, s'.obs[i]? = some o → Sees p (g.obs i) o.2.H

/-- A call concerning a single control or sensor, with `b = true` one of the part, with `b = false` one of the rest; assigned
control and observation matrices keep to it. `ls` and `ms` are the numbers of inputs and of measured values. -/
def Local (p : Fin n → Bool) (g : Owner) (b : Bool) (ls ms : List Nat) : Op ℝ → Prop
  | .control i | .setU i _ | .setQc i _ => g.ctl i = b
  | .correct i | .setZ i _ | .setR i _ => g.obs i = b
  | .setB i v => g.ctl i = b ∧ ∀ l, ls[i]? = some l → ActsOn p b (matOf v : Matrix (Fin n) (Fin l) ℝ)
  | .setH i v => g.obs i = b ∧ ∀ m, ms[i]? = some m → Sees p b (matOf v : Matrix (Fin m) (Fin n) ℝ)
  | _ => False

/-- A call concerning the whole filter, assigned data agreeing on the part. -/
inductive Global (p : Fin n → Bool) : Op ℝ → Op ℝ → Prop
  | predict : Global p .predict .predict
  | predictTuned (a : ℝ) : Global p (.predictTuned a) (.predictTuned a)
  | setX (v v' : List ℝ) (h : SameEntries p (vecOf v) (vecOf v')) : Global p (.setX v) (.setX v')
  | setA (v v' : List ℝ) (h : SameBlock p (matOf v) (matOf v')) : Global p (.setA v) (.setA v')
  | setP (v v' : List ℝ) (h : SameBlock p (matOf v) (matOf v')) : Global p (.setP v) (.setP v')
  | setQ (v v' : List ℝ) (h : SameBlock p (matOf v) (matOf v')) : Global p (.setQ v) (.setQ v')

/-- Two histories with the same calls concerning the part, and any calls concerning the controls and sensors of the rest. -/
inductive OpsAgree (p : Fin n → Bool) (g : Owner) (ls ms ls' ms' : List Nat) : List (Op ℝ) → List (Op ℝ) → Prop
  | nil : OpsAgree p g ls ms ls' ms' [] []
  | both {op op' ops ops'} (h : Global p op op') (ht : OpsAgree p g ls ms ls' ms' ops ops') :
      OpsAgree p g ls ms ls' ms' (op :: ops) (op' :: ops')
  | inside {op ops ops'} (h : Local p g true ls ms op) (ht : OpsAgree p g ls ms ls' ms' ops ops') :
      OpsAgree p g ls ms ls' ms' (op :: ops) (op :: ops')
  | left {op ops ops'} (h : Local p g false ls ms op) (ht : OpsAgree p g ls ms ls' ms' ops ops') :
      OpsAgree p g ls ms ls' ms' (op :: ops) ops'
  | right {op ops ops'} (h : Local p g false ls' ms' op) (ht : OpsAgree p g ls ms ls' ms' ops ops') :
      OpsAgree p g ls ms ls' ms' ops (op :: ops')

end Spec
end Minikalman
