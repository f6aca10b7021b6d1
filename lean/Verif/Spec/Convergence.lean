import Verif.Spec.Extended
import Verif.Spec.WorstCase

/-!
# Specification of local convergence

What may have happened while an extended filter tracked a nonlinear system with small disturbances, and what is assumed about functions,
Jacobians, noise covariances and reported covariances. No reference to kernels or filter steps of the model.
-/

namespace Minikalman
namespace Spec

open Matrix

variable {n m : Nat}

/-- The Euclidean length. -/
noncomputable def len {k : Nat} (v : Fin k → ℝ) : ℝ := √(v ⬝ᵥ v)

/-- The linearisation of `f` at `x` with the Jacobian `J` is off by at most `κ |ξ - x|²` at `ξ`. -/
def Curved (κ : ℝ) (f : (Fin n → ℝ) → Fin m → ℝ) (J : Matrix (Fin m) (Fin n) ℝ) (x ξ : Fin n → ℝ) : Prop :=
  len (f ξ - (f x + J *ᵥ (ξ - x))) ≤ κ * len (ξ - x) ^ 2

/-- Curvature `κ` of the functions, largest reported variance `p`, smallest variances `q` of the process noise and `r` of the
measurement noise (in any direction), largest disturbance `ε`, largest number `b` of corrections between two predictions. -/
structure Bounds where
  κ : ℝ
  p : ℝ
  q : ℝ
  r : ℝ
  ε : ℝ
  b : Nat

/-- The bounds are sensible. -/
structure Bounds.Valid (B : Bounds) : Prop where
  κ : 0 ≤ B.κ
  p : 0 < B.p
  q : 0 < B.q
  r : 0 < B.r
  ε : 0 ≤ B.ε

/-- `Tracked B s ξ c ops k ξ'`: starting in the true state `ξ`, the system can be in the true state `ξ'` after the calls `ops` of an
extended filter that starts as `s`; `ops` contains `k` predictions, and at most `c` corrections before the first of them. At every
prediction the system moves by the very function the filter is given, up to a disturbance of length at most `ε`; every measurement is
the value of the given function, up to a disturbance of length at most `ε`; Jacobians, noise and reported covariances are within the
bounds. -/
inductive Tracked (B : Bounds) : State n ℝ → (Fin n → ℝ) → Nat → List (XOp n ℝ) → Nat → (Fin n → ℝ) → Prop
  | nil {s ξ c} : Tracked B s ξ c [] 0 ξ
  | predict {s s1 ξ ξ' c ops k} (g : (Fin n → ℝ) → Fin n → ℝ) (w : Fin n → ℝ) (hw : len w ≤ B.ε)
      (hg : Curved B.κ g s.A s.x ξ) (hq : (s.Q - B.q • (1 : Matrix (Fin n) (Fin n) ℝ)).PosSemidef)
      (h : s.xstep (.predict g) = some s1) (hp : (B.p • (1 : Matrix (Fin n) (Fin n) ℝ) - s1.P).PosSemidef)
      (ht : Tracked B s1 (g ξ + w) B.b ops k ξ') : Tracked B s ξ c (.predict g :: ops) (k + 1) ξ'
  | predictTuned {s s1 ξ ξ' c ops k} (lambda : ℝ) (hl : |lambda| ≤ 1) (g : (Fin n → ℝ) → Fin n → ℝ) (w : Fin n → ℝ)
      (hw : len w ≤ B.ε) (hg : Curved B.κ g s.A s.x ξ) (hq : (s.Q - B.q • (1 : Matrix (Fin n) (Fin n) ℝ)).PosSemidef)
      (h : s.xstep (.predictTuned lambda g) = some s1) (hp : (B.p • (1 : Matrix (Fin n) (Fin n) ℝ) - s1.P).PosSemidef)
      (ht : Tracked B s1 (g ξ + w) B.b ops k ξ') : Tracked B s ξ c (.predictTuned lambda g :: ops) (k + 1) ξ'
  | correct {s s1 ξ ξ' c ops k} (i : Nat) (h : (m : Nat) → (Fin n → ℝ) → Fin m → ℝ) {m : Nat} {o : Obs n m ℝ}
      (ho : s.obs[i]? = some ⟨m, o⟩) (v : Fin m → ℝ) (hv : len v ≤ B.ε) (hz : o.z = h m ξ + v) (hh : Curved B.κ (h m) o.H s.x ξ)
      (hr : (o.R - B.r • (1 : Matrix (Fin m) (Fin m) ℝ)).PosSemidef) (hs : s.xstep (.correct i h) = some s1)
      (ht : Tracked B s1 ξ c ops k ξ') : Tracked B s ξ (c + 1) (.correct i h :: ops) k ξ'
  | assign {s s1 ξ ξ' c ops k} (a : Assign ℝ) (ha : ModelOp a.toOp) (h : s.xstep (.assign a) = some s1)
      (ht : Tracked B s1 ξ c ops k ξ') : Tracked B s ξ c (.assign a :: ops) k ξ'

/-- How much of an error in the state survives a prediction, in units of the reported standard deviation. -/
noncomputable def Bounds.forget (B : Bounds) : ℝ := √(1 - B.q / B.p)

/-- The factor by which errors shrink from prediction to prediction when they are at most `N` reported standard deviations. -/
noncomputable def Bounds.rate (B : Bounds) (N : ℝ) : ℝ :=
  (B.forget + B.κ * B.p * N / √B.q) * (1 + B.κ * B.p * N / √B.r) ^ B.b

end Spec
end Minikalman
