import Verif.Spec.History

/-!
# The same filter written in other coordinates

What it means that one textbook filter is another one seen through a linear map `T` of the state (other units, another
basis, a part of the state), with linear maps `W` of the control inputs and invertible linear maps `M` of the
measurements, and all covariances multiplied by a positive number. No reference to the model.
-/

namespace Minikalman
namespace Spec

open Matrix

variable {n n' l m : Nat}

/-- The maps: `x' = T x`, `u' = W i u` for the control number `i`, `z' = M i z` for the measurement number `i`, and the
common scale `c` of the covariances. -/
structure Coord (n n' : Nat) where
  c : ℝ
  T : Matrix (Fin n') (Fin n) ℝ
  W : Nat → (l : Nat) → Matrix (Fin l) (Fin l) ℝ
  M : Nat → (m : Nat) → Matrix (Fin m) (Fin m) ℝ

/-- The second control is the first one with `u' = W u`. -/
inductive CtlChanged (k : ℝ) (T : Matrix (Fin n') (Fin n) ℝ) (W : (l : Nat) → Matrix (Fin l) (Fin l) ℝ) :
    (l : Nat) × Ctl n l ℝ → (l : Nat) × Ctl n' l ℝ → Prop
  | mk {l : Nat} {c : Ctl n l ℝ} {d : Ctl n' l ℝ} (B : d.B * W l = T * c.B) (u : d.u = W l *ᵥ c.u)
      (Q : d.Q = k • (W l * c.Q * (W l)ᵀ)) : CtlChanged k T W ⟨l, c⟩ ⟨l, d⟩

/-- The second measurement is the first one with `z' = M z`. -/
inductive ObsChanged (k : ℝ) (T : Matrix (Fin n') (Fin n) ℝ) (M : (m : Nat) → Matrix (Fin m) (Fin m) ℝ) :
    (m : Nat) × Obs n m ℝ → (m : Nat) × Obs n' m ℝ → Prop
  | mk {m : Nat} {o : Obs n m ℝ} {p : Obs n' m ℝ} (H : p.H * T = M m * o.H) (z : p.z = M m *ᵥ o.z)
      (R : p.R = k • (M m * o.R * (M m)ᵀ)) : ObsChanged k T M ⟨m, o⟩ ⟨m, p⟩

/-- The second filter is the first one in the coordinates `g`: `x' = T x`, `A' T = T A`, `P' = c T P Tᵀ`,
`Q' = c T Q Tᵀ`, and likewise for the controls and measurements with the same number. -/
structure State.Changed (g : Coord n n') (s : State n ℝ) (s' : State n' ℝ) : Prop where
  x : s'.x = g.T *ᵥ s.x
  A : s'.A * g.T = g.T * s.A
  P : s'.P = g.c • (g.T * s.P * g.Tᵀ)
  Q : s'.Q = g.c • (g.T * s.Q * g.Tᵀ)
  ctlLen : s'.ctl.length = s.ctl.length
  obsLen : s'.obs.length = s.obs.length
  ctl : ∀ i c d, s.ctl[i]? = some c → s'.ctl[i]? = some d → CtlChanged g.c g.T (g.W i) c d
  obs : ∀ i o p, s.obs[i]? = some o → s'.obs[i]? = some p → ObsChanged g.c g.T (g.M i) o p

/-- The same call; assigned matrices and vectors are given in the respective coordinates. `ls` and `ms` are the
numbers of inputs of the controls and of values of the measurements. -/
inductive OpChanged (g : Coord n n') (ls ms : List Nat) : Op ℝ → Op ℝ → Prop
  | predict : OpChanged g ls ms .predict .predict
  | predictTuned (a : ℝ) : OpChanged g ls ms (.predictTuned a) (.predictTuned a)
  | control (i : Nat) : OpChanged g ls ms (.control i) (.control i)
  | correct (i : Nat) : OpChanged g ls ms (.correct i) (.correct i)
  | setX (v v' : List ℝ) (h : (vecOf v' : Fin n' → ℝ) = g.T *ᵥ (vecOf v : Fin n → ℝ)) :
      OpChanged g ls ms (.setX v) (.setX v')
  | setA (v v' : List ℝ)
      (h : (matOf v' : Matrix (Fin n') (Fin n') ℝ) * g.T = g.T * (matOf v : Matrix (Fin n) (Fin n) ℝ)) :
      OpChanged g ls ms (.setA v) (.setA v')
  | setP (v v' : List ℝ)
      (h : (matOf v' : Matrix (Fin n') (Fin n') ℝ) = g.c • (g.T * (matOf v : Matrix (Fin n) (Fin n) ℝ) * g.Tᵀ)) :
      OpChanged g ls ms (.setP v) (.setP v')
  | setQ (v v' : List ℝ)
      (h : (matOf v' : Matrix (Fin n') (Fin n') ℝ) = g.c • (g.T * (matOf v : Matrix (Fin n) (Fin n) ℝ) * g.Tᵀ)) :
      OpChanged g ls ms (.setQ v) (.setQ v')
  | setU (i : Nat) (v v' : List ℝ)
      (h : ∀ l, ls[i]? = some l → (vecOf v' : Fin l → ℝ) = g.W i l *ᵥ (vecOf v : Fin l → ℝ)) :
      OpChanged g ls ms (.setU i v) (.setU i v')
  | setB (i : Nat) (v v' : List ℝ)
      (h : ∀ l, ls[i]? = some l →
        (matOf v' : Matrix (Fin n') (Fin l) ℝ) * g.W i l = g.T * (matOf v : Matrix (Fin n) (Fin l) ℝ)) :
      OpChanged g ls ms (.setB i v) (.setB i v')
  | setQc (i : Nat) (v v' : List ℝ)
      (h : ∀ l, ls[i]? = some l →
        (matOf v' : Matrix (Fin l) (Fin l) ℝ) =
          g.c • (g.W i l * (matOf v : Matrix (Fin l) (Fin l) ℝ) * (g.W i l)ᵀ)) :
      OpChanged g ls ms (.setQc i v) (.setQc i v')
  | setZ (i : Nat) (v v' : List ℝ)
      (h : ∀ m, ms[i]? = some m → (vecOf v' : Fin m → ℝ) = g.M i m *ᵥ (vecOf v : Fin m → ℝ)) :
      OpChanged g ls ms (.setZ i v) (.setZ i v')
  | setH (i : Nat) (v v' : List ℝ)
      (h : ∀ m, ms[i]? = some m →
        (matOf v' : Matrix (Fin m) (Fin n') ℝ) * g.T = g.M i m * (matOf v : Matrix (Fin m) (Fin n) ℝ)) :
      OpChanged g ls ms (.setH i v) (.setH i v')
  | setR (i : Nat) (v v' : List ℝ)
      (h : ∀ m, ms[i]? = some m →
        (matOf v' : Matrix (Fin m) (Fin m) ℝ) =
          g.c • (g.M i m * (matOf v : Matrix (Fin m) (Fin m) ℝ) * (g.M i m)ᵀ)) :
      OpChanged g ls ms (.setR i v) (.setR i v')

end Spec
end Minikalman
