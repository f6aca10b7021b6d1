import Verif.Spec.Coordinates
import Verif.Spec.Extended

/-!
# The same extended filter written in other coordinates

As `Verif.Spec.Coordinates`, with origins that may move, too: `x' = T x + b`, `z' = M z + d` (degrees Celsius and Fahrenheit, positions relative to another
point). The functions are the same in the respective coordinates. No reference to the model.
-/

namespace Minikalman
namespace Spec

open Matrix

variable {n n' : Nat}

/-- The second measurement is the first one with `z' = M z + d`. -/
inductive ObsMoved (k : ℝ) (T : Matrix (Fin n') (Fin n) ℝ) (M : (m : Nat) → Matrix (Fin m) (Fin m) ℝ) (d : (m : Nat) → Fin m → ℝ) :
    (m : Nat) × Obs n m ℝ → (m : Nat) × Obs n' m ℝ → Prop
  | mk {m : Nat} {o : Obs n m ℝ} {p : Obs n' m ℝ} (H : p.H * T = M m * o.H) (z : p.z = M m *ᵥ o.z + d m)
      (R : p.R = k • (M m * o.R * (M m)ᵀ)) : ObsMoved k T M d ⟨m, o⟩ ⟨m, p⟩

/-- The second filter is the first one in the coordinates `g` with origins `b` and `d`: `x' = T x + b`, `A' T = T A`, `P' = c T P Tᵀ`, `Q' = c T Q Tᵀ`,
and likewise for the measurements with the same number. -/
structure State.Moved (g : Coord n n') (b : Fin n' → ℝ) (d : Nat → (m : Nat) → Fin m → ℝ) (s : State n ℝ) (s' : State n' ℝ) : Prop where
  x : s'.x = g.T *ᵥ s.x + b
  A : s'.A * g.T = g.T * s.A
  P : s'.P = g.c • (g.T * s.P * g.Tᵀ)
  Q : s'.Q = g.c • (g.T * s.Q * g.Tᵀ)
  obsLen : s'.obs.length = s.obs.length
  obs : ∀ i o p, s.obs[i]? = some o → s'.obs[i]? = some p → ObsMoved g.c g.T (g.M i) (d i) o p

/-- The same call: the functions do the same in the respective coordinates, assigned matrices and vectors are given in them. `ms` are the numbers of
values of the measurements. -/
inductive XOpMoved (g : Coord n n') (b : Fin n' → ℝ) (d : Nat → (m : Nat) → Fin m → ℝ) (ms : List Nat) : XOp n ℝ → XOp n' ℝ → Prop
  | predict {F : (Fin n → ℝ) → Fin n → ℝ} {F' : (Fin n' → ℝ) → Fin n' → ℝ} (h : ∀ x, F' (g.T *ᵥ x + b) = g.T *ᵥ F x + b) :
      XOpMoved g b d ms (.predict F) (.predict F')
  | predictTuned (a : ℝ) {F : (Fin n → ℝ) → Fin n → ℝ} {F' : (Fin n' → ℝ) → Fin n' → ℝ} (h : ∀ x, F' (g.T *ᵥ x + b) = g.T *ᵥ F x + b) :
      XOpMoved g b d ms (.predictTuned a F) (.predictTuned a F')
  | correct (i : Nat) {F : (m : Nat) → (Fin n → ℝ) → Fin m → ℝ} {F' : (m : Nat) → (Fin n' → ℝ) → Fin m → ℝ}
      (h : ∀ m, ms[i]? = some m → ∀ x, F' m (g.T *ᵥ x + b) = g.M i m *ᵥ F m x + d i m) : XOpMoved g b d ms (.correct i F) (.correct i F')
  | setX (v v' : List ℝ) (h : (vecOf v' : Fin n' → ℝ) = g.T *ᵥ (vecOf v : Fin n → ℝ) + b) :
      XOpMoved g b d ms (.assign (.x v)) (.assign (.x v'))
  | setA (v v' : List ℝ) (h : (matOf v' : Matrix (Fin n') (Fin n') ℝ) * g.T = g.T * (matOf v : Matrix (Fin n) (Fin n) ℝ)) :
      XOpMoved g b d ms (.assign (.A v)) (.assign (.A v'))
  | setP (v v' : List ℝ)
      (h : (matOf v' : Matrix (Fin n') (Fin n') ℝ) = g.c • (g.T * (matOf v : Matrix (Fin n) (Fin n) ℝ) * g.Tᵀ)) :
      XOpMoved g b d ms (.assign (.P v)) (.assign (.P v'))
  | setQ (v v' : List ℝ)
      (h : (matOf v' : Matrix (Fin n') (Fin n') ℝ) = g.c • (g.T * (matOf v : Matrix (Fin n) (Fin n) ℝ) * g.Tᵀ)) :
      XOpMoved g b d ms (.assign (.Q v)) (.assign (.Q v'))
  | setZ (i : Nat) (v v' : List ℝ)
      (h : ∀ m, ms[i]? = some m → (vecOf v' : Fin m → ℝ) = g.M i m *ᵥ (vecOf v : Fin m → ℝ) + d i m) :
      XOpMoved g b d ms (.assign (.z i v)) (.assign (.z i v'))
  | setH (i : Nat) (v v' : List ℝ)
      (h : ∀ m, ms[i]? = some m → (matOf v' : Matrix (Fin m) (Fin n') ℝ) * g.T = g.M i m * (matOf v : Matrix (Fin m) (Fin n) ℝ)) :
      XOpMoved g b d ms (.assign (.H i v)) (.assign (.H i v'))
  | setR (i : Nat) (v v' : List ℝ)
      (h : ∀ m, ms[i]? = some m →
        (matOf v' : Matrix (Fin m) (Fin m) ℝ) = g.c • (g.M i m * (matOf v : Matrix (Fin m) (Fin m) ℝ) * (g.M i m)ᵀ)) :
      XOpMoved g b d ms (.assign (.R i v)) (.assign (.R i v'))

end Spec
end Minikalman
