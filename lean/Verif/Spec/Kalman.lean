import Verif.Spec.Filter
import Mathlib.LinearAlgebra.Matrix.NonsingularInverse
import Mathlib.Data.Fin.Tuple.Basic

/-!
# The textbook Kalman filter

The equations the crate documents (`kalman/regular.rs`, `observations/regular.rs`, `controls.rs`), written with
Mathlib matrices, and what it means that a filter, control or observation object holds given matrices.
-/

namespace Minikalman

open Matrix

namespace Spec

variable {K : Type} {n l m : Nat}

section Ring
variable [CommRing K]

/-- Predicted covariance `A P Aᵀ + Q`. -/
def predP (A P Q : Matrix (Fin n) (Fin n) K) : Matrix (Fin n) (Fin n) K := A * P * Aᵀ + Q

/-- Innovation covariance `S = H P Hᵀ + R`. -/
def innovCov (H : Matrix (Fin m) (Fin n) K) (P : Matrix (Fin n) (Fin n) K) (R : Matrix (Fin m) (Fin m) K) :
    Matrix (Fin m) (Fin m) K := H * P * Hᵀ + R

/-- Kalman gain `K = P Hᵀ S⁻¹`. -/
noncomputable def gain (H : Matrix (Fin m) (Fin n) K) (P : Matrix (Fin n) (Fin n) K) (R : Matrix (Fin m) (Fin m) K) :
    Matrix (Fin n) (Fin m) K := P * Hᵀ * (innovCov H P R)⁻¹

/-- Corrected state `x + K (z - H x)`. -/
noncomputable def corrX (H : Matrix (Fin m) (Fin n) K) (P : Matrix (Fin n) (Fin n) K) (R : Matrix (Fin m) (Fin m) K)
    (x : Fin n → K) (z : Fin m → K) : Fin n → K := x + gain H P R *ᵥ (z - H *ᵥ x)

/-- Corrected covariance `P - K H P`. -/
noncomputable def corrP (H : Matrix (Fin m) (Fin n) K) (P : Matrix (Fin n) (Fin n) K) (R : Matrix (Fin m) (Fin m) K) :
    Matrix (Fin n) (Fin n) K := P - gain H P R * H * P

/-- State after a control input `x + B u`. -/
def ctlX (B : Matrix (Fin n) (Fin l) K) (u : Fin l → K) (x : Fin n → K) : Fin n → K := x + B *ᵥ u

/-- Covariance after a control input `P + B Q Bᵀ`. -/
def ctlP (B : Matrix (Fin n) (Fin l) K) (Q : Matrix (Fin l) (Fin l) K) (P : Matrix (Fin n) (Fin n) K) :
    Matrix (Fin n) (Fin n) K := P + B * Q * Bᵀ

/-- Two observation matrices stacked on top of each other. -/
def stack (H₁ : Matrix (Fin m) (Fin n) K) (H₂ : Matrix (Fin l) (Fin n) K) : Matrix (Fin (m + l)) (Fin n) K :=
  Matrix.of fun i j => Fin.addCases (fun i => H₁ i j) (fun i => H₂ i j) i

/-- Block diagonal matrix. -/
def blockDiag (R₁ : Matrix (Fin m) (Fin m) K) (R₂ : Matrix (Fin l) (Fin l) K) : Matrix (Fin (m + l)) (Fin (m + l)) K :=
  Matrix.of fun i j =>
    Fin.addCases (fun i => Fin.addCases (fun j => R₁ i j) (fun _ => 0) j)
      (fun i => Fin.addCases (fun _ => 0) (fun j => R₂ i j) j) i

end Ring

/-- Predicted covariance with tuning factor `A P Aᵀ / λ² + Q`. -/
def predPTuned [Field K] (lambda : K) (A P Q : Matrix (Fin n) (Fin n) K) : Matrix (Fin n) (Fin n) K :=
  (lambda ^ 2)⁻¹ • (A * P * Aᵀ) + Q

end Spec

variable {T : Type} {n l m : Nat}

/-- The filter holds state `x`, transition matrix `A`, covariance `P` and process noise `Q`; its temporaries are large
enough and may hold anything. -/
structure RegularKalman.Reps (f : RegularKalman n T) (x : Fin n → T) (A P Q : Matrix (Fin n) (Fin n) T) : Prop where
  x : f.x.RepsV x
  A : f.A.Reps A
  P : f.P.Reps P
  Q : f.Q.Reps Q
  predictedX : f.predictedX.Valid
  tempP : f.tempP.Valid

/-- The control holds control matrix `B`, input `u` and noise `Q`. -/
structure Control.Reps (c : Control n l T) (B : Matrix (Fin n) (Fin l) T) (u : Fin l → T)
    (Q : Matrix (Fin l) (Fin l) T) : Prop where
  B : c.B.Reps B
  u : c.u.RepsV u
  Q : c.Q.Reps Q
  tempBQ : c.tempBQ.Valid

/-- The observation holds observation matrix `H`, measurement `z` and noise `R`; its outputs and temporaries may hold
anything. -/
structure RegularObservation.Reps (o : RegularObservation n m T) (H : Matrix (Fin m) (Fin n) T) (z : Fin m → T)
    (R : Matrix (Fin m) (Fin m) T) : Prop where
  H : o.H.Reps H
  z : o.z.RepsV z
  R : o.R.Reps R
  y : o.y.Valid
  S : o.S.Valid
  K : o.K.Valid
  tempSInv : o.tempSInv.Valid
  tempHP : o.tempHP.Valid
  tempPHt : o.tempPHt.Valid
  tempKHP : o.tempKHP.Valid

end Minikalman
