import Verif.Spec.History
import Mathlib.MeasureTheory.Function.L2Space
import Mathlib.MeasureTheory.Integral.Bochner.SumMeasure

/-!
# A filter in a random world

The program is run once for each outcome `ω` of a random experiment. A true state evolves by the same linear model, disturbed
by random noise, and the measurements handed to the program are those of the true state, disturbed by random noise. Vocabulary
to say that the numbers reported by the program are right: second moments of random vectors, an ensemble of filters together
with the true state, and its steps.
-/

namespace Minikalman

open Matrix MeasureTheory

variable {Ω : Type} {k l n m : Nat}

/-! ## Random vectors -/

section Moments
variable [MeasurableSpace Ω] (μ : Measure Ω)

/-- A random vector with finite second moments. -/
def SqInt (a : Ω → Fin k → ℝ) : Prop := ∀ i, MemLp (fun ω => a ω i) 2 μ

/-- The matrix of second moments `E[a bᵀ]`; the covariance if the means are zero. -/
noncomputable def moment (a : Ω → Fin k → ℝ) (b : Ω → Fin l → ℝ) : Matrix (Fin k) (Fin l) ℝ :=
  Matrix.of fun i j => ∫ ω, a ω i * b ω j ∂μ

/-- The random vectors are uncorrelated: all products of components have mean zero. -/
def Uncorrelated (a : Ω → Fin k → ℝ) (b : Ω → Fin l → ℝ) : Prop := ∀ i j, ∫ ω, a ω i * b ω j ∂μ = 0

end Moments

/-! ## Ensembles -/

/-- For each outcome, a filter object and the true state it estimates. -/
structure Ens (Ω : Type) (n : Nat) where
  kf : Ω → RegularKalman n ℝ
  truth : Ω → Fin n → ℝ

/-- The estimate: the contents of the state buffer. -/
def Ens.est (e : Ens Ω n) (ω : Ω) : Fin n → ℝ := Spec.vecOf (e.kf ω).x.data

/-- The error of the estimate. -/
def Ens.error (e : Ens Ω n) (ω : Ω) : Fin n → ℝ := e.truth ω - e.est ω

/-- In each outcome the filter has valid buffers and reports the covariance `P`. -/
def Ens.Reports (e : Ens Ω n) (P : Matrix (Fin n) (Fin n) ℝ) : Prop := ∀ ω, (e.kf ω).Valid ∧ (e.kf ω).P.Reps P

/-- A random disturbance, and the covariance the filter assumes for it. -/
structure Noise (Ω : Type) where
  dim : Nat
  val : Ω → Fin dim → ℝ
  cov : Matrix (Fin dim) (Fin dim) ℝ

/-- What the program is told in a step: a control input or a measurement. -/
inductive Datum (Ω : Type)
  | input {l : Nat} (u : Ω → Fin l → ℝ)
  | measured {m : Nat} (z : Ω → Fin m → ℝ)

variable [MDT ℝ]

/-- In each outcome the program corrects with a measurement `H x + v` of the true state `x`; `o'` are the observation objects
afterwards. -/
structure Ens.Corrects (bld : Build) (e : Ens Ω n) (H : Matrix (Fin m) (Fin n) ℝ) (R : Matrix (Fin m) (Fin m) ℝ)
    (v : Ω → Fin m → ℝ) (o o' : Ω → RegularObservation n m ℝ) (e' : Ens Ω n) : Prop where
  measurements : 0 < m
  noise : R.PosDef
  holds : ∀ ω, (o ω).Reps H (H *ᵥ e.truth ω + v ω) R
  runs : ∀ ω, (e.kf ω).correct bld (o ω) = .ok (e'.kf ω, o' ω)
  truth : ∀ ω, e'.truth ω = e.truth ω

/-- One step of an ensemble, with its disturbance (if any) and what the program is told. All filters hold the same matrices
when they are used. `predict_tuned` is only allowed if `tuned` holds, and then with a factor `0 < |λ| ≤ 1`. -/
inductive Ens.Step (bld : Build) (tuned : Prop) : Ens Ω n → List (Noise Ω) → List (Datum Ω) → Ens Ω n → Prop
  /-- `predict`: the true state moves by the same matrix, disturbed by `w`. -/
  | predict {e : Ens Ω n} {kf' : Ω → RegularKalman n ℝ} {A Q : Matrix (Fin n) (Fin n) ℝ} (w : Ω → Fin n → ℝ)
      (hA : ∀ ω, (e.kf ω).A.Reps A) (hQ : ∀ ω, (e.kf ω).Q.Reps Q) (h : ∀ ω, (e.kf ω).predict = .ok (kf' ω)) :
      Step bld tuned e [⟨n, w, Q⟩] [] ⟨kf', fun ω => A *ᵥ e.truth ω + w ω⟩
  /-- `predict_tuned`. -/
  | predictTuned {e : Ens Ω n} {kf' : Ω → RegularKalman n ℝ} {A Q : Matrix (Fin n) (Fin n) ℝ} (w : Ω → Fin n → ℝ)
      (lambda : ℝ) (ht : tuned) (h0 : lambda ≠ 0) (h1 : |lambda| ≤ 1) (hA : ∀ ω, (e.kf ω).A.Reps A)
      (hQ : ∀ ω, (e.kf ω).Q.Reps Q) (h : ∀ ω, (e.kf ω).predictTuned lambda = .ok (kf' ω)) :
      Step bld tuned e [⟨n, w, Q⟩] [] ⟨kf', fun ω => A *ᵥ e.truth ω + w ω⟩
  /-- `control`: the true input is the nominal input `u` disturbed by `w`; `u` may be different in each outcome. -/
  | control {e : Ens Ω n} {kf' : Ω → RegularKalman n ℝ} {l : Nat} {c c' : Ω → Control n l ℝ} {B : Matrix (Fin n) (Fin l) ℝ}
      {Q : Matrix (Fin l) (Fin l) ℝ} (u w : Ω → Fin l → ℝ) (hc : ∀ ω, (c ω).Reps B (u ω) Q)
      (h : ∀ ω, (e.kf ω).control (c ω) = .ok (kf' ω, c' ω)) :
      Step bld tuned e [⟨l, w, Q⟩] [.input u] ⟨kf', fun ω => e.truth ω + B *ᵥ (u ω + w ω)⟩
  /-- `correct`. -/
  | correct {e e' : Ens Ω n} {m : Nat} {H : Matrix (Fin m) (Fin n) ℝ} {R : Matrix (Fin m) (Fin m) ℝ} {v : Ω → Fin m → ℝ}
      {o o' : Ω → RegularObservation n m ℝ} (h : e.Corrects bld H R v o o' e') :
      Step bld tuned e [⟨m, v, R⟩] [.measured fun ω => H *ᵥ e.truth ω + v ω] e'
  /-- The program may write to all buffers of the filter except state and covariance. -/
  | assign {e : Ens Ω n} (kf' : Ω → RegularKalman n ℝ) (hv : ∀ ω, (kf' ω).Valid) (hx : ∀ ω, (kf' ω).x = (e.kf ω).x)
      (hP : ∀ ω, (kf' ω).P = (e.kf ω).P) : Step bld tuned e [] [] ⟨kf', e.truth⟩

/-- A history of an ensemble, with all disturbances and everything the program is told. -/
inductive Ens.Run (bld : Build) (tuned : Prop) : Ens Ω n → List (Noise Ω) → List (Datum Ω) → Ens Ω n → Prop
  | nil (e : Ens Ω n) : Run bld tuned e [] [] e
  | cons {e e₁ e₂ : Ens Ω n} {N₁ N₂ : List (Noise Ω)} {Z₁ Z₂ : List (Datum Ω)} (h : Step bld tuned e N₁ Z₁ e₁)
      (hr : Run bld tuned e₁ N₂ Z₂ e₂) : Run bld tuned e (N₁ ++ N₂) (Z₁ ++ Z₂) e₂

/-! ## Assumptions on the disturbances -/

section Assumptions
variable [MeasurableSpace Ω] (μ : Measure Ω)

/-- The disturbances have finite second moments, the covariances the filter assumes, and are uncorrelated with each other. -/
structure White (N : List (Noise Ω)) : Prop where
  sq : ∀ ν ∈ N, SqInt μ ν.val
  cov : ∀ ν ∈ N, moment μ ν.val ν.val = ν.cov
  pairwise : N.Pairwise fun ν ν' => Uncorrelated μ ν.val ν'.val

/-- The same, but the covariances the filter assumes may be too large. -/
structure WhiteAtMost (N : List (Noise Ω)) : Prop where
  sq : ∀ ν ∈ N, SqInt μ ν.val
  cov : ∀ ν ∈ N, (ν.cov - moment μ ν.val ν.val).PosSemidef
  pairwise : N.Pairwise fun ν ν' => Uncorrelated μ ν.val ν'.val

/-- A random vector with mean zero. -/
def ZeroMean (a : Ω → Fin k → ℝ) : Prop := ∀ i, ∫ ω, a ω i ∂μ = 0

end Assumptions

/-! ## Estimators -/

/-- What a linear estimator can compute before the first step: constants and combinations of the components of the first
estimate. -/
def Ens.initiallyKnown (e : Ens Ω n) : Submodule ℝ (Ω → ℝ) :=
  Submodule.span ℝ ({fun _ => 1} ∪ Set.range fun i ω => e.est ω i)

/-- A measurement adds its components to what can be computed; the program chooses its own inputs. -/
def Datum.learn (D : Submodule ℝ (Ω → ℝ)) : Datum Ω → Submodule ℝ (Ω → ℝ)
  | .input _ => D
  | .measured z => D ⊔ Submodule.span ℝ (Set.range fun i ω => z ω i)

/-- What a linear estimator can compute from all data told: all combinations of constants, the first estimate and all
measurements. -/
def known (D : Submodule ℝ (Ω → ℝ)) (Z : List (Datum Ω)) : Submodule ℝ (Ω → ℝ) := Z.foldl Datum.learn D

/-- Each control input is a linear function of what was known before (open loop, or linear feedback of measurements or
estimates). -/
def Causal (D : Submodule ℝ (Ω → ℝ)) : List (Datum Ω) → Prop
  | [] => True
  | .input u :: Z => (∀ i, (fun ω => u ω i) ∈ D) ∧ Causal D Z
  | .measured z :: Z => Causal ((Datum.measured z).learn D) Z

end Minikalman
