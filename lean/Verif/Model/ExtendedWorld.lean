import Verif.Model.Filter

/-!
# Programs using an extended filter

Paths are relative to `/repo/crates/minikalman/src`.
-/

namespace Minikalman

variable {T σ : Type} {n m : Nat}

/-- Assignments through the `*_mut` accessors of the extended filter and its observations:
`kalman/extended.rs:155` (x), `:200` (A, the Jacobian), `:226` (P), `:258` (Q), `observations/extended.rs:259` (z),
`:477` (H, the Jacobian), `:292` (R). -/
inductive Assign (T : Type)
  | x (v : List T)
  | A (v : List T)
  | P (v : List T)
  | Q (v : List T)
  | z (i : Nat) (v : List T)
  | H (i : Nat) (v : List T)
  | R (i : Nat) (v : List T)

/-- A program holding one extended filter and any number of observations. `env` is everything the user's closures
capture by reference and may read and modify. -/
structure XWorld (n : Nat) (T σ : Type) where
  kf : ExtendedKalman n T
  obs : List ((m : Nat) × ExtendedObservation n m T)
  env : σ

/-- One API call of the program; closures as in `ExtendedObservation.correctNonlinear`. The closure of `correct` is
given for every number of measurements since the type of the `i`-th observation is only known when the call is made. -/
inductive XOp (n : Nat) (T σ : Type)
  | predict (g : σ → Mat n 1 T → Mat n 1 T → Res (σ × Mat n 1 T))
  | predictTuned (lambda : T) (g : σ → Mat n 1 T → Mat n 1 T → Res (σ × Mat n 1 T))
  | correct (i : Nat) (h : (m : Nat) → σ → Mat n 1 T → Mat m 1 T → Res (σ × Mat m 1 T))
  | assign (a : Assign T)

section
variable [Zero T] [One T] [Add T] [Sub T] [Mul T] [Neg T] [MDT T]

/-- Modify the `i`-th observation; a missing observation is a panic. -/
def XWorld.withObs (w : XWorld n T σ) (i : Nat)
    (g : (m : Nat) → ExtendedObservation n m T → Res (ExtendedObservation n m T)) : Res (XWorld n T σ) :=
  match w.obs[i]? with
  | none => .error .bounds
  | some ⟨m, o⟩ => do
    let o ← g m o
    pure { w with obs := w.obs.set i ⟨m, o⟩ }

/-- Overwrite a buffer. -/
def XWorld.assign (w : XWorld n T σ) : Assign T → Res (XWorld n T σ)
  | .x v => do
    let x ← w.kf.x.copyFromSlice v
    pure { w with kf := { w.kf with x := x } }
  | .A v => do
    let A ← w.kf.A.copyFromSlice v
    pure { w with kf := { w.kf with A := A } }
  | .P v => do
    let P ← w.kf.P.copyFromSlice v
    pure { w with kf := { w.kf with P := P } }
  | .Q v => do
    let Q ← w.kf.Q.copyFromSlice v
    pure { w with kf := { w.kf with Q := Q } }
  | .z i v => w.withObs i fun _ o => do
    let z ← o.z.copyFromSlice v
    pure { o with z := z }
  | .H i v => w.withObs i fun _ o => do
    let H ← o.H.copyFromSlice v
    pure { o with H := H }
  | .R i v => w.withObs i fun _ o => do
    let R ← o.R.copyFromSlice v
    pure { o with R := R }

/-- Execute one call. -/
def XWorld.step (bld : Build) (w : XWorld n T σ) : XOp n T σ → Res (XWorld n T σ)
  | .predict g => do
    let (env, kf) ← w.kf.predictNonlinear g w.env
    pure { w with kf := kf, env := env }
  | .predictTuned lambda g => do
    let (env, kf) ← w.kf.predictTunedNonlinear lambda g w.env
    pure { w with kf := kf, env := env }
  | .correct i h =>
    match w.obs[i]? with
    | none => .error .bounds
    | some ⟨m, o⟩ => do
      let (env, kf, o) ← w.kf.correctNonlinear bld o (h m) w.env
      pure { kf := kf, obs := w.obs.set i ⟨m, o⟩, env := env }
  | .assign a => w.assign a

/-- Execute a sequence of calls. -/
def XWorld.run (bld : Build) (w : XWorld n T σ) : List (XOp n T σ) → Res (XWorld n T σ)
  | [] => .ok w
  | op :: ops => do
    let w ← w.step bld op
    w.run bld ops

end
end Minikalman
