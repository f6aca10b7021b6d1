import Verif.Spec.Limit

/-!
# Programs with an extended filter in arithmetics of growing precision

What it means that the closure of a program approximates a function of real numbers, near the point at which the textbook filter
evaluates that function.
-/

namespace Minikalman

open Filter

variable {n m : Nat}

section Family
variable {ι : Type} {T σ : ι → Type}

/-- The first entries of the buffers tend to the vector. -/
def VecTends (lim : (∀ k, T k) → ℝ → Prop) (a : ∀ k, Mat n 1 (T k)) (v : Fin n → ℝ) : Prop :=
  ∀ i : Fin n, ∃ f : ∀ k, T k, (∀ k, (a k).data[(i : Nat)]? = some (f k)) ∧ lim f (v i)

/-- On buffers that tend to `X` the closures eventually do not panic, and what they write tends to `Y`, whatever they captured and
whatever the old contents of the output buffer. -/
def ClosureTends (F : Filter ι) (lim : (∀ k, T k) → ℝ → Prop)
    (c : ∀ k, σ k → Mat n 1 (T k) → Mat m 1 (T k) → Res (σ k × Mat m 1 (T k))) (X : Fin n → ℝ) (Y : Fin m → ℝ) : Prop :=
  ∀ (st : ∀ k, σ k) (x : ∀ k, Mat n 1 (T k)) (out : ∀ k, Mat m 1 (T k)), VecTends lim x X → (∀ k, (out k).Valid) →
    ∃ (st' : ∀ k, σ k) (out' : ∀ k, Mat m 1 (T k)),
    (∀ᶠ k in F, c k (st k) (x k) (out k) = .ok (st' k, out' k)) ∧ VecTends lim out' Y ∧
      ∀ k, (out' k).data.length = (out k).data.length

/-- Assignments of data that tend to the data of an assignment of real numbers. -/
inductive Assign.Tends (lim : (∀ k, T k) → ℝ → Prop) : (∀ k, Assign (T k)) → Assign ℝ → Prop
  | x {v w} (h : ListTends lim v w) : Assign.Tends lim (fun k => .x (v k)) (.x w)
  | A {v w} (h : ListTends lim v w) : Assign.Tends lim (fun k => .A (v k)) (.A w)
  | P {v w} (h : ListTends lim v w) : Assign.Tends lim (fun k => .P (v k)) (.P w)
  | Q {v w} (h : ListTends lim v w) : Assign.Tends lim (fun k => .Q (v k)) (.Q w)
  | z (i) {v w} (h : ListTends lim v w) : Assign.Tends lim (fun k => .z i (v k)) (.z i w)
  | H (i) {v w} (h : ListTends lim v w) : Assign.Tends lim (fun k => .H i (v k)) (.H i w)
  | R (i) {v w} (h : ListTends lim v w) : Assign.Tends lim (fun k => .R i (v k)) (.R i w)

/-- The same calls with data that tend to those of a call of the textbook filter in state `X`, and with closures that there tend to
its functions. -/
inductive XOp.Tends (F : Filter ι) (lim : (∀ k, T k) → ℝ → Prop) (X : Fin n → ℝ) : (∀ k, XOp n (T k) (σ k)) → Spec.XOp n ℝ → Prop
  | predict {c} {g : (Fin n → ℝ) → Fin n → ℝ} (h : ClosureTends F lim c X (g X)) : XOp.Tends F lim X (fun k => .predict (c k)) (.predict g)
  | predictTuned {a x c} {g : (Fin n → ℝ) → Fin n → ℝ} (ha : lim a x) (h : ClosureTends F lim c X (g X)) :
      XOp.Tends F lim X (fun k => .predictTuned (a k) (c k)) (.predictTuned x g)
  | correct (i) {c : ∀ k, (m : Nat) → σ k → Mat n 1 (T k) → Mat m 1 (T k) → Res (σ k × Mat m 1 (T k))}
      {g : (m : Nat) → (Fin n → ℝ) → Fin m → ℝ} (h : ∀ m, ClosureTends F lim (fun k => c k m) X (g m X)) :
      XOp.Tends F lim X (fun k => .correct i (c k)) (.correct i g)
  | assign {a b} (h : Assign.Tends lim a b) : XOp.Tends F lim X (fun k => .assign (a k)) (.assign b)

/-- The calls tend to those of the textbook filter, in the states in which it performs them. -/
inductive XOp.RunTends (F : Filter ι) (lim : (∀ k, T k) → ℝ → Prop) :
    Spec.State n ℝ → (∀ k, List (XOp n (T k) (σ k))) → List (Spec.XOp n ℝ) → Prop
  | nil {s} : XOp.RunTends F lim s (fun _ => []) []
  | cons {s : Spec.State n ℝ} {op : ∀ k, XOp n (T k) (σ k)} {sop} {ops : ∀ k, List (XOp n (T k) (σ k))} {sops}
      (h : XOp.Tends F lim s.x op sop)
      (hs : ∀ s', s.xstep sop = some s' → XOp.RunTends F lim s' ops sops) :
      XOp.RunTends F lim s (fun k => op k :: ops k) (sop :: sops)

/-- The matrices the programs hold tend to those of the textbook filter `s`. -/
def XWorld.Tends (lim : (∀ k, T k) → ℝ → Prop) (w : ∀ k, XWorld n (T k) (σ k)) (s : Spec.State n ℝ) : Prop :=
  World.Tends lim (fun k => (w k).asRegular) s

end Family

/-! ## Programs close to a textbook filter -/

section Near
variable {T σ : Type} (fin : T → Prop) (val : T → ℝ)

/-- The buffer holds finite numbers with the values `V`. -/
def Mat.HasValue (a : Mat n 1 T) (V : Fin n → ℝ) : Prop := ∀ i : Fin n, ∃ t, a.data[(i : Nat)]? = some t ∧ fin t ∧ val t = V i

/-- On finite numbers whose values `V` are within `ρ` of `X` the closure computes `g V` up to an error of `δ`, without panic,
whatever it captured and whatever the old contents of the output buffer. -/
def ComputesNear (ρ δ : ℝ) (X : Fin n → ℝ) (c : σ → Mat n 1 T → Mat m 1 T → Res (σ × Mat m 1 T)) (g : (Fin n → ℝ) → Fin m → ℝ) : Prop :=
  ∀ st x (out : Mat m 1 T) V, x.HasValue fin val V → (∀ i, |V i - X i| ≤ ρ) → out.Valid →
    ∃ st' out', c st x out = .ok (st', out') ∧ out'.NearV (Close fin val δ) (g V) ∧ out'.data.length = out.data.length

/-- The same call with data within `δ` of those of a call of the textbook filter in state `X`, and with closures that compute its
functions up to `δ` near `X`. -/
inductive XOp.Near (ρ δ : ℝ) (X : Fin n → ℝ) : XOp n T σ → Spec.XOp n ℝ → Prop
  | predict {c g} (h : ComputesNear fin val ρ δ X c g) : XOp.Near ρ δ X (.predict c) (.predict g)
  | predictTuned {a x c g} (ha : Close fin val δ a x) (h : ComputesNear fin val ρ δ X c g) :
      XOp.Near ρ δ X (.predictTuned a c) (.predictTuned x g)
  | correct (i) {c} {g : (m : Nat) → (Fin n → ℝ) → Fin m → ℝ} (h : ∀ m, ComputesNear fin val ρ δ X (c m) (g m)) :
      XOp.Near ρ δ X (.correct i c) (.correct i g)
  | assign {a b} (h : a.toOp.Near (Close fin val δ) b.toOp) : XOp.Near ρ δ X (.assign a) (.assign b)

/-- The calls are near those of the textbook filter, in the states in which it performs them. -/
inductive XOp.RunNear (ρ δ : ℝ) : Spec.State n ℝ → List (XOp n T σ) → List (Spec.XOp n ℝ) → Prop
  | nil {s} : XOp.RunNear ρ δ s [] []
  | cons {s : Spec.State n ℝ} {op sop ops sops} (h : XOp.Near fin val ρ δ s.x op sop)
      (hs : ∀ s', s.xstep sop = some s' → XOp.RunNear ρ δ s' ops sops) : XOp.RunNear ρ δ s (op :: ops) (sop :: sops)

end Near

namespace Spec

/-- The functions of the call are continuous at `X`. -/
def XOp.ContinuousAt (X : Fin n → ℝ) : XOp n ℝ → Prop
  | .predict g => _root_.ContinuousAt g X
  | .predictTuned _ g => _root_.ContinuousAt g X
  | .correct _ h => ∀ m, _root_.ContinuousAt (h m) X
  | .assign _ => True

/-- Every function is continuous at the point at which the textbook filter evaluates it. -/
def State.XContinuousRun (s : State n ℝ) : List (XOp n ℝ) → Prop
  | [] => True
  | op :: ops => op.ContinuousAt s.x ∧ ∀ s', s.xstep op = some s' → s'.XContinuousRun ops

end Spec
end Minikalman
