import Verif.Proofs.PartsExtended
import Verif.Props.Parts
import Verif.Props.ExtendedHistory

/-!
# Property C113: an extended filter for several things is several filters, bit for bit

As property C112, with arbitrary functions.
-/

namespace Minikalman

open Matrix

variable {T σ τ : Type} {n k : Nat} [Zero T] [One T] [Add T] [Sub T] [Mul T] [Neg T] [MDT T]

/-- C113: an extended filter `w` and an extended filter `v` that has the states `p 0 < p 1 < ...` of `w`, not coupled to the others by `A`, `P`
or `Q`, and the sensors that concern them; the functions of `w` do to these states what those of `v` do, and anything to the others. `v` sees the calls
that concern it, `w` corrections with other sensors and arbitrary functions, too. If `w` does not panic, neither does `v`, the estimates and covariances of
`v` are the same numbers as those of `w`, and `w` sees no correlation with the other states. -/
theorem C113_parts (hz : Spec.ZeroExact T) (bld : Build) {p : Fin k → Fin n} (hp : StrictMono p) (g : Spec.Share) {w w' : XWorld n T σ}
    {v : XWorld k T τ} {s : Spec.State n T} {t : Spec.State k T} (hs : w.Reps s) (ht : v.Reps t) (h : Spec.State.Part p g s t)
    {ops : List (XOp n T σ)} {ops' : List (XOp k T τ)} (ho : XOp.Parts p g (s.obs.map Sigma.fst) ops ops')
    (hops : ∀ op ∈ ops, op.WellFormed w ∧ op.KeepsLength) (hops' : ∀ op ∈ ops', op.WellFormed v ∧ op.KeepsLength)
    (hr : w.run bld ops = .ok w') :
    ∃ v' x P x' P', v.run bld ops' = .ok v' ∧ w'.kf.x.RepsV x ∧ w'.kf.P.Reps P ∧ v'.kf.x.RepsV x' ∧ v'.kf.P.Reps P' ∧
      (∀ a, x' a = x (p a)) ∧ (∀ a b, P' a b = P (p a) (p b)) ∧ ∀ a j, (∀ b, j ≠ p b) → P (p a) j = 0 ∧ P j (p a) = 0 := by
  have hl : s.ctl = [] := List.forall₂_nil_left_iff.1 hs.ctl
  obtain ⟨v', h1, s', t', h2, h3, h4, _⟩ := xrun_part hz bld hp (g := g) ⟨s, t, hs, ht, h, by rw [hl]; rfl, rfl⟩ ho hops hops' hr
  exact ⟨v', s'.x, s'.P, t'.x, t'.P, h1, h2.kf.x, h2.kf.P, h3.kf.x, h3.kf.P, h4.x, h4.P.same,
    fun a j hj => ⟨h4.P.rows a j hj, h4.P.cols j a hj⟩⟩

/-- C113: if every call concerns some part, and the filters of the parts do not panic, then neither does the filter for all of them. -/
theorem C113_panics (hz : Spec.ZeroExact T) (bld : Build) {ι : Type} {κ : ι → Nat} {τ : ι → Type} {p : ∀ i, Fin (κ i) → Fin n}
    (hp : ∀ i, StrictMono (p i)) (g : ι → Spec.Share) {w : XWorld n T σ} {v : ∀ i, XWorld (κ i) T (τ i)} {s : Spec.State n T}
    {t : ∀ i, Spec.State (κ i) T} (hs : w.Reps s) (ht : ∀ i, (v i).Reps (t i)) (h : ∀ i, Spec.State.Part (p i) (g i) s (t i))
    {ops : List (XOp n T σ)} {ops' : ∀ i, List (XOp (κ i) T (τ i))} (ho : ∀ i, XOp.Parts (p i) (g i) (s.obs.map Sigma.fst) ops (ops' i))
    (hc : ∀ op ∈ ops, ∃ i, ¬ XOp.Other (p i) (g i) (s.obs.map Sigma.fst) op)
    (hops : ∀ op ∈ ops, op.WellFormed w ∧ op.KeepsLength) (hops' : ∀ i, ∀ op ∈ ops' i, op.WellFormed (v i) ∧ op.KeepsLength)
    (hr : ∀ i, ∃ v', (v i).run bld (ops' i) = .ok v') : ∃ w', w.run bld ops = .ok w' := by
  have hl : s.ctl = [] := List.forall₂_nil_left_iff.1 hs.ctl
  exact xrun_parts hz bld hp (fun i => ⟨s, t i, hs, ht i, h i, by rw [hl]; rfl, rfl⟩) ho hc hops hops' hr

/-- C113: two extended filters that contain the same filter: whatever else they are used for, whatever their functions do to other states, they report the
same numbers for it. -/
theorem C113_noninterference (hz : Spec.ZeroExact T) (bld : Build) {n₂ : Nat} {σ₂ : Type} {p : Fin k → Fin n} (hp : StrictMono p)
    {p₂ : Fin k → Fin n₂} (hp₂ : StrictMono p₂) (g g₂ : Spec.Share) {w w' : XWorld n T σ} {w₂ w₂' : XWorld n₂ T σ₂} {v : XWorld k T τ}
    {s : Spec.State n T} {s₂ : Spec.State n₂ T} {t : Spec.State k T} (hs : w.Reps s) (hs₂ : w₂.Reps s₂) (ht : v.Reps t)
    (h : Spec.State.Part p g s t) (h₂ : Spec.State.Part p₂ g₂ s₂ t) {ops : List (XOp n T σ)} {ops₂ : List (XOp n₂ T σ₂)}
    {ops' : List (XOp k T τ)} (ho : XOp.Parts p g (s.obs.map Sigma.fst) ops ops') (ho₂ : XOp.Parts p₂ g₂ (s₂.obs.map Sigma.fst) ops₂ ops')
    (hops : ∀ op ∈ ops, op.WellFormed w ∧ op.KeepsLength) (hops₂ : ∀ op ∈ ops₂, op.WellFormed w₂ ∧ op.KeepsLength)
    (hops' : ∀ op ∈ ops', op.WellFormed v ∧ op.KeepsLength) (hr : w.run bld ops = .ok w') (hr₂ : w₂.run bld ops₂ = .ok w₂') :
    ∃ x P x₂ P₂, w'.kf.x.RepsV x ∧ w'.kf.P.Reps P ∧ w₂'.kf.x.RepsV x₂ ∧ w₂'.kf.P.Reps P₂ ∧ (∀ a, x (p a) = x₂ (p₂ a)) ∧
      ∀ a b, P (p a) (p b) = P₂ (p₂ a) (p₂ b) := by
  obtain ⟨v1, x, P, x1, P1, r1, a1, a2, a3, a4, a5, a6, _⟩ := C113_parts hz bld hp g hs ht h ho hops hops' hr
  obtain ⟨v2, x', P', x2, P2, r2, b1, b2, b3, b4, b5, b6, _⟩ := C113_parts hz bld hp₂ g₂ hs₂ ht h₂ ho₂ hops₂ hops' hr₂
  rw [r1] at r2; cases r2
  obtain rfl := a3.unique b3
  obtain rfl := a4.unique b4
  exact ⟨x, P, x', P', a1, a2, b1, b2, fun a => (a5 a).symm.trans (b5 a), fun a b => (a6 a b).symm.trans (b6 a b)⟩

/-! ## Non-vacuity -/

namespace Ex

/-- A closure that computes the function `g`. -/
def safeClosure {T σ : Type} {n k : Nat} [Zero T] (g : (Fin n → T) → Fin k → T) (st : σ) (x : Mat n 1 T) (out : Mat k 1 T) :
    Res (σ × Mat k 1 T) := if k ≤ out.data.length then closureOf g st x out else .ok (st, out)

theorem safeClosure_computes {T σ : Type} {n k : Nat} [Zero T] (g : (Fin n → T) → Fin k → T) : Computes (σ := σ) (safeClosure g) g := by
  intro st x out X hx ho
  have : k ≤ out.data.length := by have : k * 1 ≤ out.data.length := ho; omega
  obtain ⟨st', out', h⟩ := computes_closureOf (σ := σ) g st x out X hx ho
  exact ⟨st', out', by rw [safeClosure, if_pos this]; exact h.1, h.2⟩

theorem safeClosure_keeps {T σ : Type} {n k : Nat} [Zero T] (g : (Fin n → T) → Fin k → T) : KeepsLength (σ := σ) (safeClosure g) := by
  intro st x out st' out' h
  unfold safeClosure at h
  split at h
  · cases h
    simp only [List.length_append, List.length_ofFn, List.length_drop]
    omega
  · cases h; rfl

/-- A quadratic drift of both states, each on its own. -/
def drift (x : Fin 2 → I16F16) : Fin 2 → I16F16 := fun i => x i - x i * x i

/-- The drift of one state. -/
def drift1 (x : Fin 1 → I16F16) : Fin 1 → I16F16 := fun i => x i - x i * x i

/-- The square of state `j`. -/
def squareOf (j : Fin 2) (m : Nat) (x : Fin 2 → I16F16) : Fin m → I16F16 := fun _ => x j * x j

/-- The square of the only state. -/
def square1 (m : Nat) (x : Fin 1 → I16F16) : Fin m → I16F16 := fun _ => x 0 * x 0

/-- One round of the loop: both states drift, each has a sensor that measures its square. -/
def xtwoLoop : List (XOp 2 I16F16 Unit) := [.predict (safeClosure drift), .assign (.z 0 [whole16 3]), .assign (.H 0 [whole16 2, 0]),
  .correct 0 fun m => safeClosure (squareOf 0 m), .assign (.z 1 [whole16 5]), .correct 1 fun m => safeClosure (squareOf 1 m)]

/-- What it is for the first state. -/
def xoneLoop : List (XOp 1 I16F16 Unit) := [.predict (safeClosure drift1), .assign (.z 0 [whole16 3]), .assign (.H 0 [whole16 2]),
  .correct 0 fun m => safeClosure (square1 m)]

theorem xwalker_loops (k : Nat) : XOp.Parts (fun _ : Fin 1 => (0 : Fin 2)) (ownSensor 0) [1, 1] (List.replicate k xtwoLoop).flatten
    (List.replicate k xoneLoop).flatten := by
  induction k with
  | zero => exact .nil
  | succ k ih =>
    refine .part (.predict (safeClosure_computes _) (safeClosure_computes _) fun x a => rfl)
      (.part (.assign _ _ (.setZ 0 0 _ rfl)) (.part (.assign _ _ (.setH 0 0 _ _ rfl ?_))
        (.part (.correct 0 0 rfl (fun m => safeClosure_computes _) (fun m => safeClosure_computes _) fun m x => rfl)
          (.other rfl (.other rfl ih)))))
    intro m hm
    cases hm
    refine ⟨?_, ?_, ?_⟩
    · intro a b; fin_cases a; fin_cases b; rfl
    · intro a j h; fin_cases a; fin_cases j
      · exact absurd rfl (h 0)
      · rfl
    · intro a b h; fin_cases a; exact absurd rfl (h 0)

end Ex

open Ex in
/-- The conditions hold, for any number of rounds: if the filter for two states does not panic, the filter for one does not, and the estimate is the same. -/
example (bld : Build) (k : Nat) {w'} (hr : (twoWalkers.asExtended ()).run bld (List.replicate k xtwoLoop).flatten = .ok w') :
    ∃ v' x P x' P', (oneWalker.asExtended ()).run bld (List.replicate k xoneLoop).flatten = .ok v' ∧ w'.kf.x.RepsV x ∧ w'.kf.P.Reps P ∧
      v'.kf.x.RepsV x' ∧ v'.kf.P.Reps P' ∧ x' 0 = x 0 ∧ P' 0 0 = P 0 0 ∧ P 0 1 = 0 := by
  have hops : ∀ op ∈ (List.replicate k xtwoLoop).flatten, op.WellFormed (twoWalkers.asExtended ()) ∧ op.KeepsLength := by
    intro op ho
    have ho := loop_mem' ho
    simp only [xtwoLoop, List.mem_cons, List.not_mem_nil, or_false] at ho
    have k0 : ∀ h, (XOp.correct (T := I16F16) 0 h).WellFormed (twoWalkers.asExtended ()) := fun _ => by show 0 < 2; decide
    have k1 : ∀ h, (XOp.correct (T := I16F16) 1 h).WellFormed (twoWalkers.asExtended ()) := fun _ => by show 1 < 2; decide
    rcases ho with rfl | rfl | rfl | rfl | rfl | rfl
    exacts [⟨trivial, safeClosure_keeps _⟩, ⟨rfl, trivial⟩, ⟨rfl, trivial⟩, ⟨k0 _, fun _ => safeClosure_keeps _⟩, ⟨rfl, trivial⟩,
      ⟨k1 _, fun _ => safeClosure_keeps _⟩]
  have hops' : ∀ op ∈ (List.replicate k xoneLoop).flatten, op.WellFormed (oneWalker.asExtended ()) ∧ op.KeepsLength := by
    intro op ho
    have ho := loop_mem' ho
    simp only [xoneLoop, List.mem_cons, List.not_mem_nil, or_false] at ho
    have k0 : ∀ h, (XOp.correct (T := I16F16) 0 h).WellFormed (oneWalker.asExtended ()) := fun _ => by show 0 < 1; decide
    rcases ho with rfl | rfl | rfl | rfl
    exacts [⟨trivial, safeClosure_keeps _⟩, ⟨rfl, trivial⟩, ⟨rfl, trivial⟩, ⟨k0 _, fun _ => safeClosure_keeps _⟩]
  obtain ⟨v', x, P, x', P', h1, h2, h3, h4, h5, h6, h7, h8⟩ := C113_parts (C112_fixed_point 16) bld (p := fun _ : Fin 1 => (0 : Fin 2))
    (fun a b hab => absurd hab (by omega)) (ownSensor 0) (w := twoWalkers.asExtended ()) (v := oneWalker.asExtended ())
    twoWalkers_reps oneWalker_reps (walker_part 0) (xwalker_loops k) hops hops' hr
  exact ⟨v', x, P, x', P', h1, h2, h3, h4, h5, h6 0, h7 0 0, (h8 0 1 fun _ => by decide).1⟩

open Ex in
/-- And the filter for two states indeed does not panic, here for two rounds. -/
example : ((twoWalkers.asExtended ()).run ⟨false, true⟩ (List.replicate 2 xtwoLoop).flatten).map (fun w => w.kf.x.data.take 1) =
    ((oneWalker.asExtended ()).run ⟨false, true⟩ (List.replicate 2 xoneLoop).flatten).map (fun w => w.kf.x.data) := by decide +kernel

end Minikalman
