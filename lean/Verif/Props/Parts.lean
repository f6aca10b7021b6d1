import Verif.Proofs.PartsRun
import Verif.Props.ForeverFixed

/-!
# Property C112: a filter for several things is several filters, bit for bit

One filter may be used for several systems at once, with block-diagonal matrices. If zero is neutral, as in exact arithmetic and for fixed
point numbers, it computes precisely the numbers that a smaller filter for one of the systems would compute: no rounding error leaks from
one system into another.
-/

namespace Minikalman

open Matrix

variable {T : Type} {n k : Nat} [Zero T] [One T] [Add T] [Sub T] [Mul T] [Neg T] [MDT T]

/-- C112: a filter `w` and a filter `v` that has the states `p 0 < p 1 < ...` of `w`, not coupled to the others, and the controls and
sensors that concern them; `v` sees the calls that concern it, `w` other calls, too. If `w` does not panic, neither does `v`, the
estimates and covariances of `v` are the same numbers as those of `w`, and `w` sees no correlation with the other states. -/
theorem C112_parts (hz : Spec.ZeroExact T) (bld : Build) {p : Fin k → Fin n} (hp : StrictMono p) (g : Spec.Share) {w w' : World n T}
    {v : World k T} {s : Spec.State n T} {t : Spec.State k T} (hs : w.Reps s) (ht : v.Reps t) (h : Spec.State.Part p g s t)
    {ops ops' : List (Op T)} (ho : Spec.OpsPart p g (s.ctl.map Sigma.fst) (s.obs.map Sigma.fst) ops ops')
    (hops : ∀ op ∈ ops, op.WellFormed w) (hops' : ∀ op ∈ ops', op.WellFormed v) (hr : w.run bld ops = .ok w') :
    ∃ v' x P x' P', v.run bld ops' = .ok v' ∧ w'.kf.x.RepsV x ∧ w'.kf.P.Reps P ∧ v'.kf.x.RepsV x' ∧ v'.kf.P.Reps P' ∧
      (∀ a, x' a = x (p a)) ∧ (∀ a b, P' a b = P (p a) (p b)) ∧ ∀ a j, (∀ b, j ≠ p b) → P (p a) j = 0 ∧ P j (p a) = 0 := by
  obtain ⟨v', h1, s', t', h2, h3, h4, _⟩ := run_part hz bld hp (g := g) ⟨s, t, hs, ht, h, rfl, rfl⟩ ho hops hops' hr
  exact ⟨v', s'.x, s'.P, t'.x, t'.P, h1, h2.kf.x, h2.kf.P, h3.kf.x, h3.kf.P, h4.x, h4.P.same,
    fun a j hj => ⟨h4.P.rows a j hj, h4.P.cols j a hj⟩⟩

/-- C112: if every call concerns some part, and the filters of the parts do not panic, then neither does the filter for all of them. -/
theorem C112_panics (hz : Spec.ZeroExact T) (bld : Build) {ι : Type} {κ : ι → Nat} {p : ∀ i, Fin (κ i) → Fin n}
    (hp : ∀ i, StrictMono (p i)) (g : ι → Spec.Share) {w : World n T} {v : ∀ i, World (κ i) T} {s : Spec.State n T}
    {t : ∀ i, Spec.State (κ i) T} (hs : w.Reps s) (ht : ∀ i, (v i).Reps (t i)) (h : ∀ i, Spec.State.Part (p i) (g i) s (t i))
    {ops : List (Op T)} {ops' : ι → List (Op T)}
    (ho : ∀ i, Spec.OpsPart (p i) (g i) (s.ctl.map Sigma.fst) (s.obs.map Sigma.fst) ops (ops' i))
    (hc : ∀ op ∈ ops, ∃ i, ¬ Spec.OpOther (p i) (g i) (s.ctl.map Sigma.fst) (s.obs.map Sigma.fst) op)
    (hops : ∀ op ∈ ops, op.WellFormed w) (hops' : ∀ i, ∀ op ∈ ops' i, op.WellFormed (v i))
    (hr : ∀ i, ∃ v', (v i).run bld (ops' i) = .ok v') : ∃ w', w.run bld ops = .ok w' :=
  run_parts hz bld hp (fun i => ⟨s, t i, hs, ht i, h i, rfl, rfl⟩) ho hc hops hops' hr

/-- C112: two filters that contain the same filter: whatever else they are used for, they report the same numbers for it. -/
theorem C112_noninterference (hz : Spec.ZeroExact T) (bld : Build) {n₂ : Nat} {p : Fin k → Fin n} (hp : StrictMono p) {p₂ : Fin k → Fin n₂}
    (hp₂ : StrictMono p₂) (g g₂ : Spec.Share) {w w' : World n T} {w₂ w₂' : World n₂ T} {v : World k T} {s : Spec.State n T}
    {s₂ : Spec.State n₂ T} {t : Spec.State k T} (hs : w.Reps s) (hs₂ : w₂.Reps s₂) (ht : v.Reps t) (h : Spec.State.Part p g s t)
    (h₂ : Spec.State.Part p₂ g₂ s₂ t) {ops ops₂ ops' : List (Op T)}
    (ho : Spec.OpsPart p g (s.ctl.map Sigma.fst) (s.obs.map Sigma.fst) ops ops')
    (ho₂ : Spec.OpsPart p₂ g₂ (s₂.ctl.map Sigma.fst) (s₂.obs.map Sigma.fst) ops₂ ops')
    (hops : ∀ op ∈ ops, op.WellFormed w) (hops₂ : ∀ op ∈ ops₂, op.WellFormed w₂) (hops' : ∀ op ∈ ops', op.WellFormed v)
    (hr : w.run bld ops = .ok w') (hr₂ : w₂.run bld ops₂ = .ok w₂') :
    ∃ x P x₂ P₂, w'.kf.x.RepsV x ∧ w'.kf.P.Reps P ∧ w₂'.kf.x.RepsV x₂ ∧ w₂'.kf.P.Reps P₂ ∧ (∀ a, x (p a) = x₂ (p₂ a)) ∧
      ∀ a b, P (p a) (p b) = P₂ (p₂ a) (p₂ b) := by
  obtain ⟨v1, x, P, x1, P1, r1, a1, a2, a3, a4, a5, a6, _⟩ := C112_parts hz bld hp g hs ht h ho hops hops' hr
  obtain ⟨v2, x', P', x2, P2, r2, b1, b2, b3, b4, b5, b6, _⟩ := C112_parts hz bld hp₂ g₂ hs₂ ht h₂ ho₂ hops₂ hops' hr₂
  rw [r1] at r2; cases r2
  obtain rfl := a3.unique b3
  obtain rfl := a4.unique b4
  exact ⟨x, P, x', P', a1, a2, b1, b2, fun a => (a5 a).symm.trans (b5 a), fun a b => (a6 a b).symm.trans (b6 a b)⟩

/-! ## The arithmetics -/

/-- C112: fixed point numbers are such an arithmetic, of any width. Overflow wraps around, in all filters alike. -/
theorem C112_fixed_point (f : Nat) : Spec.ZeroExact (FixedPoint f) := by
  have hm : ∀ a : FixedPoint f, (⟨BitVec.ofInt _ 0⟩ : FixedPoint f) = 0 := fun _ => congrArg FixedPoint.mk (BitVec.ofInt_ofNat _ 0)
  refine ⟨fun a => ?_, fun a => ?_, fun a => ?_, fun a => ?_, fun a => ?_⟩
  · exact congrArg FixedPoint.mk (BitVec.add_zero _)
  · exact congrArg FixedPoint.mk (BitVec.zero_add _)
  · exact congrArg FixedPoint.mk (BitVec.sub_zero _)
  · show (⟨BitVec.ofInt _ (a.bits.toInt * (0 : BitVec (2 * f)).toInt / 2 ^ f)⟩ : FixedPoint f) = 0
    rw [show (0 : BitVec (2 * f)).toInt = 0 from BitVec.toInt_zero, Int.mul_zero, Int.zero_ediv]
    exact hm a
  · show (⟨BitVec.ofInt _ ((0 : BitVec (2 * f)).toInt * a.bits.toInt / 2 ^ f)⟩ : FixedPoint f) = 0
    rw [show (0 : BitVec (2 * f)).toInt = 0 from BitVec.toInt_zero, Int.zero_mul, Int.zero_ediv]
    exact hm a

/-- C112: so is exact arithmetic. -/
theorem C112_exact (K : Type) [Ring K] : Spec.ZeroExact K :=
  ⟨add_zero, zero_add, sub_zero, mul_zero, zero_mul⟩

/-! ## Several filters with one state each -/

/-- C112: a filter on fixed point numbers for any number of independent quantities, each observed by sensors of its own, runs forever, and
all estimates and variances stay within the bounds that property C109 gives for each of them. -/
theorem C112_runs_forever {f : Nat} (bld : Build) (g : Fin n → Spec.Share) {w : World n (FixedPoint f)}
    {v : Fin n → World 1 (FixedPoint f)} {s : Spec.State n (FixedPoint f)} {t : Fin n → Spec.State 1 (FixedPoint f)} (hs : w.Reps s)
    (ht : ∀ i, (v i).Reps (t i)) (h : ∀ i, Spec.State.Part (fun _ : Fin 1 => i) (g i) s (t i)) {ops : List (Op (FixedPoint f))}
    {ops' : Fin n → List (Op (FixedPoint f))}
    (ho : ∀ i, Spec.OpsPart (fun _ : Fin 1 => i) (g i) (s.ctl.map Sigma.fst) (s.obs.map Sigma.fst) ops (ops' i))
    (hc : ∀ op ∈ ops, ∃ i, ¬ Spec.OpOther (fun _ : Fin 1 => i) (g i) (s.ctl.map Sigma.fst) (s.obs.map Sigma.fst) op)
    (hops : ∀ op ∈ ops, op.WellFormed w) (hops' : ∀ i, ∀ op ∈ ops' i, op.WellFormed (v i)) {X Z B : Fin n → ℝ} {N : Fin n → Nat}
    (hl : ∀ i, Spec.LastingFixed f (X i) (s.Q i i).val (B i) (N i)) (hZ : ∀ i, Z i ≤ X i) (hA1 : ∀ i, |(s.A i i).val| ≤ 1)
    (hxX : ∀ i, |(s.x i).val| ≤ X i) (hP0 : ∀ i, 0 ≤ (s.P i i).val) (hPB : ∀ i, (s.P i i).val ≤ B i)
    (hobs : ∀ i, ∀ a ∈ (v i).obs, ∃ (o : RegularObservation 1 1 (FixedPoint f)) (z : _) (R : _), a = ⟨1, o⟩ ∧ o.Reps (Spec.direct 0) z R ∧
      |(z 0).val| ≤ Z i ∧ Spec.BalancedFixed f (N i) (s.Q i i).val (B i) (R 0 0).val)
    (hpc : ∀ i, Spec.Paced (N i) 0 (ops' i)) (htm : ∀ i, ∀ op ∈ ops' i, Spec.TameFixed (X i) (Z i) (B i) op) :
    ∃ w' x' P', w.run bld ops = .ok w' ∧ w'.kf.x.RepsV x' ∧ w'.kf.P.Reps P' ∧ (∀ i, |(x' i).val| ≤ X i) ∧
      (∀ i, 0 ≤ (P' i i).val ∧ (P' i i).val ≤ B i + N i * (s.Q i i).val) ∧ ∀ i j, i ≠ j → P' i j = 0 := by
  have hp : ∀ i : Fin n, StrictMono (fun _ : Fin 1 => i) := fun i a b hab => absurd hab (by omega)
  have hz := C112_fixed_point f
  have hrun : ∀ i, ∃ w' x' P', (v i).run bld (ops' i) = .ok w' ∧ w'.kf.x.RepsV x' ∧ w'.kf.P.Reps P' ∧ |(x' 0).val| ≤ X i ∧
      0 ≤ (P' 0 0).val ∧ (P' 0 0).val ≤ B i + N i * (s.Q i i).val := by
    intro i
    have eQ : (t i).Q 0 0 = s.Q i i := (h i).Q.same 0 0
    have eA : (t i).A 0 0 = s.A i i := (h i).A.same 0 0
    have eP : (t i).P 0 0 = s.P i i := (h i).P.same 0 0
    have ex : (t i).x 0 = s.x i := (h i).x 0
    have := C109_runs_forever bld (X := X i) (Z := Z i) (B := B i) (N := N i) (ht i).valid (ht i).kf (by rw [eQ]; exact hl i) (hZ i)
      (by rw [eA]; exact hA1 i) (by rw [ex]; exact hxX i) (by rw [eP]; exact hP0 i) (by rw [eP]; exact hPB i)
      (by rw [eQ]; exact hobs i) (hops' i) (hpc i) (htm i)
    rwa [eQ] at this
  obtain ⟨w', hw'⟩ := C112_panics hz bld hp g hs ht h ho hc hops hops' fun i => (hrun i).imp fun _ ⟨_, _, h1, _⟩ => h1
  obtain ⟨_, x, P, _, _, _, hx, hP, _⟩ := C112_parts hz bld (hp ⟨0, hs.states⟩) (g ⟨0, hs.states⟩) hs (ht _) (h _) (ho _) hops (hops' _) hw'
  have key : ∀ i, |(x i).val| ≤ X i ∧ (0 ≤ (P i i).val ∧ (P i i).val ≤ B i + N i * (s.Q i i).val) ∧ ∀ j, i ≠ j → P i j = 0 := by
    intro i
    obtain ⟨v', x1, P1, x2, P2, r1, a1, a2, a3, a4, a5, a6, a7⟩ := C112_parts hz bld (hp i) (g i) hs (ht i) (h i) (ho i) hops (hops' i) hw'
    obtain ⟨v'', x3, P3, r2, b1, b2, b3, b4, b5⟩ := hrun i
    rw [r1] at r2; cases r2
    obtain rfl := a1.unique hx
    obtain rfl := a2.unique hP
    obtain rfl := a3.unique b1
    obtain rfl := a4.unique b2
    rw [← a5 0, ← a6 0 0]
    exact ⟨b3, ⟨b4, b5⟩, fun j hij => (a7 0 j fun _ => Ne.symm hij).1⟩
  exact ⟨w', x, P, hw', hx, hP, fun i => (key i).1, fun i => (key i).2.1, fun i j hij => (key i).2.2 j hij⟩

/-! ## Non-vacuity -/

namespace Ex

/-- A random walk with a sensor. -/
def oneWalker : World 1 I16F16 := ⟨⟨⟨[whole16 10]⟩, ⟨[1]⟩, ⟨[whole16 7]⟩, ⟨[⟨8192⟩]⟩, ⟨[0]⟩, ⟨[0]⟩⟩, [], [⟨1, oneSensorFixed 1 0⟩]⟩

/-- Two random walks in one filter, with a sensor each. -/
def twoWalkers : World 2 I16F16 :=
  ⟨⟨⟨[whole16 10, whole16 10]⟩, ⟨[1, 0, 0, 1]⟩, ⟨[whole16 7, 0, 0, whole16 7]⟩, ⟨[⟨8192⟩, 0, 0, ⟨8192⟩]⟩, ⟨[0, 0]⟩, ⟨[0, 0, 0, 0]⟩⟩, [],
    [⟨1, ⟨⟨[1, 0]⟩, ⟨[0]⟩, ⟨[1]⟩, ⟨[0]⟩, ⟨[0]⟩, ⟨[0, 0]⟩, ⟨[0]⟩, ⟨[0, 0]⟩, ⟨[0, 0]⟩, ⟨[0, 0, 0, 0]⟩⟩⟩,
      ⟨1, ⟨⟨[0, 1]⟩, ⟨[0]⟩, ⟨[1]⟩, ⟨[0]⟩, ⟨[0]⟩, ⟨[0, 0]⟩, ⟨[0]⟩, ⟨[0, 0]⟩, ⟨[0, 0]⟩, ⟨[0, 0, 0, 0]⟩⟩⟩]⟩

/-- What they hold. -/
def oneWalk : Spec.State 1 I16F16 := ⟨fun _ => whole16 10, .of fun _ _ => 1, .of fun _ _ => whole16 7, .of fun _ _ => ⟨8192⟩, [],
  [⟨1, Spec.direct 0, fun _ => 0, .of fun _ _ => 1⟩]⟩

/-- What they hold. -/
def twoWalks : Spec.State 2 I16F16 := ⟨fun _ => whole16 10, .diagonal fun _ => 1, .diagonal fun _ => whole16 7, .diagonal fun _ => ⟨8192⟩, [],
  [⟨1, Spec.direct 0, fun _ => 0, .of fun _ _ => 1⟩, ⟨1, Spec.direct 1, fun _ => 0, .of fun _ _ => 1⟩]⟩

/-- Sensor `i` of the two is the sensor of the one. -/
def ownSensor (i : Fin 2) : Spec.Share where
  ctl _ := none
  obs j := if j = i then some 0 else none
  ctl_inj := by simp
  obs_inj a b j h1 h2 := by
    split at h1
    · split at h2
      · omega
      · cases h2
    · cases h1

/-- One round of the loop. -/
def twoLoop : List (Op I16F16) := [.predict, .setZ 0 [whole16 3], .setZ 1 [whole16 (-12000)], .correct 1, .correct 0]

/-- What it is for walker `i`. -/
def oneLoop (i : Fin 2) : List (Op I16F16) := [.predict, .setZ 0 [if i = 0 then whole16 3 else whole16 (-12000)], .correct 0]

theorem oneWalker_reps : oneWalker.Reps oneWalk :=
  ⟨by decide, ⟨by decide, by decide, by decide, by decide, by decide, by decide⟩, .nil,
    .cons (.mk (by decide) ⟨by decide, by decide, by decide, by decide, by decide, by decide, by decide, by decide, by decide, by decide⟩) .nil⟩

theorem twoWalkers_reps : twoWalkers.Reps twoWalks :=
  ⟨by decide, ⟨by decide, by decide, by decide, by decide, by decide, by decide⟩, .nil,
    .cons (.mk (by decide) ⟨by decide, by decide, by decide, by decide, by decide, by decide, by decide, by decide, by decide, by decide⟩)
    (.cons (.mk (by decide) ⟨by decide, by decide, by decide, by decide, by decide, by decide, by decide, by decide, by decide, by decide⟩) .nil)⟩

theorem walker_part (i : Fin 2) : Spec.State.Part (fun _ : Fin 1 => i) (ownSensor i) twoWalks oneWalk := by
  refine ⟨fun _ => rfl, ?_, ?_, ?_, by simp [ownSensor], by simp [twoWalks], ?_, ?_⟩
  · have hs : ∀ i, twoWalks.A i i = 1 := by decide
    have h0 : ∀ i j, j ≠ i → twoWalks.A i j = 0 := fun i j h => Matrix.diagonal_apply_ne _ (Ne.symm h)
    exact ⟨fun _ _ => (hs i).symm, fun _ j h => h0 i j (h 0), fun j _ h => h0 j i (Ne.symm (h 0))⟩
  · have hs : ∀ i, twoWalks.P i i = whole16 7 := by decide
    have h0 : ∀ i j, j ≠ i → twoWalks.P i j = 0 := fun i j h => Matrix.diagonal_apply_ne _ (Ne.symm h)
    exact ⟨fun _ _ => (hs i).symm, fun _ j h => h0 i j (h 0), fun j _ h => h0 j i (Ne.symm (h 0))⟩
  · have hs : ∀ i, twoWalks.Q i i = ⟨8192⟩ := by decide
    have h0 : ∀ i j, j ≠ i → twoWalks.Q i j = 0 := fun i j h => Matrix.diagonal_apply_ne _ (Ne.symm h)
    exact ⟨fun _ _ => (hs i).symm, fun _ j h => h0 i j (h 0), fun j _ h => h0 j i (Ne.symm (h 0))⟩
  · intro a j o h1 h2
    obtain ⟨rfl, rfl⟩ : a = i ∧ j = 0 := by
      simp only [ownSensor] at h1
      split at h1
      · rename_i h
        exact ⟨h, (Option.some.inj h1).symm⟩
      · cases h1
    refine ⟨_, rfl, ?_⟩
    match i, h2 with
    | 0, h2 => cases h2; exact ⟨⟨by intro a b; fin_cases a; fin_cases b; rfl, by intro a j h; fin_cases a; fin_cases j <;> first | rfl | exact absurd rfl (h 0), by intro a b h; fin_cases a; exact absurd rfl (h 0)⟩, rfl, rfl⟩
    | 1, h2 => cases h2; exact ⟨⟨by intro a b; fin_cases a; fin_cases b; rfl, by intro a j h; fin_cases a; fin_cases j <;> first | rfl | exact absurd rfl (h 0), by intro a b h; fin_cases a; exact absurd rfl (h 0)⟩, rfl, rfl⟩
  · intro a o h1 h2
    have h3 : a ≠ i := by
      rintro rfl
      simp [ownSensor] at h1
    match a, h2 with
    | 0, h2 => cases h2; revert h3; revert i; decide
    | 1, h2 => cases h2; revert h3; revert i; decide

theorem walker_loops (i : Fin 2) (k : Nat) : Spec.OpsPart (fun _ : Fin 1 => i) (ownSensor i) [] [1, 1] (List.replicate k twoLoop).flatten
    (List.replicate k (oneLoop i)).flatten := by
  induction k with
  | zero => exact .nil
  | succ k ih =>
    match i with
    | 0 => exact .part .predict (.part (.setZ 0 0 _ rfl) (.other rfl (.other rfl (.part (.correct 0 0 rfl) ih))))
    | 1 => exact .part .predict (.other rfl (.part (.setZ 1 0 _ rfl) (.part (.correct 1 0 rfl) (.other rfl ih))))

theorem loop_mem' {α : Type} {a : List α} {k : Nat} {op : α} (h : op ∈ (List.replicate k a).flatten) : op ∈ a := by
  obtain ⟨l, h1, h2⟩ := List.mem_flatten.1 h
  rwa [List.eq_of_mem_replicate h1] at h2

theorem oneLoop_paced (i : Fin 2) (k : Nat) : Spec.Paced 200 0 (List.replicate k (oneLoop i)).flatten := by
  induction k with
  | zero => exact trivial
  | succ k ih => exact ⟨by norm_num, ih⟩

theorem twoLoop_wellFormed : ∀ op ∈ twoLoop, op.WellFormed twoWalkers := by
  intro op ho
  simp only [twoLoop, List.mem_cons, List.not_mem_nil, or_false] at ho
  have k0 : (Op.correct (T := I16F16) 0).WellFormed twoWalkers := by show 0 < 2; decide
  have k1 : (Op.correct (T := I16F16) 1).WellFormed twoWalkers := by show 1 < 2; decide
  rcases ho with rfl | rfl | rfl | rfl | rfl
  exacts [trivial, rfl, rfl, k1, k0]

theorem oneLoop_wellFormed (i : Fin 2) : ∀ op ∈ oneLoop i, op.WellFormed oneWalker := by
  intro op ho
  simp only [oneLoop, List.mem_cons, List.not_mem_nil, or_false] at ho
  have k0 : (Op.correct (T := I16F16) 0).WellFormed oneWalker := by show 0 < 1; decide
  rcases ho with rfl | rfl | rfl
  exacts [trivial, rfl, k0]

end Ex

open Ex in
/-- The conditions hold, for any number of rounds. -/
example (k : Nat) : ∃ w' x' P', twoWalkers.run ⟨false, true⟩ (List.replicate k twoLoop).flatten = .ok w' ∧ w'.kf.x.RepsV x' ∧
    w'.kf.P.Reps P' ∧ (∀ i, |(x' i).val| ≤ 16383) ∧ (∀ i, 0 ≤ (P' i i).val ∧ (P' i i).val ≤ 21 + 200 * (1 / 8)) ∧
    ∀ i j, i ≠ j → P' i j = 0 := by
  have v0 : (0 : I16F16).val = 0 := by rw [i16_val (z := 0) (by decide)]; norm_num
  have v1 : (1 : I16F16).val = 1 := by rw [i16_val (z := 65536) (by decide)]; norm_num
  have v3 : (whole16 3).val = 3 := by rw [i16_val (z := 196608) (by decide)]; norm_num
  have v4 : (whole16 (-12000)).val = -12000 := by rw [i16_val (z := -786432000) (by decide)]; norm_num
  have v7 : (whole16 7).val = 7 := by rw [i16_val (z := 458752) (by decide)]; norm_num
  have v10 : (whole16 10).val = 10 := by rw [i16_val (z := 655360) (by decide)]; norm_num
  have vq : (⟨8192⟩ : I16F16).val = 1 / 8 := by rw [i16_val (z := 8192) (by decide)]; norm_num
  have hb := C109_i16f16 (q := 1 / 8) (r := 1) (N := 200) (by norm_num) (by norm_num) le_rfl (by norm_num)
  have hA : ∀ i, twoWalks.A i i = 1 := by decide
  have hP : ∀ i, twoWalks.P i i = whole16 7 := by decide
  have hQ : ∀ i, twoWalks.Q i i = ⟨8192⟩ := by decide
  have h := C112_runs_forever ⟨false, true⟩ ownSensor (w := twoWalkers) (v := fun _ => oneWalker) (s := twoWalks) (t := fun _ => oneWalk)
    (X := fun _ => 16383) (Z := fun _ => 16383) (B := fun _ => 21) (N := fun _ => 200)
    twoWalkers_reps (fun _ => oneWalker_reps) walker_part (ops := (List.replicate k twoLoop).flatten)
    (ops' := fun i => (List.replicate k (oneLoop i)).flatten) (fun i => walker_loops i k)
    ?_ (fun op ho => twoLoop_wellFormed op (loop_mem' ho)) (fun i op ho => oneLoop_wellFormed i op (loop_mem' ho))
    (fun i => by rw [hQ, vq]; exact hb.1) (fun _ => le_rfl) (fun i => by rw [hA, v1]; norm_num)
    (fun i => by show |(whole16 10).val| ≤ _; rw [v10]; norm_num [abs_le]) (fun i => by rw [hP, v7]; norm_num)
    (fun i => by rw [hP, v7]; norm_num) ?_ (fun i => oneLoop_paced i k) ?_
  · simp only [hQ, vq] at h
    exact_mod_cast h
  · intro op ho
    have ho := loop_mem' ho
    simp only [twoLoop, List.mem_cons, List.not_mem_nil, or_false] at ho
    rcases ho with rfl | rfl | rfl | rfl | rfl
    exacts [⟨0, fun h => h⟩, ⟨0, fun h => by cases h⟩, ⟨1, fun h => by cases h⟩, ⟨1, fun h => by cases h⟩,
      ⟨0, fun h => by cases h⟩]
  · intro i a ha
    obtain rfl := List.mem_singleton.1 ha
    refine ⟨_, ![0], Matrix.of fun _ _ => 1, rfl, ⟨by decide, by decide, by decide, by decide, by decide,
      by decide, by decide, by decide, by decide, by decide⟩, ?_, ?_⟩
    · show |(0 : I16F16).val| ≤ 16383
      rw [v0]; norm_num
    · rw [hQ, vq]
      simp only [Matrix.of_apply, v1]
      exact hb.2
  · intro i op ho
    have ho := loop_mem' ho
    simp only [oneLoop, List.mem_cons, List.not_mem_nil, or_false] at ho
    rcases ho with rfl | rfl | rfl
    · trivial
    · intro b hb
      obtain rfl := List.mem_singleton.1 hb
      split
      · rw [v3]; norm_num [abs_le]
      · rw [v4]; norm_num [abs_le]
    · trivial

end Minikalman
