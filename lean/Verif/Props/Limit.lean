import Verif.Proofs.LimitNear
import Verif.Props.Steady

/-!
# C92: with enough precision a program computes the textbook filter

For every history that is meaningful for the textbook filter and every `ε > 0` there is a precision such that in every floating
point format (fixed point type) with at least that precision the program does not panic, nothing overflows, no decomposition fails,
and every number of the final state, covariance, ... is finite and differs from the exact one by at most `ε`. The data may differ
from the exact data by rounding, or by any error up to some `δ > 0`. Histories, sizes and data are arbitrary.
-/

set_option linter.unusedSectionVars false

namespace Minikalman

open Filter

variable {n : Nat}

/-- C92 for floating point numbers: with at least `p` bits of precision and range, and data within `δ` of those of the textbook
filter, the result is within `ε` of that of the textbook filter. -/
theorem C92_float (bld : Build) {s : Spec.State n ℝ} {ops' : List (Op ℝ)} (hreg : s.RegularRun ops') {ε : ℝ} (hε : 0 < ε) :
    ∃ p : ℕ, ∃ δ > 0, ∀ fmt : Format, p ≤ fmt.prec → p ≤ fmt.frac → p ≤ fmt.top - fmt.frac →
      ∀ (w : World n (Bin fmt)) (ops : List (Op (Bin fmt))), w.Valid → w.Exact →
      w.Near (fun a x => a.Finite ∧ |a.val - x| ≤ δ) s →
      List.Forall₂ (Op.Near fun a x => a.Finite ∧ |a.val - x| ≤ δ) ops ops' → (∀ op ∈ ops, op.WellFormed w) →
      ∃ w' s', w.run bld ops = .ok w' ∧ s.run ops' = some s' ∧ w'.Near (fun a x => a.Finite ∧ |a.val - x| ≤ ε) s' := by
  obtain ⟨p, δ, hδ, h⟩ := Limit.run_close (T := Bin) (good := Format.AtLeast) (fun g hg => Limit.float_limit hg) bld hreg hε
  exact ⟨p, δ, hδ, fun fmt h1 h2 h3 => h fmt ⟨h1, h2, h3⟩⟩

/-- C92 for floating point numbers and data that are rounded to the format: with at least `p` bits of precision and range, the
result is within `ε` of that of the textbook filter with the data before rounding. -/
theorem C92_float_rounded (bld : Build) {s : Spec.State n ℝ} {ops' : List (Op ℝ)} (hreg : s.RegularRun ops') {ε : ℝ} (hε : 0 < ε) :
    ∃ p : ℕ, ∀ fmt : Format, p ≤ fmt.prec → p ≤ fmt.frac → p ≤ fmt.top - fmt.frac →
      ∀ (w : World n (Bin fmt)) (ops : List (Op (Bin fmt))), w.Valid → w.Exact → w.Near (fun a x => RoundsTo x a) s →
      List.Forall₂ (Op.Near fun a x => RoundsTo x a) ops ops' → (∀ op ∈ ops, op.WellFormed w) →
      ∃ w' s', w.run bld ops = .ok w' ∧ s.run ops' = some s' ∧ w'.Near (fun a x => a.Finite ∧ |a.val - x| ≤ ε) s' := by
  obtain ⟨p, h⟩ := Limit.run_near (T := Bin) (good := Format.AtLeast) (near := fun _ _ a x => RoundsTo x a)
    (fun g hg => Limit.float_limit hg) (fun g hg a x h => Limit.rounds_tends hg h) bld hreg hε
  exact ⟨p, fun fmt h1 h2 h3 => h fmt ⟨h1, h2, h3⟩⟩

/-- C92 with covariances: if `P`, `Q` and the noises of controls are positive semi-definite, the noises of measurements positive
definite and all `λ ≠ 0`, then every history is meaningful and the result of the program is as near as required. -/
theorem C92_float_covariances (bld : Build) {s : Spec.State n ℝ} {ops' : List (Op ℝ)} (hs : s.Psd) (hd : ∀ op ∈ ops', s.PsdData op)
    (hl : ∀ op ∈ ops', op.NonzeroLambda) {ε : ℝ} (hε : 0 < ε) :
    ∃ p : ℕ, ∀ fmt : Format, p ≤ fmt.prec → p ≤ fmt.frac → p ≤ fmt.top - fmt.frac →
      ∀ (w : World n (Bin fmt)) (ops : List (Op (Bin fmt))), w.Valid → w.Exact → w.Near (fun a x => RoundsTo x a) s →
      List.Forall₂ (Op.Near fun a x => RoundsTo x a) ops ops' → (∀ op ∈ ops, op.WellFormed w) →
      ∃ w' s', w.run bld ops = .ok w' ∧ s.run ops' = some s' ∧ w'.Near (fun a x => a.Finite ∧ |a.val - x| ≤ ε) s' :=
  C92_float_rounded bld (psd_regularRun hs hl hd) hε

/-- C92 for fixed point numbers with `f` integer and `f` fractional bits (`I16F16`: 16, `I32F32`: 32): with enough bits and data
within `δ` of those of the textbook filter there is no panic, and the result is within `ε` of that of the textbook filter. -/
theorem C92_fixed_point (bld : Build) {s : Spec.State n ℝ} {ops' : List (Op ℝ)} (hreg : s.RegularRun ops') {ε : ℝ} (hε : 0 < ε) :
    ∃ p : ℕ, ∃ δ > 0, ∀ f : ℕ, p ≤ f → 2 ≤ f → ∀ (w : World n (FixedPoint f)) (ops : List (Op (FixedPoint f))), w.Valid → w.Exact →
      w.Near (fun a x => |a.val - x| ≤ δ) s → List.Forall₂ (Op.Near fun a x => |a.val - x| ≤ δ) ops ops' →
      (∀ op ∈ ops, op.WellFormed w) →
      ∃ w' s', w.run bld ops = .ok w' ∧ s.run ops' = some s' ∧ w'.Near (fun a x => |a.val - x| ≤ ε) s' := by
  obtain ⟨p, δ, hδ, h⟩ := Limit.run_close (T := FixedPoint) (fin := fun _ _ => True) (val := fun _ a => a.val)
    (good := fun p f => p ≤ f ∧ 2 ≤ f) (fun g hg => Limit.fixed_limit hg) bld hreg hε
  refine ⟨p, δ, hδ, fun f h1 h2 w ops hv he hw ho hwf => ?_⟩
  have e : ∀ γ : ℝ, Close (fun _ : FixedPoint f => True) (fun a => a.val) γ = fun a x => |a.val - x| ≤ γ :=
    fun γ => funext fun a => funext fun x => true_and _
  have := h f ⟨h1, h2⟩ w ops hv he
  rw [e, e] at this
  exact this hw ho hwf

/-- C92 with overflow marks: with enough bits, no operation that contributes to the result leaves the range of the type (C93: nor any other). (The
numbers carry a mark that tells whether an operation did, see C87.) -/
theorem C92_fixed_point_no_overflow (bld : Build) {s : Spec.State n ℝ} {ops' : List (Op ℝ)} (hreg : s.RegularRun ops') {ε : ℝ} (hε : 0 < ε) :
    ∃ p : ℕ, ∃ δ > 0, ∀ f : ℕ, p ≤ f → 2 ≤ f → ∀ (w : World n (Watched f)) (ops : List (Op (Watched f))), w.Valid → w.Exact →
      w.Near (fun a x => a.clean = true ∧ |a.num.val - x| ≤ δ) s →
      List.Forall₂ (Op.Near fun a x => a.clean = true ∧ |a.num.val - x| ≤ δ) ops ops' → (∀ op ∈ ops, op.WellFormed w) →
      ∃ w' s', w.run bld ops = .ok w' ∧ s.run ops' = some s' ∧ w'.Near (fun a x => a.clean = true ∧ |a.num.val - x| ≤ ε) s' := by
  obtain ⟨p, δ, hδ, h⟩ := Limit.run_close (T := Watched) (fin := fun _ a => a.clean = true) (val := fun _ a => a.num.val)
    (good := fun p f => p ≤ f ∧ 2 ≤ f) (fun g hg => Limit.watched_limit hg) bld hreg hε
  exact ⟨p, δ, hδ, fun f h1 h2 w ops hv he hw ho hwf => h f ⟨h1, h2⟩ w ops hv he hw ho hwf⟩

/-- C92 without rounding: the result of a meaningful history depends continuously on all data. -/
theorem C92_exact [MDT ℝ] [ExactReal] (bld : Build) {s : Spec.State n ℝ} {ops' : List (Op ℝ)} (hreg : s.RegularRun ops') {ε : ℝ} (hε : 0 < ε) :
    ∃ δ > 0, ∀ (w : World n ℝ) (ops : List (Op ℝ)), w.Valid → w.Exact → w.Near (fun a x => |a - x| ≤ δ) s →
      List.Forall₂ (Op.Near fun a x => |a - x| ≤ δ) ops ops' → (∀ op ∈ ops, op.WellFormed w) →
      ∃ w' s', w.run bld ops = .ok w' ∧ s.run ops' = some s' ∧ w'.Near (fun a x => |a - x| ≤ ε) s' := by
  obtain ⟨p, δ, hδ, h⟩ := Limit.run_close (Fmt := Unit) (T := fun _ => ℝ) (fin := fun _ _ => True) (val := fun _ a => a)
    (good := fun _ _ => True) (fun g _ => Limit.real_limit) bld hreg hε
  refine ⟨δ, hδ, fun w ops hv he hw ho hwf => ?_⟩
  have e : ∀ γ : ℝ, Close (fun _ : ℝ => True) (fun a => a) γ = fun a x => |a - x| ≤ γ :=
    fun γ => funext fun a => funext fun x => true_and _
  have := h () trivial w ops hv he
  rw [e, e] at this
  exact this hw ho hwf

/-- C92 for any family of element types whose operations approximate those of the real numbers: if the data tend to those of the
textbook filter, then from some point on the programs complete, and their buffers tend to the matrices of the textbook filter. -/
theorem C92_limit {ι : Type} {F : Filter ι} [F.NeBot] {T : ι → Type} [∀ k, Zero (T k)] [∀ k, One (T k)] [∀ k, Add (T k)]
    [∀ k, Sub (T k)] [∀ k, Mul (T k)] [∀ k, Neg (T k)] [∀ k, MDT (T k)] {lim : (∀ k, T k) → ℝ → Prop} (hl : ScalarLimit F lim)
    (bld : Build) {w : ∀ k, World n (T k)} {s : Spec.State n ℝ} (h : World.Tends lim w s) {ops : ∀ k, List (Op (T k))}
    {ops' : List (Op ℝ)} (hops : ListTends (Op.Tends lim) ops ops') (hwf : ∀ k, ∀ op ∈ ops k, op.WellFormed (w k))
    (hreg : s.RegularRun ops') :
    ∃ w' s', (∀ᶠ k in F, (w k).run bld (ops k) = .ok (w' k)) ∧ s.run ops' = some s' ∧ World.Tends lim w' s' :=
  Limit.run_tends hl bld h hops hwf hreg

/-- C92: the element types that do. Any rounded arithmetics whose relative and absolute errors tend to zero and whose range tends
to infinity (C77: floating point numbers with `u = 2^-prec`, `η = 2^-(frac + 1)` and the limit of overflow as range). -/
theorem C92_rounded_arithmetics {ι : Type} {F : Filter ι} {T : ι → Type} [∀ k, Zero (T k)] [∀ k, One (T k)] [∀ k, Add (T k)]
    [∀ k, Sub (T k)] [∀ k, Mul (T k)] [∀ k, Neg (T k)] [∀ k, MDT (T k)] (ra : ∀ k, RoundedInverse (T k)) {M : ι → ℝ}
    (hu : Tendsto (fun k => (ra k).u) F (nhds 0)) (hη : Tendsto (fun k => (ra k).η) F (nhds 0)) (hM : Tendsto M F atTop)
    (hr : ∀ᶠ k in F, (ra k).Ranged (M k)) : ScalarLimit F (Converges F (fun k => (ra k).fin) (fun k => (ra k).val)) :=
  Limit.scalarLimit ra hu hη hM hr

/-! ## Example: a drifting quantity, measured, with data that no binary format represents -/

namespace Ex

/-- A program with literals: one state variable, one sensor, `A = 9/10`, `P = 1`, `Q = 1/10`, `R = 1/3`. -/
def litWorld {T : Type} (lit : ℚ → T) : World 1 T :=
  ⟨⟨⟨[lit 2]⟩, ⟨[lit (9 / 10)]⟩, ⟨[lit 1]⟩, ⟨[lit (1 / 10)]⟩, ⟨[lit 7]⟩, ⟨[lit 8]⟩⟩, [],
    [⟨1, ⟨⟨[lit 1]⟩, ⟨[lit 5]⟩, ⟨[lit (1 / 3)]⟩, ⟨[lit 9]⟩, ⟨[lit 9]⟩, ⟨[lit 9]⟩, ⟨[lit 9]⟩, ⟨[lit 9]⟩, ⟨[lit 9]⟩, ⟨[lit 9]⟩⟩⟩]⟩

/-- Measure, predict, correct, predict with `λ = 2`. -/
def litOps {T : Type} (lit : ℚ → T) : List (Op T) := [.setZ 0 [lit (7 / 10)], .predict, .correct 0, .predictTuned (lit 2)]

noncomputable def litState : Spec.State 1 ℝ :=
  ⟨fun _ => 2, one1 (9 / 10), one1 1, one1 (1 / 10), [], [⟨1, one1 1, fun _ => 5, one1 (1 / 3)⟩]⟩

end Ex

open Ex in
theorem Ex.lit_near {T : Type} {near : T → ℝ → Prop} {lit : ℚ → T} (h : ∀ q : ℚ, |q| ≤ 9 → near (lit q) q) :
    (litWorld lit).Near near litState ∧ List.Forall₂ (Op.Near near) (litOps lit) (litOps fun q => (q : ℝ)) := by
  have h1 : ∀ q : ℚ, |q| ≤ 9 → (⟨[lit q]⟩ : Mat 1 1 T).Near near (one1 q) := by
    intro q hq i j
    fin_cases i; fin_cases j
    exact ⟨lit q, rfl, by simpa [one1] using h q hq⟩
  have h2 : ∀ q : ℚ, |q| ≤ 9 → (⟨[lit q]⟩ : Mat 1 1 T).NearV near (fun _ => (q : ℝ)) := by
    intro q hq i
    fin_cases i
    exact ⟨lit q, rfl, h q hq⟩
  have e : litState = ⟨fun _ => ((2 : ℚ) : ℝ), one1 ((9 / 10 : ℚ) : ℝ), one1 ((1 : ℚ) : ℝ), one1 ((1 / 10 : ℚ) : ℝ), [],
      [⟨1, one1 ((1 : ℚ) : ℝ), fun _ => ((5 : ℚ) : ℝ), one1 ((1 / 3 : ℚ) : ℝ)⟩]⟩ := by
    unfold litState; norm_num
  rw [e]
  refine ⟨⟨h2 _ ?_, h1 _ ?_, h1 _ ?_, h1 _ ?_, .nil, .cons (.mk (h1 _ ?_) (h2 _ ?_) (h1 _ ?_)) .nil⟩, ?_⟩
  on_goal 8 => refine .cons (.setZ 0 (.cons (h _ ?_) .nil)) (.cons .predict (.cons (.correct 0) (.cons (.predictTuned (h _ ?_)) .nil)))
  all_goals (rw [abs_of_pos (by norm_num)]; norm_num)

open Ex in
theorem Ex.lit_ok {T : Type} (lit : ℚ → T) : (litWorld lit).Valid ∧ (litWorld lit).Exact ∧
    ∀ op ∈ litOps lit, op.WellFormed (litWorld lit) := by
  refine ⟨⟨Nat.zero_lt_one, ⟨Nat.le_refl _, Nat.le_refl _, Nat.le_refl _, Nat.le_refl _, Nat.le_refl _, Nat.le_refl _⟩, by simp [litWorld], ?_⟩,
    ⟨rfl, rfl, rfl, rfl, by simp [litWorld], ?_⟩, ?_⟩
  · intro o ho
    simp only [litWorld, List.mem_singleton] at ho
    subst ho
    exact ⟨Nat.zero_lt_one, Nat.le_refl _, Nat.le_refl _, Nat.le_refl _, Nat.le_refl _, Nat.le_refl _, Nat.le_refl _, Nat.le_refl _,
      Nat.le_refl _, Nat.le_refl _, Nat.le_refl _⟩
  · intro o ho
    simp only [litWorld, List.mem_singleton] at ho
    subst ho
    exact ⟨rfl, rfl, rfl⟩
  · simp only [litOps, List.mem_cons, List.not_mem_nil, or_false, forall_eq_or_imp, forall_eq]
    exact ⟨rfl, trivial, Nat.zero_lt_one, trivial⟩

open Ex in
theorem Ex.lit_regular : litState.RegularRun (litOps fun q => (q : ℝ)) := by
  refine psd_regularRun ⟨one1_psd zero_le_one, one1_psd (by norm_num), by simp [litState], ?_⟩ ?_ ?_
  · intro o ho
    simp only [litState, List.mem_singleton] at ho
    subst ho
    exact one1_pd (by norm_num)
  · simp only [litOps, List.mem_cons, List.not_mem_nil, or_false, forall_eq_or_imp, forall_eq]
    exact ⟨trivial, trivial, trivial, by norm_num [Op.NonzeroLambda]⟩
  · simp only [litOps, List.mem_cons, List.not_mem_nil, or_false, forall_eq_or_imp, forall_eq]
    exact ⟨trivial, trivial, trivial, trivial⟩

theorem Bin.lit_rounds {fmt : Format} (q : ℚ) : RoundsTo (q : ℝ) (Bin.lit q : Bin fmt) := by
  have h := (Bin.round_between fmt (a := q.num.natAbs * 2 ^ fmt.frac) q.den_pos).roundsTo (decide (q < 0))
  have e : Bin.sgn (decide (q < 0)) (((q.num.natAbs * 2 ^ fmt.frac : Nat) : ℝ) / q.den) / 2 ^ fmt.frac = q := by
    have hp : (2 : ℝ) ^ fmt.frac ≠ 0 := by positivity
    have hd : (q.den : ℝ) ≠ 0 := by exact_mod_cast q.den_nz
    have hq : (q : ℝ) = (q.num : ℝ) / q.den := by exact_mod_cast (Rat.num_div_den q).symm
    have hn : (q.num.natAbs : ℝ) = if q < 0 then -(q.num : ℝ) else q.num := by
      rw [Nat.cast_natAbs, Int.cast_abs]
      by_cases h0 : q < 0
      · rw [if_pos h0, abs_of_neg (by exact_mod_cast Rat.num_neg.2 h0)]
      · rw [if_neg h0, abs_of_nonneg (by exact_mod_cast Rat.num_nonneg.2 (not_lt.1 h0))]
    push_cast
    rw [hq, hn]
    by_cases h0 : q < 0
    · simp only [h0, decide_true, if_true, Bin.sgn]; field_simp
    · simp only [h0, decide_false, if_false, Bin.sgn, Bool.false_eq_true]; field_simp
  rw [e] at h
  exact h

open Ex in
/-- The example in floating point numbers: literals are rounded, and so are all results; still the result is as near to the exact
one as required if the format is good enough. -/
example (bld : Build) {ε : ℝ} (hε : 0 < ε) : ∃ p : ℕ, ∀ fmt : Format, p ≤ fmt.prec → p ≤ fmt.frac → p ≤ fmt.top - fmt.frac →
    ∃ w' s', (litWorld (Bin.lit (fmt := fmt))).run bld (litOps Bin.lit) = .ok w' ∧ litState.run (litOps fun q => (q : ℝ)) = some s' ∧
      w'.Near (fun a x => a.Finite ∧ |a.val - x| ≤ ε) s' := by
  obtain ⟨p, hp⟩ := C92_float_rounded bld lit_regular hε
  refine ⟨p, fun fmt h1 h2 h3 => ?_⟩
  obtain ⟨h4, h5, h6⟩ := lit_ok (Bin.lit (fmt := fmt))
  obtain ⟨h7, h8⟩ := lit_near (lit := Bin.lit (fmt := fmt)) (near := fun a x => RoundsTo x a) fun q _ => Bin.lit_rounds q
  exact hp fmt h1 h2 h3 _ _ h4 h5 h7 h8 h6

theorem FixedPoint.fromNum_close {f : Nat} (hf : 5 ≤ f) {q : ℚ} (hq : |q| ≤ 9) :
    |(FixedPoint.fromNum q : FixedPoint f).val - q| ≤ 1 / 2 ^ f := by
  have hp : (0 : ℝ) < 2 ^ f := by positivity
  have h32 : (32 : ℝ) ≤ 2 ^ f := by
    calc (32 : ℝ) = 2 ^ 5 := by norm_num
      _ ≤ 2 ^ f := pow_le_pow_right₀ one_le_two hf
  have hqr : |(q : ℝ)| ≤ 9 := by exact_mod_cast hq
  obtain ⟨z, hz⟩ : ∃ z : Int, z = (q * 2 ^ f + 1 / 2).floor := ⟨_, rfl⟩
  have h1 : (z : ℝ) ≤ q * 2 ^ f + 1 / 2 := by
    have : (z : ℚ) ≤ q * 2 ^ f + 1 / 2 := by rw [hz]; exact Int.floor_le _
    have : ((z : ℚ) : ℝ) ≤ ((q * 2 ^ f + 1 / 2 : ℚ) : ℝ) := by exact_mod_cast this
    push_cast at this
    exact this
  have h2 : (q : ℝ) * 2 ^ f + 1 / 2 < z + 1 := by
    have : q * 2 ^ f + 1 / 2 < z + 1 := by rw [hz]; exact Int.lt_floor_add_one _
    have : ((q * 2 ^ f + 1 / 2 : ℚ) : ℝ) < (((z : ℚ) + 1 : ℚ) : ℝ) := by exact_mod_cast this
    push_cast at this
    exact this
  have h3 : |(z : ℝ) / 2 ^ f - q| ≤ 1 / 2 ^ f := by
    rw [show (z : ℝ) / 2 ^ f - q = (z - q * 2 ^ f) / 2 ^ f by field_simp, abs_div, abs_of_pos hp, div_le_div_iff_of_pos_right hp, abs_le]
    constructor <;> linarith
  have h4 : (1 : ℝ) / 2 ^ f ≤ 1 := by rw [div_le_one hp]; linarith
  have h5 : InRange f z := by
    refine FixedPoint.inRange_exact (by omega) ?_
    have := abs_sub_abs_le_abs_sub ((z : ℝ) / 2 ^ f) q
    linarith
  have h6 : (FixedPoint.fromNum q : FixedPoint f).val = (z : ℝ) / 2 ^ f := by
    unfold FixedPoint.fromNum FixedPoint.val
    rw [← hz, toInt_of_inRange h5]
  rw [h6]; exact h3

open Ex in
/-- The example in fixed point numbers, with literals converted by `from_num`. -/
example (bld : Build) {ε : ℝ} (hε : 0 < ε) : ∃ p : ℕ, ∀ f : ℕ, p ≤ f →
    ∃ w' s', (litWorld (FixedPoint.fromNum (f := f))).run bld (litOps FixedPoint.fromNum) = .ok w' ∧
      litState.run (litOps fun q => (q : ℝ)) = some s' ∧ w'.Near (fun a x => |a.val - x| ≤ ε) s' := by
  obtain ⟨p, δ, hδ, hp⟩ := C92_fixed_point bld lit_regular hε
  obtain ⟨t, ht⟩ := exists_pow_lt_of_lt_one hδ (show (1 / 2 : ℝ) < 1 by norm_num)
  refine ⟨max (max p 5) t, fun f hf => ?_⟩
  obtain ⟨h4, h5, h6⟩ := lit_ok (FixedPoint.fromNum (f := f))
  have hc : ∀ q : ℚ, |q| ≤ 9 → |(FixedPoint.fromNum q : FixedPoint f).val - q| ≤ δ := fun q hq => by
    refine (FixedPoint.fromNum_close (by omega) hq).trans (le_trans ?_ ht.le)
    rw [div_pow, one_pow]
    exact one_div_le_one_div_of_le (by positivity) (pow_le_pow_right₀ one_le_two (by omega))
  obtain ⟨h7, h8⟩ := lit_near (lit := FixedPoint.fromNum (f := f)) (near := fun a x => |a.val - x| ≤ δ) hc
  exact hp f (by omega) (by omega) _ _ h4 h5 h7 h8 h6

end Minikalman
