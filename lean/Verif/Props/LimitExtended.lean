import Verif.Proofs.LimitNearExtended
import Verif.Props.Limit

/-!
# C92 for the extended filter

The same for programs with an extended filter: with enough precision, with data near those of the textbook filter and with closures
that compute continuous functions with a small error, the program ends near the textbook extended filter. Nothing is assumed about
the closures far from the states at which the textbook filter evaluates the functions.
-/

set_option linter.unusedSectionVars false

namespace Minikalman

open Filter

variable {n : Nat}

/-- C92 for the extended filter in floating point numbers: with at least `p` bits of precision and range, data within `δ` of those of
the textbook filter, and closures that on numbers within `ρ` of the state of the textbook filter compute its functions up to `δ`,
the result is within `ε` of that of the textbook filter. -/
theorem C92_extended_float (bld : Build) {s : Spec.State n ℝ} {sops : List (Spec.XOp n ℝ)} (hreg : s.XRegularRun sops)
    (hcont : s.XContinuousRun sops) {ρ : ℝ} (hρ : 0 < ρ) {ε : ℝ} (hε : 0 < ε) :
    ∃ p : ℕ, ∃ δ > 0, ∀ fmt : Format, p ≤ fmt.prec → p ≤ fmt.frac → p ≤ fmt.top - fmt.frac →
      ∀ (σ : Type) (w : XWorld n (Bin fmt) σ) (ops : List (XOp n (Bin fmt) σ)), w.Valid → w.asRegular.Exact →
      w.asRegular.Near (fun a x => a.Finite ∧ |a.val - x| ≤ δ) s → XOp.RunNear Bin.Finite Bin.val ρ δ s ops sops →
      (∀ op ∈ ops, op.WellFormed w) →
      ∃ w' s', w.run bld ops = .ok w' ∧ s.xrun sops = some s' ∧ w'.asRegular.Near (fun a x => a.Finite ∧ |a.val - x| ≤ ε) s' := by
  obtain ⟨p, δ, hδ, h⟩ := Limit.xrun_close (T := Bin) (good := Format.AtLeast) (fun g hg => Limit.float_limit hg) bld hreg hcont hρ hε
  exact ⟨p, δ, hδ, fun fmt h1 h2 h3 => h fmt ⟨h1, h2, h3⟩⟩

/-- C92 for the extended filter with covariances: all histories are meaningful if `P`, `Q` are positive semi-definite, the noises of
measurements positive definite and all `λ ≠ 0`. -/
theorem C92_extended_float_covariances (bld : Build) {s : Spec.State n ℝ} {sops : List (Spec.XOp n ℝ)} (hs : s.Psd)
    (hd : ∀ op ∈ sops, s.PsdData op.linear) (hl : ∀ op ∈ sops, op.linear.NonzeroLambda)
    (hcont : s.XContinuousRun sops) {ρ : ℝ} (hρ : 0 < ρ) {ε : ℝ} (hε : 0 < ε) :
    ∃ p : ℕ, ∃ δ > 0, ∀ fmt : Format, p ≤ fmt.prec → p ≤ fmt.frac → p ≤ fmt.top - fmt.frac →
      ∀ (σ : Type) (w : XWorld n (Bin fmt) σ) (ops : List (XOp n (Bin fmt) σ)), w.Valid → w.asRegular.Exact →
      w.asRegular.Near (fun a x => a.Finite ∧ |a.val - x| ≤ δ) s → XOp.RunNear Bin.Finite Bin.val ρ δ s ops sops →
      (∀ op ∈ ops, op.WellFormed w) →
      ∃ w' s', w.run bld ops = .ok w' ∧ s.xrun sops = some s' ∧ w'.asRegular.Near (fun a x => a.Finite ∧ |a.val - x| ≤ ε) s' :=
  C92_extended_float bld (xpsd_regularRun hs hl hd) hcont hρ hε

/-- C92 for the extended filter in fixed point numbers with `f` integer and `f` fractional bits, with a mark for operations that leave
the range of the type: there is no panic and no overflow, and the result is as near as required. -/
theorem C92_extended_fixed_point (bld : Build) {s : Spec.State n ℝ} {sops : List (Spec.XOp n ℝ)} (hreg : s.XRegularRun sops)
    (hcont : s.XContinuousRun sops) {ρ : ℝ} (hρ : 0 < ρ) {ε : ℝ} (hε : 0 < ε) :
    ∃ p : ℕ, ∃ δ > 0, ∀ f : ℕ, p ≤ f → 2 ≤ f →
      ∀ (σ : Type) (w : XWorld n (Watched f) σ) (ops : List (XOp n (Watched f) σ)), w.Valid → w.asRegular.Exact →
      w.asRegular.Near (fun a x => a.clean = true ∧ |a.num.val - x| ≤ δ) s →
      XOp.RunNear (fun a => a.clean = true) (fun a => a.num.val) ρ δ s ops sops → (∀ op ∈ ops, op.WellFormed w) →
      ∃ w' s', w.run bld ops = .ok w' ∧ s.xrun sops = some s' ∧
        w'.asRegular.Near (fun a x => a.clean = true ∧ |a.num.val - x| ≤ ε) s' := by
  obtain ⟨p, δ, hδ, h⟩ := Limit.xrun_close (T := Watched) (fin := fun _ a => a.clean = true) (val := fun _ a => a.num.val)
    (good := fun p f => p ≤ f ∧ 2 ≤ f) (fun g hg => Limit.watched_limit hg) bld hreg hcont hρ hε
  exact ⟨p, δ, hδ, fun f h1 h2 σ w ops hv he hw ho hwf => h f ⟨h1, h2⟩ σ w ops hv he hw ho hwf⟩

/-- C92 for the extended filter without rounding: the result depends continuously on all data and on the functions. -/
theorem C92_extended_exact [MDT ℝ] [ExactReal] (bld : Build) {s : Spec.State n ℝ} {sops : List (Spec.XOp n ℝ)} (hreg : s.XRegularRun sops)
    (hcont : s.XContinuousRun sops) {ρ : ℝ} (hρ : 0 < ρ) {ε : ℝ} (hε : 0 < ε) :
    ∃ δ > 0, ∀ (σ : Type) (w : XWorld n ℝ σ) (ops : List (XOp n ℝ σ)), w.Valid → w.asRegular.Exact →
      w.asRegular.Near (fun a x => |a - x| ≤ δ) s → XOp.RunNear (fun _ => True) (fun a => a) ρ δ s ops sops →
      (∀ op ∈ ops, op.WellFormed w) →
      ∃ w' s', w.run bld ops = .ok w' ∧ s.xrun sops = some s' ∧ w'.asRegular.Near (fun a x => |a - x| ≤ ε) s' := by
  obtain ⟨p, δ, hδ, h⟩ := Limit.xrun_close (Fmt := Unit) (T := fun _ => ℝ) (fin := fun _ _ => True) (val := fun _ a => a)
    (good := fun _ _ => True) (fun g _ => Limit.real_limit) bld hreg hcont hρ hε
  refine ⟨δ, hδ, fun σ w ops hv he hw ho hwf => ?_⟩
  have e : ∀ γ : ℝ, Close (fun _ : ℝ => True) (fun a => a) γ = fun a x => |a - x| ≤ γ :=
    fun γ => funext fun a => funext fun x => true_and _
  have := h () trivial σ w ops hv he
  rw [e, e] at this
  exact this hw ho hwf

/-- C92 for the extended filter and any family of element types whose operations approximate those of the real numbers. -/
theorem C92_extended_limit {ι : Type} {F : Filter ι} [F.NeBot] {T σ : ι → Type} [∀ k, Zero (T k)] [∀ k, One (T k)] [∀ k, Add (T k)]
    [∀ k, Sub (T k)] [∀ k, Mul (T k)] [∀ k, Neg (T k)] [∀ k, MDT (T k)] {lim : (∀ k, T k) → ℝ → Prop} (hl : ScalarLimit F lim)
    (bld : Build) {w : ∀ k, XWorld n (T k) (σ k)} {s : Spec.State n ℝ} (h : XWorld.Tends lim w s) {ops : ∀ k, List (XOp n (T k) (σ k))}
    {sops : List (Spec.XOp n ℝ)} (hops : XOp.RunTends F lim s ops sops) (hwf : ∀ k, ∀ op ∈ ops k, op.WellFormed (w k))
    (hreg : s.XRegularRun sops) :
    ∃ (w' : ∀ k, XWorld n (T k) (σ k)) (s' : Spec.State n ℝ), (∀ᶠ k in F, (w k).run bld (ops k) = .ok (w' k)) ∧
      s.xrun sops = some s' ∧ XWorld.Tends lim w' s' :=
  Limit.xrun_tends hl bld h hops hwf hreg

/-! ## Example: a quantity that is squared, and of which the square is measured -/

namespace Ex

/-- A closure that writes the square of the first state variable, in the arithmetic of the program, into all measurements. -/
def squares {T σ : Type} [Mul T] (n m : Nat) : σ → Mat n 1 T → Mat m 1 T → Res (σ × Mat m 1 T) := fun st x out => do
  let v ← rd x.data 0
  pure (st, ⟨List.replicate m (v * v) ++ out.data.drop m⟩)

/-- The program of `litWorld` with an extended filter. -/
def sqOps {T : Type} [Mul T] (lit : ℚ → T) : List (XOp 1 T Unit) :=
  [.predict (squares 1 1), .assign (.z 0 [lit (7 / 10)]), .correct 0 (squares 1)]

noncomputable def sqSpec : List (Spec.XOp 1 ℝ) :=
  [.predict fun x _ => x 0 * x 0, .assign (.z 0 [((7 / 10 : ℚ) : ℝ)]), .correct 0 fun _ x _ => x 0 * x 0]

theorem squares_near {fmt : Format} {m : Nat} {X : Fin 1 → ℝ} {B δ : ℝ} (hB : |X 0| + 1 ≤ B) (h1 : B * B < fmt.limit)
    (h2 : 1 / 2 ^ fmt.prec * (B * B) + 1 / 2 ^ (fmt.frac + 1) ≤ δ) :
    ComputesNear (T := Bin fmt) (σ := Unit) Bin.Finite Bin.val 1 δ X (squares 1 m) (fun x _ => x 0 * x 0) := by
  intro st x out V hx hV hout
  obtain ⟨t, ht, hf, hv⟩ := hx 0
  have ht0 : x.data[0]? = some t := ht
  have hb : |t.val| ≤ B := by
    have h3 := hV 0
    have h4 := abs_sub_abs_le_abs_sub (V 0) (X 0)
    rw [hv]; linarith
  have hbb : |t.val * t.val| ≤ B * B := by
    rw [abs_mul]
    exact mul_le_mul hb hb (abs_nonneg _) ((abs_nonneg _).trans hb)
  have hfin : (t * t).Finite := Limit.finite_of_small (Bin.mul_rounds hf hf) (hbb.trans_lt h1)
  have herr := Bin.mul_error hfin
  have hl : m ≤ out.data.length := by simpa [Mat.Valid] using hout
  refine ⟨st, ⟨List.replicate m (t * t) ++ out.data.drop m⟩, ?_, fun j => ⟨t * t, ?_, hfin, ?_⟩, ?_⟩
  · simp only [squares, rd, ht0]; rfl
  · rw [List.getElem?_append_left (by simp)]
    simp
  · show |(t * t).val - V 0 * V 0| ≤ δ
    rw [← hv]
    refine herr.trans (le_trans ?_ h2)
    gcongr
  · simp; omega

end Ex

open Ex in
theorem Ex.sq_regular : litState.XRegularRun sqSpec := by
  refine xpsd_regularRun ⟨one1_psd zero_le_one, one1_psd (by norm_num), by simp [litState], ?_⟩ ?_ ?_
  · intro o ho
    simp only [litState, List.mem_singleton] at ho
    subst ho
    exact one1_pd (by norm_num)
  · simp only [sqSpec, List.mem_cons, List.not_mem_nil, or_false, forall_eq_or_imp, forall_eq]
    exact ⟨trivial, trivial, trivial⟩
  · simp only [sqSpec, List.mem_cons, List.not_mem_nil, or_false, forall_eq_or_imp, forall_eq]
    exact ⟨trivial, trivial, trivial⟩

open Ex in
theorem Ex.sq_continuous : litState.XContinuousRun sqSpec := by
  refine ⟨?_, fun s' _ => ⟨trivial, fun s'' _ => ⟨fun m => ?_, fun _ _ => trivial⟩⟩⟩
  · show ContinuousAt (fun (x : Fin 1 → ℝ) (_ : Fin 1) => x 0 * x 0) _
    fun_prop
  · show ContinuousAt (fun (x : Fin 1 → ℝ) (_ : Fin m) => x 0 * x 0) _
    fun_prop

open Ex in
/-- In the example the textbook filter is at `2` when it predicts and at `4` when it measures. -/
theorem Ex.sq_runNear {fmt : Format} {δ : ℝ} (h1 : (25 : ℝ) < fmt.limit) (h2 : 1 / 2 ^ fmt.prec * (25 : ℝ) + 1 / 2 ^ (fmt.frac + 1) ≤ δ)
    (hlit : Close Bin.Finite Bin.val δ (Bin.lit (7 / 10) : Bin fmt) ((7 / 10 : ℚ) : ℝ)) :
    XOp.RunNear (Bin.Finite (fmt := fmt)) Bin.val 1 δ litState (sqOps Bin.lit) sqSpec := by
  refine .cons (.predict (squares_near (B := 5) (by norm_num [litState]) (by linarith) (by linarith))) fun s' hs' => ?_
  cases hs'
  refine .cons (.assign (.setZ 0 (.cons hlit .nil))) fun s' hs' => ?_
  have hx : s'.x = fun _ => 2 * 2 := by
    simp only [Spec.State.xstep, Assign.toOp, Spec.State.step, litState] at hs'
    cases hs'; rfl
  refine .cons (.correct 0 fun m => squares_near (B := 5) (by rw [hx]; norm_num) (by linarith) (by linarith)) fun _ _ => .nil

theorem Limit.pow_lt_limit {fmt : Format} {q : Nat} (h : q + 1 < fmt.top - fmt.frac) : (2 : ℝ) ^ q < fmt.limit := by
  refine lt_of_lt_of_le ?_ (limit_ge fmt)
  rw [lt_div_iff₀ (by positivity), ← pow_add]
  exact pow_lt_pow_right₀ one_lt_two (by omega)

theorem Limit.rounds_close {fmt : Format} {x : ℝ} {a : Bin fmt} {q t : Nat} (ha : RoundsTo x a) (hx : |x| ≤ 2 ^ q)
    (h1 : q + t ≤ fmt.prec) (h2 : t ≤ fmt.frac) (h3 : q + 1 < fmt.top - fmt.frac) : a.Finite ∧ |a.val - x| ≤ 1 / 2 ^ t := by
  have hl : |x| < fmt.limit := lt_of_le_of_lt hx (Limit.pow_lt_limit h3)
  refine ⟨Limit.finite_of_small ha hl, ?_⟩
  obtain ⟨y, hy1, hy2⟩ := Limit.exists_close fmt hx h1 h2 (by omega)
  refine le_trans ?_ hy2
  have := abs_lt.1 hl
  rcases ha with h3 | h3 | h3
  · exact (h3.2.2 y hy1).1
  · linarith [h3.1]
  · linarith [h3.1]

open Ex in
/-- The example in floating point numbers: literals, the squares the closures compute and all other results are rounded; still the
result is as near to the exact one as required if the format is good enough. -/
example (bld : Build) {ε : ℝ} (hε : 0 < ε) : ∃ p : ℕ, ∀ fmt : Format, p ≤ fmt.prec → p ≤ fmt.frac → p ≤ fmt.top - fmt.frac →
    ∃ w' s', ((litWorld (Bin.lit (fmt := fmt))).asExtended ()).run bld (sqOps Bin.lit) = .ok w' ∧ litState.xrun sqSpec = some s' ∧
      w'.asRegular.Near (fun a x => a.Finite ∧ |a.val - x| ≤ ε) s' := by
  obtain ⟨p, δ, hδ, h⟩ := C92_extended_float bld sq_regular sq_continuous one_pos hε
  obtain ⟨t, ht⟩ := exists_pow_lt_of_lt_one hδ (show (1 / 2 : ℝ) < 1 by norm_num)
  rw [div_pow, one_pow] at ht
  refine ⟨p + t + 7, fun fmt h1 h2 h3 => ?_⟩
  obtain ⟨h4, h5, -⟩ := lit_ok (Bin.lit (fmt := fmt))
  have hlit : ∀ q : ℚ, |q| ≤ 9 → (Bin.lit q : Bin fmt).Finite ∧ |(Bin.lit q : Bin fmt).val - q| ≤ δ := fun q hq => by
    have hq' : |(q : ℝ)| ≤ 2 ^ 4 := by
      have : |(q : ℝ)| ≤ 9 := by exact_mod_cast hq
      linarith
    obtain ⟨e1, e2⟩ := Limit.rounds_close (fmt := fmt) (a := Bin.lit q) (t := t) (Bin.lit_rounds q) hq' (by omega) (by omega) (by omega)
    exact ⟨e1, e2.trans ht.le⟩
  obtain ⟨h7, -⟩ := lit_near (lit := Bin.lit (fmt := fmt)) (near := fun a x => a.Finite ∧ |a.val - x| ≤ δ) hlit
  have hp : (0 : ℝ) < 2 ^ t := by positivity
  have e1 : 1 / (2 : ℝ) ^ fmt.prec ≤ 1 / 2 ^ t / 64 := by
    rw [div_div]
    refine one_div_le_one_div_of_le (by positivity) ?_
    calc (2 : ℝ) ^ t * 64 = 2 ^ (t + 6) := by rw [pow_add]; norm_num
      _ ≤ 2 ^ fmt.prec := pow_le_pow_right₀ one_le_two (by omega)
  have e2 : 1 / (2 : ℝ) ^ (fmt.frac + 1) ≤ 1 / 2 ^ t / 64 := by
    rw [div_div]
    refine one_div_le_one_div_of_le (by positivity) ?_
    calc (2 : ℝ) ^ t * 64 = 2 ^ (t + 6) := by rw [pow_add]; norm_num
      _ ≤ 2 ^ (fmt.frac + 1) := pow_le_pow_right₀ one_le_two (by omega)
  have e3 : (0 : ℝ) < 1 / 2 ^ t := by positivity
  have e4 : (2 : ℝ) ^ 5 < fmt.limit := Limit.pow_lt_limit (by omega)
  refine h fmt (by omega) (by omega) (by omega) Unit _ _ (Limit.asExtended_valid h4 ()) ⟨h5.1, h5.2, h5.3, h5.4, fun c hc => (List.not_mem_nil hc).elim, ?_⟩
    h7 (sq_runNear (by linarith) (by linarith) (hlit _ (by rw [abs_of_pos] <;> norm_num))) ?_
  · intro o ho
    simp only [litWorld, World.asExtended, XWorld.asRegular, List.map_cons, List.map_nil, List.mem_singleton] at ho
    subst ho
    exact ⟨rfl, rfl, rfl⟩
  · simp only [sqOps, List.mem_cons, List.not_mem_nil, or_false, forall_eq_or_imp, forall_eq]
    exact ⟨trivial, rfl, Nat.zero_lt_one⟩

end Minikalman
