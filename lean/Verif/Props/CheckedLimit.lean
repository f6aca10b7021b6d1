import Verif.Proofs.CheckedLimit
import Verif.Proofs.Builder
import Verif.Props.Checked
import Verif.Props.Limit

/-!
# C93: with enough bits no operation of a build with overflow checks panics
-/

set_option linter.unusedSectionVars false

namespace Minikalman

open Filter

variable {n : Nat}

/-- C93 for meaningful histories: with enough bits and data within `δ` of those of the textbook filter, no operation of a build with
overflow checks panics (also none whose result is not used), and the result is within `ε` of that of the textbook filter. -/
theorem C93_enough_bits (bld : Build) {s : Spec.State n ℝ} {ops' : List (Op ℝ)} (hreg : s.RegularRun ops') {ε : ℝ} (hε : 0 < ε) :
    ∃ p : ℕ, ∃ δ > 0, ∀ f : ℕ, p ≤ f → 2 ≤ f → ∀ (w : World n (FixedPoint f)) (ops : List (Op (FixedPoint f))), w.Valid → w.Exact →
      w.Fresh → w.Near (fun a x => |a.val - x| ≤ δ) s → List.Forall₂ (Op.Near fun a x => |a.val - x| ≤ δ) ops ops' →
      (∀ op ∈ ops, op.WellFormed w) →
      ∃ w' s', Chk.run (FixedPoint.debugOps f) bld w ops = .ok w' ∧ s.run ops' = some s' ∧
        w'.Near (fun a x => |a.val - x| ≤ ε) s' := by
  obtain ⟨p, δ, hδ, h⟩ := Chk.debug_close bld hreg hε
  refine ⟨p, δ, hδ, fun f h1 h2 w ops hv he hf hw ho hwf => ?_⟩
  have e : ∀ γ : ℝ, Close (fun _ : FixedPoint f => True) FixedPoint.val γ = fun a x => |a.val - x| ≤ γ :=
    fun γ => funext fun a => funext fun x => true_and _
  have := h f ⟨h1, h2⟩ w ops hv he hf
  rw [e, e] at this
  exact this hw ho hwf

/-- C93 with covariances: if `P`, `Q` and the noises of controls are positive semi-definite, the noises of measurements positive
definite and all `λ ≠ 0`, then with enough bits a build with overflow checks does not panic. -/
theorem C93_enough_bits_covariances (bld : Build) {s : Spec.State n ℝ} {ops' : List (Op ℝ)} (hs : s.Psd)
    (hd : ∀ op ∈ ops', s.PsdData op) (hl : ∀ op ∈ ops', op.NonzeroLambda) {ε : ℝ} (hε : 0 < ε) :
    ∃ p : ℕ, ∃ δ > 0, ∀ f : ℕ, p ≤ f → 2 ≤ f → ∀ (w : World n (FixedPoint f)) (ops : List (Op (FixedPoint f))), w.Valid → w.Exact →
      w.Fresh → w.Near (fun a x => |a.val - x| ≤ δ) s → List.Forall₂ (Op.Near fun a x => |a.val - x| ≤ δ) ops ops' →
      (∀ op ∈ ops, op.WellFormed w) →
      ∃ w' s', Chk.run (FixedPoint.debugOps f) bld w ops = .ok w' ∧ s.run ops' = some s' ∧
        w'.Near (fun a x => |a.val - x| ≤ ε) s' := C93_enough_bits bld (psd_regularRun hs hl hd) hε

/-! ## Programs that begin with the builders -/

/-- The textbook filter before any data are assigned: everything is zero. -/
def Spec.State.blank (n : Nat) (ctls obs : List Nat) : Spec.State n ℝ where
  x := 0
  A := 0
  P := 0
  Q := 0
  ctl := ctls.map fun l => ⟨l, 0, 0, 0⟩
  obs := obs.map fun m => ⟨m, 0, 0, 0⟩

theorem built_start {f : Nat} (bld : Build) (hn : 0 < n) (ctls obs : List Nat) (ho : ∀ m ∈ obs, 0 < m) :
    ∃ w : World n (FixedPoint f), buildWorld bld ctls obs = .ok w ∧ w.Valid ∧ w.Exact ∧ w.Fresh ∧
      ∀ δ > 0, w.Near (fun a x => |a.val - x| ≤ δ) (Spec.State.blank n ctls obs) := by
  obtain ⟨w, h1, h2, h3, h4, h5, h6⟩ := buildWorld_filled (T := FixedPoint f) (n := n) bld ctls obs
  obtain ⟨w', h7, h8⟩ := buildWorld_valid (T := FixedPoint f) bld hn ctls obs ho
  obtain rfl : w = w' := Except.ok.inj (h1.symm.trans h7)
  refine ⟨w, h1, h8, ⟨h2.x.1.trans (Nat.mul_one n), h2.A.1, h2.P.1, h2.Q.1, fun c hc => ⟨(h4 c hc).B.1, (h4 c hc).u.1.trans (Nat.mul_one _), (h4 c hc).Q.1⟩,
    fun o ho => ⟨(h6 o ho).H.1, (h6 o ho).z.1.trans (Nat.mul_one _), (h6 o ho).R.1⟩⟩, ⟨h2.predictedX, h2.tempP, fun c hc => (h4 c hc).tempBQ, fun o ho => ?_⟩, ?_⟩
  · have k := h6 o ho
    exact ⟨k.y, k.S, k.K, k.tempSInv, k.tempHP, k.tempPHt, k.tempKHP⟩
  · intro δ hδ
    have hz : |(0 : FixedPoint f).val - 0| ≤ δ := by rw [FixedPoint.val_zero, sub_zero, abs_zero]; exact hδ.le
    have hm : ∀ {R C : Nat} {a : Mat R C (FixedPoint f)}, a.Filled default → a.Near (fun a x => |a.val - x| ≤ δ) 0 :=
      fun h i j => ⟨0, h.2 i j, hz⟩
    have hv : ∀ {R : Nat} {a : Mat R 1 (FixedPoint f)}, a.Filled default → a.NearV (fun a x => |a.val - x| ≤ δ) 0 :=
      fun h i => ⟨0, by have := h.2 i 0; rw [Nat.mul_one] at this; exact this, hz⟩
    refine ⟨hv h2.x, hm h2.A, hm h2.P, hm h2.Q, ?_, ?_⟩
    · clear h1 h7
      subst h3
      show List.Forall₂ _ w.ctl ((w.ctl.map Sigma.fst).map _)
      rw [List.map_map]
      refine List.forall₂_map_right_iff.2 (List.forall₂_same.2 fun c hc => ?_)
      exact .mk (hm (h4 c hc).B) (hv (h4 c hc).u) (hm (h4 c hc).Q)
    · clear h1 h7
      subst h5
      show List.Forall₂ _ w.obs ((w.obs.map Sigma.fst).map _)
      rw [List.map_map]
      refine List.forall₂_map_right_iff.2 (List.forall₂_same.2 fun o ho => ?_)
      exact .mk (hm (h6 o ho).H) (hv (h6 o ho).z) (hm (h6 o ho).R)

/-- C93, whole programs: build a filter with the builders, then assign data and call the filter in any way that is meaningful for
the textbook filter. If the numbers assigned are within `δ` of the intended ones and the type has enough bits, then no operation of a
build with overflow checks panics, and the result is within `ε` of that of the textbook filter. -/
theorem C93_built_program (bld : Build) (hn : 0 < n) (ctls obs : List Nat) (ho : ∀ m ∈ obs, 0 < m) {ops' : List (Op ℝ)}
    (hreg : (Spec.State.blank n ctls obs).RegularRun ops') {ε : ℝ} (hε : 0 < ε) :
    ∃ p : ℕ, ∃ δ > 0, ∀ f : ℕ, p ≤ f → 2 ≤ f → ∃ w : World n (FixedPoint f), buildWorld bld ctls obs = .ok w ∧
      ∀ ops : List (Op (FixedPoint f)), List.Forall₂ (Op.Near fun a x => |a.val - x| ≤ δ) ops ops' → (∀ op ∈ ops, op.WellFormed w) →
      ∃ w' s', Chk.run (FixedPoint.debugOps f) bld w ops = .ok w' ∧ (Spec.State.blank n ctls obs).run ops' = some s' ∧
        w'.Near (fun a x => |a.val - x| ≤ ε) s' := by
  obtain ⟨p, δ, hδ, h⟩ := C93_enough_bits bld hreg hε
  refine ⟨p, δ, hδ, fun f h1 h2 => ?_⟩
  obtain ⟨w, e1, e2, e3, e4, e5⟩ := built_start (f := f) bld hn ctls obs ho
  exact ⟨w, e1, fun ops h4 h5 => h f h1 h2 w ops e2 e3 e4 (e5 δ hδ) h4 h5⟩

namespace Ex

/-- Literals for a built program: `A = 9/10`, `P = 1`, `Q = 1/10`, `H = 1`, `R = 1/3`. -/
def builtData {T : Type} (lit : ℚ → T) : List (Op T) :=
  [.setX [lit 2], .setA [lit (9 / 10)], .setP [lit 1], .setQ [lit (1 / 10)], .setH 0 [lit 1], .setR 0 [lit (1 / 3)]]

/-- Assign the data, measure, predict, correct. -/
def builtOps {T : Type} (lit : ℚ → T) : List (Op T) := builtData lit ++ [.setZ 0 [lit (7 / 10)], .predict, .correct 0]

end Ex

theorem regularRun_append {s s' : Spec.State n ℝ} {a b : List (Op ℝ)} (h : ∀ op ∈ a, ∀ t : Spec.State n ℝ, t.Regular op)
    (hs : s.run a = some s') (hb : s'.RegularRun b) : s.RegularRun (a ++ b) := by
  induction a generalizing s with
  | nil => cases hs; exact hb
  | cons op a ih =>
    refine ⟨h op List.mem_cons_self s, fun t ht => ih (fun o ho => h o (List.mem_cons_of_mem _ ho)) ?_⟩
    have : (s.step op).bind (fun t => t.run a) = some s' := hs
    rw [ht] at this
    exact this

open Ex in
theorem Ex.built_regular : (Spec.State.blank 1 [] [1]).RegularRun (builtOps fun q => (q : ℝ)) := by
  have e : ∀ q : ℚ, (Spec.matOf [(q : ℝ)] : Matrix (Fin 1) (Fin 1) ℝ) = one1 (q : ℝ) := by
    intro q
    ext i j
    fin_cases i; fin_cases j
    rfl
  have h : (Spec.State.blank 1 [] [1]).run (builtData fun q => (q : ℝ)) = some ⟨Spec.vecOf [((2 : ℚ) : ℝ)], Spec.matOf [((9 / 10 : ℚ) : ℝ)],
      Spec.matOf [((1 : ℚ) : ℝ)], Spec.matOf [((1 / 10 : ℚ) : ℝ)], [], [⟨1, Spec.matOf [((1 : ℚ) : ℝ)], 0, Spec.matOf [((1 / 3 : ℚ) : ℝ)]⟩]⟩ := rfl
  refine regularRun_append ?_ h (psd_regularRun ⟨?_, ?_, by simp, ?_⟩ ?_ ?_)
  · simp only [builtData, List.mem_cons, List.not_mem_nil, or_false, forall_eq_or_imp, forall_eq]
    exact ⟨fun _ => trivial, fun _ => trivial, fun _ => trivial, fun _ => trivial, fun _ => trivial, fun _ => trivial⟩
  · dsimp only; rw [e]; exact one1_psd (by norm_num)
  · dsimp only; rw [e]; exact one1_psd (by norm_num)
  · simp only [List.mem_singleton, forall_eq]
    rw [e]; exact one1_pd (by norm_num)
  · simp only [List.mem_cons, List.not_mem_nil, or_false, forall_eq_or_imp, forall_eq]
    exact ⟨trivial, trivial, trivial⟩
  · simp only [List.mem_cons, List.not_mem_nil, or_false, forall_eq_or_imp, forall_eq]
    exact ⟨trivial, trivial, trivial⟩

theorem Ex.built_near {T : Type} {near : T → ℝ → Prop} {lit : ℚ → T} (h : ∀ q : ℚ, |q| ≤ 9 → near (lit q) q) :
    List.Forall₂ (Op.Near near) (builtOps lit) (builtOps fun q => (q : ℝ)) := by
  refine .cons (.setX (.cons (h _ ?_) .nil)) (.cons (.setA (.cons (h _ ?_) .nil)) (.cons (.setP (.cons (h _ ?_) .nil))
    (.cons (.setQ (.cons (h _ ?_) .nil)) (.cons (.setH 0 (.cons (h _ ?_) .nil)) (.cons (.setR 0 (.cons (h _ ?_) .nil))
    (.cons (.setZ 0 (.cons (h _ ?_) .nil)) (.cons .predict (.cons (.correct 0) .nil))))))))
  all_goals (rw [abs_of_pos (by norm_num)]; norm_num)

open Ex in
/-- The program of the example: with enough bits it runs in a build with overflow checks, with literals converted by `from_num`. -/
example (bld : Build) {ε : ℝ} (hε : 0 < ε) : ∃ p : ℕ, ∀ f : ℕ, p ≤ f →
    ∃ w w' s', buildWorld bld [] [1] = .ok w ∧ Chk.run (FixedPoint.debugOps f) bld w (builtOps FixedPoint.fromNum) = .ok w' ∧
      (Spec.State.blank 1 [] [1]).run (builtOps fun q => (q : ℝ)) = some s' ∧ w'.Near (fun a x => |a.val - x| ≤ ε) s' := by
  obtain ⟨p, δ, hδ, hp⟩ := C93_built_program bld Nat.zero_lt_one [] [1] (by simp) built_regular hε
  obtain ⟨t, ht⟩ := exists_pow_lt_of_lt_one hδ (show (1 / 2 : ℝ) < 1 by norm_num)
  refine ⟨max (max p 5) t, fun f hf => ?_⟩
  have hc : ∀ q : ℚ, |q| ≤ 9 → |(FixedPoint.fromNum q : FixedPoint f).val - q| ≤ δ := fun q hq => by
    refine (FixedPoint.fromNum_close (by omega) hq).trans (le_trans ?_ ht.le)
    rw [div_pow, one_pow]
    exact one_div_le_one_div_of_le (by positivity) (pow_le_pow_right₀ one_le_two (by omega))
  obtain ⟨w, h1, h2⟩ := hp f (by omega) (by omega)
  obtain ⟨v, h3, hk, h4, -, h5, hob⟩ := buildWorld_filled (T := FixedPoint f) (n := 1) bld [] [1]
  obtain rfl : w = v := Except.ok.inj (h1.symm.trans h3)
  have hwf : ∀ op ∈ builtOps (FixedPoint.fromNum (f := f)), op.WellFormed w := by
    obtain ⟨kf, ctl, obs⟩ := w
    match obs, h5 with
    | [⟨_, o⟩], h5 =>
      simp only [List.map_cons, List.map_nil, List.cons.injEq, and_true] at h5
      subst h5
      simp only [builtOps, builtData, List.cons_append, List.nil_append, List.mem_cons, List.not_mem_nil, or_false, forall_eq_or_imp, forall_eq]
      have ho := hob ⟨1, o⟩ List.mem_cons_self
      have e : ∀ {a : Mat 1 1 (FixedPoint f)}, a.Filled default → 1 = a.data.length := fun h => h.1.symm
      exact ⟨e hk.x, e hk.A, e hk.P, e hk.Q, congrArg some (e ho.H).symm, congrArg some (e ho.R).symm, congrArg some (e ho.z).symm,
        trivial, Nat.zero_lt_one⟩
  obtain ⟨w', s', h6, h7, h8⟩ := h2 _ (built_near hc) hwf
  exact ⟨w, w', s', h1, h6, h7, h8⟩

end Minikalman
