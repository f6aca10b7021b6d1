import Verif.Proofs.CheckedSim
import Verif.Proofs.CheckedTotal
import Verif.Proofs.LimitNear
import Verif.Proofs.LimitScalar
import Verif.Spec.Checked

/-!
# Builds with overflow checks in arithmetics of growing size

The exact program with operators that panic at all points where the limit would not be continuous (`Strict.ops`) succeeds on
histories that are meaningful; therefore programs with overflow checks eventually succeed.
-/

set_option linter.unusedSectionVars false

namespace Minikalman

open Mode Limit Filter

/-- Real numbers that panic at zeros of reciprocals, at roots of numbers that are not positive, and if a comparison does not
say "greater". -/
noncomputable def strictReal : Ops ℝ where
  zero := 0
  one := 1
  add a b := .ok (a + b)
  sub a b := .ok (a - b)
  mul a b := .ok (a * b)
  neg a := .ok (-a)
  recip x := if x = 0 then .error .arithmetic else .ok x⁻¹
  squareRoot x := open Classical in if 0 < x then .ok (Real.sqrt x) else .error .arithmetic
  le x y := open Classical in if x ≤ y then .error .arithmetic else .ok false
  sumStart := 0

namespace Chk

variable {n l m R C N : Nat}

theorem forUpR_cont {σ ρ : Type} {b b' : Nat → σ → Res (Ctl σ ρ)} (h : ∀ i s s', b i s = .ok (.cont s') → b' i s = .ok (.cont s'))
    {lo hi : Nat} {s s' : σ} (hs : forUpR lo hi b s = .ok (.cont s')) : forUpR lo hi b' s = .ok (.cont s') := by
  unfold forUpR at *
  generalize hi - lo = N at hs ⊢
  induction N generalizing lo s with
  | zero => exact hs
  | succ N ih =>
    rw [forCountR_succ] at hs ⊢
    cases hb : b lo s with
    | error e => rw [hb] at hs; cases hs
    | ok c =>
      rw [hb] at hs
      cases c with
      | ret r => cases hs
      | cont t => rw [h _ _ _ hb]; exact ih hs

theorem bind_cont {α β : Type} {c : Res α} {f g : α → Res β} {x : β} (h : (c >>= f) = .ok x) (hf : ∀ a, f a = .ok x → g a = .ok x) :
    (c >>= g) = .ok x := by
  cases c with
  | error e => cases h
  | ok a => exact hf a h

theorem bindR_cont {σ ρ β : Type} {c c' : Res (Ctl σ ρ)} {k k' : Ctl σ ρ → Res β} {x : β} (h : (c >>= k) = .ok x)
    (hk : ∀ r, k (.ret r) ≠ .ok x) (hk' : ∀ s, k (.cont s) = .ok x → k' (.cont s) = .ok x)
    (hc : ∀ s, c = .ok (.cont s) → c' = .ok (.cont s)) : (c' >>= k') = .ok x := by
  cases c with
  | error e => cases h
  | ok c =>
    cases c with
    | ret r => exact absurd h (hk r)
    | cont s => rw [hc s rfl]; exact hk' s h

section
attribute [local instance] panickingReal

theorem isum_real (l : List ℝ) : MDT.isum l = l.foldl (· + ·) 0 := List.sum_eq_foldl

theorem chol_strict (bld : Build) {a L : Mat R C ℝ} (h : a.choleskyDecomposeLower bld = .ok (L, true)) :
    choleskyDecomposeLower strictReal bld a = .ok (L, true) := by
  rw [← chol_total' (s := 0)] at h
  unfold choleskyDecomposeLower at h ⊢
  refine bind_cont h fun _ h => bind_cont h fun _ h => ?_
  refine bindR_cont h (fun r hr => by cases hr) (fun s hs => hs) fun s hs => ?_
  refine forUpR_cont ?_ hs
  intro i s s' hs
  refine forUpR_cont ?_ hs
  intro j s s' hs
  refine bind_cont hs fun v hs => bind_cont hs fun v hs => bind_cont hs fun w hs => bind_cont hs fun t hs => ?_
  by_cases hij : i = j
  · simp only [if_pos hij] at hs ⊢
    obtain ⟨v, j'⟩ := v
    by_cases hv : v ≤ 0
    · have : (Ops.total ℝ 0).le v (Ops.total ℝ 0).zero = .ok true := by
        show Except.ok (decide _) = _
        simp [Ops.total, hv]
      rw [this] at hs
      cases hs
    · have e1 : (Ops.total ℝ 0).le v (Ops.total ℝ 0).zero = .ok false := by
        show Except.ok (decide _) = _
        simp [Ops.total, hv]
      have e2 : strictReal.le v strictReal.zero = .ok false := if_neg hv
      have e3 : strictReal.squareRoot v = (Ops.total ℝ 0).squareRoot v := by
        show _ = if v < 0 then _ else _
        rw [if_neg (by linarith)]
        exact if_pos (not_le.1 hv)
      simp only [e1] at hs
      simp only [e2, e3]
      exact hs
  · simp only [if_neg hij] at hs ⊢
    exact hs

theorem invert_strict (a b : Mat N N ℝ) : invertLCholesky strictReal a b = a.invertLCholesky b :=
  (show invertLCholesky strictReal a b = invertLCholesky (.total ℝ 0) a b from rfl).trans (invert_total' isum_real a b)

theorem update_strict (bld : Build) {b : RegularObservation n m ℝ} {x : Mat n 1 ℝ} {P : Mat n n ℝ} (hm : 0 < m) (hov : b.Valid)
    {H R PP} (rH : b.H.Reps H) (rR : b.R.Reps R) (rP : P.Reps PP) (hS : (H * PP * H.transpose + R).PosDef) :
    updateWithInnovation strictReal bld b x P = b.updateWithInnovation bld x P := by
  have := panickingReal_exact
  unfold updateWithInnovation RegularObservation.updateWithInnovation
  obtain ⟨hp, h1, h2, h3⟩ := Mat.mult_reps rH rP hov.tempHP
  rw [mulSeq_eq_mul] at h2
  obtain ⟨s, h4, h5, h6⟩ := Mat.multTransb_reps h2 rH hov.S
  rw [mulSeq_eq_mul] at h5
  obtain ⟨s2, h7, h8, h9⟩ := Mat.addInplaceA_reps h5 rR
  obtain ⟨L, b, c1, c2, c3, c4⟩ := chol_matrix bld hm (PosDef.symm_real hS) h8.upper
  have hb : b = true := by
    by_contra hb
    exact c4 (by simpa using hb) hS
  subst hb
  have k1 : mult strictReal _ _ _ = _ := h1
  have k4 : multTransb strictReal _ _ _ = _ := h4
  have k7 : addInplaceA strictReal _ _ = _ := h7
  simp only [h1, h4, h7, c1, k1, k4, k7, chol_strict bld c1, res_bind_ok, invert_strict]
  rfl

theorem correct_strict (bld : Build) {g : RegularKalman n ℝ} {p : RegularObservation n m ℝ} (hn : 0 < n) (hm : 0 < m)
    {x A P Q H z R} (hg : g.Reps x A P Q) (hp : p.Reps H z R) (hS : (H * P * H.transpose + R).PosDef) :
    correct strictReal bld g p = g.correct bld p := by
  unfold correct RegularKalman.correct RegularObservation.correct
  obtain ⟨y1, y2, h1, h2, h3, h4⟩ := innovation_any hn hp.valid hp.H hp.z hg.x
  have k1 : multRowvector strictReal _ _ _ = _ := h1
  have k2 : subInplaceB strictReal _ _ = _ := h2
  simp only [h1, h2, k1, k2, res_bind_ok]
  rw [update_strict (b := { p with y := y2 }) bld hm (obs_with_y_valid hp.valid h4) hp.H hp.R hg.P hS]

theorem step_strict (bld : Build) {v : World n ℝ} {s : Spec.State n ℝ} (hv : v.Reps s) {op : Op ℝ} (hreg : s.Regular op) :
    step strictReal bld v op = v.step bld op := by
  cases op with
  | correct i =>
    unfold step World.step
    dsimp only
    cases hi : v.obs[i]? with
    | none => rfl
    | some d =>
      obtain ⟨o, ho1, ho2⟩ := forall₂_get hv.obs hi
      have hS := hreg o ho1
      cases ho2 with
      | mk hm hp =>
        simp only [correct_strict bld hv.states hm hv.kf hp hS]
  | _ => rfl

theorem run_strict (bld : Build) {v : World n ℝ} {s : Spec.State n ℝ} (hv : v.Reps s) {ops : List (Op ℝ)}
    (hwf : ∀ op ∈ ops, op.WellFormed v) (hreg : s.RegularRun ops) : run strictReal bld v ops = v.run bld ops := by
  have := panickingReal_exact
  induction ops generalizing v s with
  | nil => rfl
  | cons op ops ih =>
    obtain ⟨v', s', k1, k2, k3, k4⟩ := step_refines bld hv (hwf op (by simp)) hreg.1
    simp only [run, World.run, step_strict bld hv hreg.1, k1, res_bind_ok]
    exact ih k3 (fun o ho => (hwf o (by simp [ho])).congr k4) (hreg.2 s' k2)

end

/-! ## Eventually -/

/-- From some point on the computations succeed. -/
def eventually {ι : Type} (F : Filter ι) : Mode ι where
  holds c P := ∃ s, (∀ᶠ k in F, c k = .ok (s k)) ∧ P s
  fails _ _ := True
  ok h := ⟨_, Eventually.of_forall fun _ => rfl, h⟩
  bind := by
    rintro α β P Q c f ⟨s, h1, h2⟩ hf
    obtain ⟨t, h3, h4⟩ := hf s h2
    refine ⟨t, ?_, h4⟩
    filter_upwards [h1, h3] with k e1 e2
    rw [e1, res_bind_ok, e2]
  error _ := trivial
  bind_error _ := trivial
  bind_fails _ _ := trivial

theorem eventually_sim {ι : Type} {F : Filter ι} {α : ι → Type} {β : Type} {c : ∀ k, Res (α k)} {d : Res β} {S : (∀ k, α k) → β → Prop}
    (h : ∀ t, d = .ok t → ∃ s, (∀ᶠ k in F, c k = .ok (s k)) ∧ S s t) : (eventually F).Sim c d S := ⟨h, fun _ _ => trivial⟩

theorem checked_ok {f : Nat} {z : Int} {r : FixedPoint f} (h : InRange f z) : FixedPoint.checked z r = .ok r := if_pos h

/-- The numbers of the sizes `g k` tend to `x`. -/
def FixedTends (g : ℕ → ℕ) (a : ∀ k, FixedPoint (g k)) (x : ℝ) : Prop :=
  Converges atTop (fun k (_ : FixedPoint (g k)) => True) (fun _ a => a.val) a x

theorem debug_sim {g : ℕ → ℕ} (h : ∀ k, k ≤ g k ∧ 2 ≤ g k) :
    OpsSim (eventually atTop) (fun k => FixedPoint.debugOps (g k)) strictReal (FixedTends g) := by
  have hw := watched_limit h
  have hf := fixed_limit h
  have up : ∀ {a : ∀ k, FixedPoint (g k)} {x : ℝ}, FixedTends g a x →
      Converges atTop (fun k (a : Watched (g k)) => a.clean = true) (fun _ a => a.num.val) (fun k => Watched.fresh (a k)) x :=
    fun h => ⟨Eventually.of_forall fun _ => rfl, h.2⟩
  refine ⟨hf.zero, hf.one, hf.zero, ?_, ?_, ?_, ?_, ?_, ?_, ?_⟩
  · intro a b x y ha hb
    refine eventually_sim fun t ht => ⟨fun k => a k + b k, ?_, by cases ht; exact hf.add ha hb⟩
    filter_upwards [(hw.add (up ha) (up hb)).1] with k hk
    exact checked_ok (Watched.add_clean.1 hk).2.2
  · intro a b x y ha hb
    refine eventually_sim fun t ht => ⟨fun k => a k - b k, ?_, by cases ht; exact hf.sub ha hb⟩
    filter_upwards [(hw.sub (up ha) (up hb)).1] with k hk
    exact checked_ok (Watched.sub_clean.1 hk).2.2
  · intro a b x y ha hb
    refine eventually_sim fun t ht => ⟨fun k => a k * b k, ?_, by cases ht; exact hf.mul ha hb⟩
    filter_upwards [(hw.mul (up ha) (up hb)).1] with k hk
    exact checked_ok (Watched.mul_clean.1 hk).2.2
  · intro a x ha
    refine eventually_sim fun t ht => ⟨fun k => -a k, ?_, by cases ht; exact hf.neg ha⟩
    filter_upwards [(hw.neg (up ha)).1] with k hk
    exact checked_ok (Watched.neg_clean.1 hk).2
  · intro a x ha
    refine eventually_sim fun t ht => ?_
    have hx : x ≠ 0 := by
      rintro rfl
      have : strictReal.recip 0 = .error .arithmetic := if_pos rfl
      rw [this] at ht; cases ht
    have e : strictReal.recip x = .ok x⁻¹ := if_neg hx
    rw [e] at ht
    cases ht
    obtain ⟨d, h1, h2⟩ := hf.recip ha hx
    obtain ⟨d', h3, h4⟩ := hw.recip (up ha) hx
    refine ⟨d, ?_, h2⟩
    filter_upwards [h1, h3, h4.1] with k k1 k2 k3
    show (MDT.recip (a k) >>= fun r => FixedPoint.checked _ r) = _
    rw [k1]
    refine checked_ok ?_
    have : (MDT.recip (a k)).map _ = _ := k2
    rw [k1] at this
    rw [← Except.ok.inj this] at k3
    have k3' : ((Watched.fresh (a k)).clean && decide (InRange (g k) (((2 : Int) ^ (2 * g k)).tdiv (a k).bits.toInt))) = true := k3
    exact of_decide_eq_true (Bool.and_eq_true_iff.1 k3').2
  · intro a x ha
    refine eventually_sim fun t ht => ?_
    have hx : 0 < x := by
      by_contra hx
      have : strictReal.squareRoot x = .error .arithmetic := if_neg hx
      rw [this] at ht; cases ht
    have e : strictReal.squareRoot x = .ok (Real.sqrt x) := if_pos hx
    rw [e] at ht
    cases ht
    obtain ⟨d, h1, h2⟩ := hf.squareRoot ha hx
    obtain ⟨d', h3, h4⟩ := hw.squareRoot (up ha) hx
    refine ⟨d, ?_, h2⟩
    filter_upwards [h1, h3, h4.1] with k k1 k2 k3
    show (MDT.squareRoot (a k) >>= fun r => FixedPoint.checked _ r) = _
    rw [k1]
    refine checked_ok ?_
    have : (MDT.squareRoot (a k)).map _ = _ := k2
    rw [k1] at this
    rw [← Except.ok.inj this] at k3
    have k3' : ((Watched.fresh (a k)).clean && decide (InRange (g k) (((a k).bits.toInt.toNat * 2 ^ g k).sqrt : Int))) = true := k3
    exact of_decide_eq_true (Bool.and_eq_true_iff.1 k3').2
  · intro a b x y ha hb
    refine eventually_sim fun t ht => ?_
    have hxy : y < x := by
      by_contra hx
      have : strictReal.le x y = .error .arithmetic := if_pos (not_lt.1 hx)
      rw [this] at ht; cases ht
    have e : strictReal.le x y = .ok false := if_neg (not_le.2 hxy)
    rw [e] at ht
    cases ht
    refine ⟨fun _ => false, ?_, rfl⟩
    filter_upwards [hb.2.eventually_lt ha.2 hxy] with k hk
    show Except.ok (MDT.le (a k) (b k)) = _
    refine congrArg _ (Bool.eq_false_iff.2 ?_)
    rw [ne_eq, FixedPoint.le_iff]
    exact not_le.2 hk

/-! ## Fresh temporaries -/

theorem filled_zeros {T : Type} [Zero T] {a : Mat R C T} (h : a.Filled 0) : a = zeros T R C := by
  cases a with
  | mk d =>
    refine congrArg Mat.mk (List.ext_getElem? fun i => ?_)
    by_cases hi : i < R * C
    · have hC : 0 < C := Nat.pos_of_ne_zero fun hc => by simp [hc] at hi
      have h2 := h.2 ⟨i / C, Nat.div_lt_of_lt_mul (by rwa [Nat.mul_comm] at hi)⟩ ⟨i % C, Nat.mod_lt _ hC⟩
      have e : i / C * C + i % C = i := by rw [Nat.mul_comm]; exact Nat.div_add_mod i C
      simp only [e] at h2
      rw [h2, List.getElem?_replicate, if_pos hi]
    · have h1 : d.length = R * C := h.1
      rw [List.getElem?_eq_none (by omega), List.getElem?_eq_none (by rw [List.length_replicate]; omega)]

theorem clean_fresh {T : Type} [Zero T] {w : World n T} (h : w.Fresh) : clean w = w := by
  have hc : (w.ctl.map fun c => (⟨c.1, { c.2 with tempBQ := zeros T n c.1 }⟩ : (l : Nat) × Control n l T)) = w.ctl := by
    conv_rhs => rw [← List.map_id w.ctl]
    refine List.map_congr_left fun c hc => ?_
    rw [← filled_zeros (h.ctl c hc)]
    rfl
  have ho : (clean w).obs = w.obs := by
    conv_rhs => rw [← List.map_id w.obs]
    refine List.map_congr_left fun c hc => ?_
    have k := h.obs c hc
    obtain ⟨m, H, z, R, y, S, K, t1, t2, t3, t4⟩ := c
    have e1 := filled_zeros k.y
    have e2 := filled_zeros k.S
    have e3 := filled_zeros k.K
    have e4 := filled_zeros k.tempSInv
    have e5 := filled_zeros k.tempHP
    have e6 := filled_zeros k.tempPHt
    have e7 := filled_zeros k.tempKHP
    dsimp only at e1 e2 e3 e4 e5 e6 e7
    subst e1 e2 e3 e4 e5 e6 e7
    rfl
  cases w with
  | mk kf ctl obs =>
    have h1 := filled_zeros h.predictedX
    have h2 := filled_zeros h.tempP
    dsimp only at h1 h2 hc ho
    unfold clean at ho ⊢
    dsimp only at ho ⊢
    rw [hc, ho, ← h1, ← h2]

/-- With enough bits, programs with overflow checks do not panic and end near the textbook filter. -/
theorem debug_close (bld : Build) {s : Spec.State n ℝ} {ops' : List (Op ℝ)} (hreg : s.RegularRun ops') {ε : ℝ} (hε : 0 < ε) :
    ∃ p : ℕ, ∃ δ > 0, ∀ f, p ≤ f ∧ 2 ≤ f → ∀ (w : World n (FixedPoint f)) (ops : List (Op (FixedPoint f))), w.Valid → w.Exact → w.Fresh →
      w.Near (Close (fun _ => True) FixedPoint.val δ) s → List.Forall₂ (Op.Near (Close (fun _ => True) FixedPoint.val δ)) ops ops' →
      (∀ op ∈ ops, op.WellFormed w) →
      ∃ w' s', run (FixedPoint.debugOps f) bld w ops = .ok w' ∧ s.run ops' = some s' ∧
        w'.Near (Close (fun _ => True) FixedPoint.val ε) s' := by
  suffices hp : ∃ p : ℕ, ∀ f, p ≤ f ∧ 2 ≤ f → ∀ (w : World n (FixedPoint f)) (ops : List (Op (FixedPoint f))), w.Valid → w.Exact →
      w.Fresh → w.Near (Close (fun _ => True) FixedPoint.val (1 / ((p : ℝ) + 1))) s →
      List.Forall₂ (Op.Near (Close (fun _ => True) FixedPoint.val (1 / ((p : ℝ) + 1)))) ops ops' → (∀ op ∈ ops, op.WellFormed w) →
      ∃ w' s', run (FixedPoint.debugOps f) bld w ops = .ok w' ∧ s.run ops' = some s' ∧
        w'.Near (Close (fun _ => True) FixedPoint.val ε) s' by
    obtain ⟨p, hp⟩ := hp
    exact ⟨p, 1 / ((p : ℝ) + 1), by positivity, hp⟩
  by_contra hc
  have hc' : ∀ p : ℕ, ∃ f, (p ≤ f ∧ 2 ≤ f) ∧ ∃ (w : World n (FixedPoint f)) (ops : List (Op (FixedPoint f))), w.Valid ∧ w.Exact ∧
      w.Fresh ∧ w.Near (Close (fun _ => True) FixedPoint.val (1 / ((p : ℝ) + 1))) s ∧
      List.Forall₂ (Op.Near (Close (fun _ => True) FixedPoint.val (1 / ((p : ℝ) + 1)))) ops ops' ∧ (∀ op ∈ ops, op.WellFormed w) ∧
      ¬ ∃ w' s', run (FixedPoint.debugOps f) bld w ops = .ok w' ∧ s.run ops' = some s' ∧
        w'.Near (Close (fun _ => True) FixedPoint.val ε) s' := by
    intro p
    by_contra h
    refine hc ⟨p, fun f hf w ops h1 h2 h0 h3 h4 h5 => ?_⟩
    by_contra h6
    exact h ⟨f, hf, w, ops, h1, h2, h0, h3, h4, h5, h6⟩
  choose g hg w ops h1 h2 h0 h3 h4 h5 h6 using hc'
  have hn : ∀ (a : ∀ k, FixedPoint (g k)) (x : ℝ), (∀ k : ℕ, Close (fun _ => True) FixedPoint.val (1 / ((k : ℝ) + 1)) (a k) x) →
      FixedTends g a x := fun a x h => close_tends tendsto_one_div_add_atTop_nhds_zero_nat h
  have hobs : ∀ o ∈ s.obs, 0 < o.1 := by
    intro o ho
    obtain ⟨i, hi⟩ := List.mem_iff_getElem?.mp ho
    obtain ⟨q, hq, hqo⟩ := forall₂_get (h3 0).obs.flip hi
    have := ((h1 0).obs q (List.mem_iff_getElem?.mpr ⟨i, hq⟩)).1
    have e : q.1 = o.1 := by
      have : ObsNear _ q o := hqo
      cases this; rfl
    omega
  have hops : ListTends (Op.Tends (FixedTends g)) ops ops' := by
    have := list_tends (g := id) (r := Op.Tends (FixedTends g)) h4 fun f x _ hf => op_tends hn hf
    rwa [List.map_id] at this
  have hv := stateBuf_reps (h1 0).states hobs
  have hwv := world_tends hn h1 h2 h3
  have := panickingReal_exact
  letI := panickingReal
  have hwf' : ∀ op ∈ ops', op.WellFormed (stateBuf s) := by
    intro op hop
    obtain ⟨i, hi⟩ := List.mem_iff_getElem?.mp hop
    obtain ⟨f, h1, h2⟩ := hops.2 i op hi
    exact wellFormed_limit hwv h2 0 (h5 0 _ (List.mem_iff_getElem?.mpr ⟨i, h1 0⟩))
  have hwfc : ∀ op ∈ ops', op.WellFormed (clean (stateBuf s)) := fun op hop => (hwf' op hop).congr (clean_inputs _).shape
  obtain ⟨v', s', e1, e2, e3, -⟩ := run_refines bld (clean_reps hv) hwfc hreg
  have hfull := clean_full (debug_sim hg).zero hwv
  have e4 : (fun k => clean (w k)) = w := funext fun k => clean_fresh (h0 k)
  rw [e4] at hfull
  obtain ⟨w', e5, e6⟩ := (run_sim (debug_sim hg) bld hfull hops).1 v' ((run_strict bld (clean_reps hv) hwfc hreg).trans e1)
  have e7 := FullW.tendsTo e6 e3.valid (fun k => FullW.valid e6 e3.valid k) fun k => World.InputsEq.refl _
  obtain ⟨k, hk1, hk2⟩ := (e5.and (world_near (fin := fun _ _ => True) (val := fun (k : ℕ) (a : FixedPoint (g k)) => a.val) hε ⟨v', e3, e7⟩)).exists
  exact h6 k ⟨w' k, s', hk1, e2, hk2⟩

end Chk
end Minikalman
