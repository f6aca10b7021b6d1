import Verif.Proofs.LimitExtended
import Verif.Proofs.LimitNear

/-! # Programs with an extended filter near a textbook filter -/

set_option linter.unusedSectionVars false

namespace Minikalman
namespace Limit

open Filter Topology

variable {n m : Nat}
variable {ι : Type} {F : Filter ι} {T σ : ι → Type} {fin : ∀ k, T k → Prop} {val : ∀ k, T k → ℝ} {δ : ι → ℝ}

/-- Closures that compute a continuous function with errors that tend to zero. -/
theorem closure_tends (hδ : Tendsto δ F (𝓝 0)) {ρ : ℝ} (hρ : 0 < ρ)
    {c : ∀ k, σ k → Mat n 1 (T k) → Mat m 1 (T k) → Res (σ k × Mat m 1 (T k))} {g : (Fin n → ℝ) → Fin m → ℝ} {X : Fin n → ℝ}
    (hg : ContinuousAt g X) (hc : ∀ k, ComputesNear (fin k) (val k) ρ (δ k) X (c k) g) :
    ClosureTends F (Converges F fin val) c X (g X) := by
  intro st x out hx hout
  choose f hf1 hf2 using hx
  have hV : Tendsto (fun k (i : Fin n) => val k (f i k)) F (𝓝 X) := tendsto_pi_nhds.2 fun i => (hf2 i).2
  have hgood : ∀ᶠ k in F, ∀ i, fin k (f i k) ∧ |val k (f i k) - X i| ≤ ρ := by
    rw [eventually_all]
    intro i
    have := (Metric.tendsto_nhds.1 (hf2 i).2) ρ hρ
    filter_upwards [(hf2 i).1, this] with k h1 h2
    exact ⟨h1, by rw [Real.dist_eq] at h2; exact h2.le⟩
  have hex : ∀ k, ∃ st' : σ k, ∃ out' : Mat m 1 (T k), ∃ e : Fin m → T k, (∀ j : Fin m, out'.data[(j : Nat)]? = some (e j)) ∧
      out'.data.length = (out k).data.length ∧ ((∀ i, fin k (f i k) ∧ |val k (f i k) - X i| ≤ ρ) →
        c k (st k) (x k) (out k) = .ok (st', out') ∧ ∀ j, Close (fin k) (val k) (δ k) (e j) (g (fun i => val k (f i k)) j)) := by
    intro k
    by_cases hk : ∀ i, fin k (f i k) ∧ |val k (f i k) - X i| ≤ ρ
    · obtain ⟨st', out', h1, h2, h3⟩ := hc k (st k) (x k) (out k) (fun i => val k (f i k))
        (fun i => ⟨f i k, hf1 i k, (hk i).1, rfl⟩) (fun i => (hk i).2) (hout k)
      choose e he1 he2 using h2
      exact ⟨st', out', e, he1, h3, fun _ => ⟨h1, he2⟩⟩
    · have hl : ∀ j : Fin m, (j : Nat) < (out k).data.length := fun j => by
        have := hout k
        unfold Mat.Valid at this
        omega
      exact ⟨st k, out k, fun j => (out k).data[(j : Nat)]'(hl j), fun j => List.getElem?_eq_getElem (hl j), rfl, fun h => (hk h).elim⟩
  choose st' out' e h1 h2 h3 using hex
  refine ⟨st', out', ?_, fun j => ⟨fun k => e k j, fun k => h1 k j, ?_, ?_⟩, h2⟩
  · filter_upwards [hgood] with k hk using (h3 k hk).1
  · filter_upwards [hgood] with k hk using ((h3 k hk).2 j).1
  · have : Tendsto (fun k => g (fun i => val k (f i k)) j) F (𝓝 (g X j)) := (tendsto_pi_nhds.1 (hg.tendsto.comp hV)) j
    refine tendsto_of_err this hδ ?_
    filter_upwards [hgood] with k hk using ((h3 k hk).2 j).2

theorem xop_tends (hδ : Tendsto δ F (𝓝 0)) {ρ : ℝ} (hρ : 0 < ρ) {X : Fin n → ℝ} {op : ∀ k, XOp n (T k) (σ k)} {sop : Spec.XOp n ℝ}
    (hcont : sop.ContinuousAt X) (h : ∀ k, XOp.Near (fin k) (val k) ρ (δ k) X (op k) sop) :
    XOp.Tends F (Converges F fin val) X op sop := by
  cases sop with
  | predict g =>
    have : ∀ k, ∃ c, op k = .predict c ∧ ComputesNear (fin k) (val k) ρ (δ k) X c g := by
      intro k
      have := h k
      generalize op k = o at this
      cases this with | predict h => exact ⟨_, rfl, h⟩
    choose c h1 h2 using this
    obtain rfl : op = fun k => .predict (c k) := funext h1
    exact .predict (closure_tends hδ hρ hcont h2)
  | predictTuned b g =>
    have : ∀ k, ∃ a c, op k = .predictTuned a c ∧ Close (fin k) (val k) (δ k) a b ∧ ComputesNear (fin k) (val k) ρ (δ k) X c g := by
      intro k
      have := h k
      generalize op k = o at this
      cases this with | predictTuned ha h => exact ⟨_, _, rfl, ha, h⟩
    choose a c h1 h2 h3 using this
    obtain rfl : op = fun k => .predictTuned (a k) (c k) := funext h1
    exact .predictTuned (close_tends hδ h2) (closure_tends hδ hρ hcont h3)
  | correct i g =>
    have : ∀ k, ∃ c : (m : Nat) → σ k → Mat n 1 (T k) → Mat m 1 (T k) → Res (σ k × Mat m 1 (T k)), op k = .correct i c ∧
        ∀ m, ComputesNear (fin k) (val k) ρ (δ k) X (c m) (g m) := by
      intro k
      have := h k
      generalize op k = o at this
      cases this with | correct _ h => exact ⟨_, rfl, h⟩
    choose c h1 h2 using this
    obtain rfl : op = fun k => .correct i (c k) := funext h1
    exact .correct i fun m => closure_tends hδ hρ (hcont m) fun k => h2 k m
  | assign b =>
    have : ∀ k, ∃ a, op k = .assign a ∧ a.toOp.Near (Close (fin k) (val k) (δ k)) b.toOp := by
      intro k
      have := h k
      generalize op k = o at this
      cases this with | assign h => exact ⟨_, rfl, h⟩
    choose a h1 h2 using this
    obtain rfl : op = fun k => .assign (a k) := funext h1
    have hn := fun (a : ∀ k, T k) (x : ℝ) (h : ∀ k, Close (fin k) (val k) (δ k) (a k) x) => close_tends (F := F) hδ h
    refine .assign ?_
    cases b with
    | x w =>
      have : ∀ k, ∃ v, a k = .x v ∧ List.Forall₂ (Close (fin k) (val k) (δ k)) v w := by
        intro k
        have := h2 k
        cases ha : a k <;> rw [ha] at this <;> cases this
        exact ⟨_, rfl, by assumption⟩
      choose v h3 h4 using this
      obtain rfl : a = fun k => .x (v k) := funext h3
      exact .x (data_tends hn h4)
    | A w =>
      have : ∀ k, ∃ v, a k = .A v ∧ List.Forall₂ (Close (fin k) (val k) (δ k)) v w := by
        intro k
        have := h2 k
        cases ha : a k <;> rw [ha] at this <;> cases this
        exact ⟨_, rfl, by assumption⟩
      choose v h3 h4 using this
      obtain rfl : a = fun k => .A (v k) := funext h3
      exact .A (data_tends hn h4)
    | P w =>
      have : ∀ k, ∃ v, a k = .P v ∧ List.Forall₂ (Close (fin k) (val k) (δ k)) v w := by
        intro k
        have := h2 k
        cases ha : a k <;> rw [ha] at this <;> cases this
        exact ⟨_, rfl, by assumption⟩
      choose v h3 h4 using this
      obtain rfl : a = fun k => .P (v k) := funext h3
      exact .P (data_tends hn h4)
    | Q w =>
      have : ∀ k, ∃ v, a k = .Q v ∧ List.Forall₂ (Close (fin k) (val k) (δ k)) v w := by
        intro k
        have := h2 k
        cases ha : a k <;> rw [ha] at this <;> cases this
        exact ⟨_, rfl, by assumption⟩
      choose v h3 h4 using this
      obtain rfl : a = fun k => .Q (v k) := funext h3
      exact .Q (data_tends hn h4)
    | z i w =>
      have : ∀ k, ∃ v, a k = .z i v ∧ List.Forall₂ (Close (fin k) (val k) (δ k)) v w := by
        intro k
        have := h2 k
        cases ha : a k <;> rw [ha] at this <;> cases this
        exact ⟨_, rfl, by assumption⟩
      choose v h3 h4 using this
      obtain rfl : a = fun k => .z i (v k) := funext h3
      exact .z i (data_tends hn h4)
    | H i w =>
      have : ∀ k, ∃ v, a k = .H i v ∧ List.Forall₂ (Close (fin k) (val k) (δ k)) v w := by
        intro k
        have := h2 k
        cases ha : a k <;> rw [ha] at this <;> cases this
        exact ⟨_, rfl, by assumption⟩
      choose v h3 h4 using this
      obtain rfl : a = fun k => .H i (v k) := funext h3
      exact .H i (data_tends hn h4)
    | R i w =>
      have : ∀ k, ∃ v, a k = .R i v ∧ List.Forall₂ (Close (fin k) (val k) (δ k)) v w := by
        intro k
        have := h2 k
        cases ha : a k <;> rw [ha] at this <;> cases this
        exact ⟨_, rfl, by assumption⟩
      choose v h3 h4 using this
      obtain rfl : a = fun k => .R i (v k) := funext h3
      exact .R i (data_tends hn h4)

theorem xops_tends (hδ : Tendsto δ F (𝓝 0)) {ρ : ℝ} (hρ : 0 < ρ) {s : Spec.State n ℝ} {ops : ∀ k, List (XOp n (T k) (σ k))}
    {sops : List (Spec.XOp n ℝ)} (hcont : s.XContinuousRun sops) (h : ∀ k, XOp.RunNear (fin k) (val k) ρ (δ k) s (ops k) sops) :
    XOp.RunTends F (Converges F fin val) s ops sops := by
  induction sops generalizing s ops with
  | nil =>
    obtain rfl : ops = fun _ => [] := funext fun k => by
      have := h k
      generalize ops k = o at this
      cases this; rfl
    exact .nil
  | cons sop sops ih =>
    have : ∀ k, ∃ op rest, ops k = op :: rest ∧ XOp.Near (fin k) (val k) ρ (δ k) s.x op sop ∧
        ∀ s', s.xstep sop = some s' → XOp.RunNear (fin k) (val k) ρ (δ k) s' rest sops := by
      intro k
      have := h k
      generalize ops k = o at this
      cases this with | cons h hs => exact ⟨_, _, rfl, h, hs⟩
    choose op rest h1 h2 h3 using this
    obtain rfl : ops = fun k => op k :: rest k := funext h1
    exact .cons (xop_tends hδ hρ hcont.1 h2) fun s' hs' => ih (hcont.2 s' hs') fun k => h3 k s' hs'

/-- For every `ε` there are a precision `p` and a tolerance `δ` for data and closures such that every program with that precision
ends within `ε` of the textbook filter. -/
theorem xrun_close {Fmt : Type} {T : Fmt → Type} [∀ f, Zero (T f)] [∀ f, One (T f)] [∀ f, Add (T f)] [∀ f, Sub (T f)] [∀ f, Mul (T f)]
    [∀ f, Neg (T f)] [∀ f, MDT (T f)] {fin : ∀ f, T f → Prop} {val : ∀ f, T f → ℝ} {good : ℕ → Fmt → Prop}
    (hlim : ∀ g : ℕ → Fmt, (∀ k, good k (g k)) →
      ScalarLimit atTop (Converges atTop (fun k => fin (g k)) (fun k => val (g k)))) (bld : Build)
    {s : Spec.State n ℝ} {sops : List (Spec.XOp n ℝ)} (hreg : s.XRegularRun sops) (hcont : s.XContinuousRun sops) {ρ : ℝ} (hρ : 0 < ρ)
    {ε : ℝ} (hε : 0 < ε) :
    ∃ p : ℕ, ∃ δ > 0, ∀ f, good p f → ∀ (σ : Type) (w : XWorld n (T f) σ) (ops : List (XOp n (T f) σ)), w.Valid → w.asRegular.Exact →
      w.asRegular.Near (Close (fin f) (val f) δ) s → XOp.RunNear (fin f) (val f) ρ δ s ops sops →
      (∀ op ∈ ops, op.WellFormed w) →
      ∃ w' s', w.run bld ops = .ok w' ∧ s.xrun sops = some s' ∧ w'.asRegular.Near (Close (fin f) (val f) ε) s' := by
  by_contra hc
  have hc' : ∀ p : ℕ, ∃ f, good p f ∧ ∃ (σ : Type) (w : XWorld n (T f) σ) (ops : List (XOp n (T f) σ)), w.Valid ∧ w.asRegular.Exact ∧
      w.asRegular.Near (Close (fin f) (val f) (1 / ((p : ℝ) + 1))) s ∧ XOp.RunNear (fin f) (val f) ρ (1 / ((p : ℝ) + 1)) s ops sops ∧
      (∀ op ∈ ops, op.WellFormed w) ∧
      ¬ ∃ w' s', w.run bld ops = .ok w' ∧ s.xrun sops = some s' ∧ w'.asRegular.Near (Close (fin f) (val f) ε) s' := by
    intro p
    by_contra h
    refine hc ⟨p, 1 / ((p : ℝ) + 1), by positivity, fun f hf σ w ops h1 h2 h3 h4 h5 => ?_⟩
    by_contra h6
    exact h ⟨f, hf, σ, w, ops, h1, h2, h3, h4, h5, h6⟩
  choose g hg σ w ops h1 h2 h3 h4 h5 h6 using hc'
  have hδ : Tendsto (fun p : ℕ => 1 / ((p : ℝ) + 1)) atTop (𝓝 0) := tendsto_one_div_add_atTop_nhds_zero_nat
  have hn := fun (a : ∀ k, T (g k)) (x : ℝ) (h : ∀ k, Close (fin (g k)) (val (g k)) (1 / ((k : ℝ) + 1)) (a k) x) =>
    close_tends (F := atTop) hδ h
  have hobs : ∀ o ∈ s.obs, 0 < o.1 := by
    intro o ho
    obtain ⟨i, hi⟩ := List.mem_iff_getElem?.mp ho
    obtain ⟨q, hq, hqo⟩ := forall₂_get (h3 0).obs.flip hi
    have hv : (w 0).asRegular.Valid := h1 0
    have := (hv.obs q (List.mem_iff_getElem?.mpr ⟨i, hq⟩)).1
    have e : q.1 = o.1 := by
      have : ObsNear _ q o := hqo
      cases this; rfl
    omega
  obtain ⟨w', s', e1, e2, e3⟩ := xrun_tends (hlim g hg) bld ⟨_, stateBuf_reps (show (w 0).asRegular.Valid from h1 0).states hobs, world_tends hn h1 h2 h3⟩
    (xops_tends hδ hρ hcont h4) h5 hreg
  obtain ⟨k, hk1, hk2⟩ := (e1.and (world_near hε e3)).exists
  exact h6 k ⟨w' k, s', hk1, e2, hk2⟩

end Limit
end Minikalman
