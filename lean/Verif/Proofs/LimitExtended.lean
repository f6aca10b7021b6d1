import Verif.Spec.LimitExtended
import Verif.Proofs.LimitRun
import Verif.Proofs.ExtendedHistory

/-! # The extended filter in arithmetics of growing precision -/

set_option linter.unusedSectionVars false

namespace Minikalman
namespace Limit

open Filter

attribute [local instance] panickingReal

variable {ι : Type} {F : Filter ι} {T σ : ι → Type} {n m : Nat}

/-! ## Buffers with new matrix cells -/

/-- The buffer with other entries of the vector. -/
def patch {T : Type} (b : Mat n 1 T) (V : Fin n → T) : Mat n 1 T := ⟨List.ofFn V ++ b.data.drop n⟩

theorem patch_repsV {T : Type} (b : Mat n 1 T) (V : Fin n → T) : (patch b V).RepsV V := by
  intro i
  unfold patch
  rw [List.getElem?_append_left (by rw [List.length_ofFn]; exact i.2)]
  simp

theorem patch_sameTail {T : Type} {b : Mat n 1 T} (hb : b.Valid) (V : Fin n → T) : b.SameTail (patch b V) := by
  have hl : n ≤ b.data.length := by simpa [Mat.Valid] using hb
  refine ⟨by simp [patch]; omega, fun k hk => ?_⟩
  rw [Nat.mul_one] at hk
  unfold patch
  rw [List.getElem?_append_right (by rw [List.length_ofFn]; exact hk), List.length_ofFn, List.getElem?_drop]
  congr 1; omega

variable {lim : (∀ k, T k) → ℝ → Prop}

theorem patch_tends {a : ∀ k, Mat n 1 (T k)} {b : Mat n 1 ℝ} (h : MatTends lim a b) (hb : b.Valid) {V : ∀ k, Fin n → T k}
    {Y : Fin n → ℝ} (hV : ∀ j, lim (fun k => V k j) (Y j)) : MatTends lim (fun k => patch (a k) (V k)) (patch b Y) := by
  refine ⟨fun k => ?_, fun i x hi => ?_⟩
  · rw [(patch_sameTail (MatTends.valid h hb k) (V k)).1, (patch_sameTail hb Y).1]
    exact h.1 k
  · rcases Nat.lt_or_ge i n with hl | hl
    · have := patch_repsV b Y ⟨i, hl⟩
      rw [show ((⟨i, hl⟩ : Fin n) : Nat) = i from rfl, hi] at this
      rw [Option.some.inj this]
      exact ⟨fun k => V k ⟨i, hl⟩, fun k => patch_repsV (a k) (V k) ⟨i, hl⟩, hV _⟩
    · rw [(patch_sameTail hb Y).2 i (by omega)] at hi
      obtain ⟨f, h1, h2⟩ := h.2 i x hi
      exact ⟨f, fun k => by rw [(patch_sameTail (MatTends.valid h hb k) (V k)).2 i (by omega)]; exact h1 k, h2⟩

theorem MatTends.vec {a : ∀ k, Mat n 1 (T k)} {b : Mat n 1 ℝ} (h : MatTends lim a b) {X} (hb : b.RepsV X) : VecTends lim a X :=
  fun i => h.2 _ _ (hb i)

theorem VecTends.choose {a : ∀ k, Mat n 1 (T k)} {X : Fin n → ℝ} (h : VecTends lim a X) :
    ∃ V : ∀ k, Fin n → T k, (∀ k, (a k).RepsV (V k)) ∧ ∀ j, lim (fun k => V k j) (X j) := by
  choose f h1 h2 using h
  exact ⟨fun k j => f j k, fun k j => h1 j k, h2⟩

/-! ## One step of the regular filter -/

variable [∀ k, Zero (T k)] [∀ k, One (T k)] [∀ k, Add (T k)] [∀ k, Sub (T k)] [∀ k, Mul (T k)] [∀ k, Neg (T k)]
variable [∀ k, MDT (T k)]

theorem step_tends (hr : ScalarLimit F lim) (bld : Build) {w : ∀ k, World n (T k)} {v : World n ℝ} {s : Spec.State n ℝ}
    (hv : v.Reps s) (h : World.TendsTo lim w v) {op : ∀ k, Op (T k)} {op' : Op ℝ} (hop : Op.Tends lim op op')
    (hwf : ∀ k, (op k).WellFormed (w k)) (hwf' : op'.WellFormed v) (hreg : s.Regular op') :
    ∃ u v' s', (∀ᶠ k in F, ∃ r, (w k).step bld (op k) = .ok r ∧ r.InputsEq (u k) ∧ r.Valid) ∧ s.step op' = some s' ∧ v'.Reps s' ∧
      v.SameShape v' ∧ World.TendsTo lim u v' := by
  have := panickingReal_exact
  obtain ⟨v', s', e1, e2, e3, e4⟩ := step_refines bld (clean_reps hv) (hwf'.congr (clean_inputs v).shape) hreg
  obtain ⟨c, e5, e6⟩ := step_ev hr bld (clean_full hr.zero h) (clean_reps hv) hop hreg v' e1
  refine ⟨c, v', s', ?_, e2, e3, (clean_inputs v).shape.trans e4, FullW.tendsTo e6 e3.valid (fun k => FullW.valid e6 e3.valid k)
    fun k => World.InputsEq.refl _⟩
  filter_upwards [e5] with k hk
  rcases step_inputs bld (h.valid k) (clean_valid (h.valid k)) (clean_inputs (w k)) (hwf k) with ⟨e, h1, h2⟩ | ⟨a, b, h1, h2, h3⟩
  · rw [hk] at h2; cases h2
  · rw [hk] at h2; cases h2
    rcases step_safe bld (h.valid k) (hwf k) with ⟨e, he, _⟩ | ⟨u, h4, h5⟩
    · rw [h1] at he; cases he
    · rw [h1] at h4; cases h4
      exact ⟨a, h1, h3, h5.1⟩

/-! ## One step of the extended filter -/

theorem asExtended_inputs {T σ : Type} {u : World n T} (hc : u.ctl = []) (env : σ) : (u.asExtended env).asRegular.InputsEq u := by
  refine ⟨rfl, rfl, rfl, rfl, ?_, ?_⟩
  · rw [hc]; exact .nil
  · show List.Forall₂ _ (List.map _ (List.map _ _)) _
    rw [List.map_map, List.forall₂_map_left_iff]
    exact List.forall₂_same.2 fun o _ => .mk rfl rfl rfl

theorem asExtended_valid {T σ : Type} {u : World n T} (hu : u.Valid) (env : σ) : (u.asExtended env).asRegular.Valid := by
  refine ⟨hu.states, hu.kf, fun c hc => (List.not_mem_nil hc).elim, fun o ho => ?_⟩
  obtain ⟨p, hp, rfl⟩ := List.mem_map.1 ho
  obtain ⟨q, hq, rfl⟩ := List.mem_map.1 hp
  exact hu.obs q hq

/-- Results that exist eventually. -/
theorem collect {w : ∀ k, XWorld n (T k) (σ k)} {u : ∀ k, World n (T k)} {v : World n ℝ} (hu : World.TendsTo lim u v) (hc : v.ctl = [])
    {res : ∀ k, Res (XWorld n (T k) (σ k))} (h : ∀ᶠ k in F, ∃ r, res k = .ok r ∧ r.asRegular.InputsEq (u k) ∧ r.Valid) :
    ∃ w' : ∀ k, XWorld n (T k) (σ k), (∀ᶠ k in F, res k = .ok (w' k)) ∧ World.TendsTo lim (fun k => (w' k).asRegular) v := by
  classical
  have huc : ∀ k, (u k).ctl = [] := fun k => List.eq_nil_of_length_eq_zero (by rw [hu.ctl.1 k, hc]; rfl)
  let w' : ∀ k, XWorld n (T k) (σ k) := fun k =>
    if hk : ∃ r, res k = .ok r ∧ r.asRegular.InputsEq (u k) ∧ r.Valid then hk.choose else (u k).asExtended (w k).env
  have hw' : ∀ k, (w' k).asRegular.InputsEq (u k) ∧ (w' k).asRegular.Valid := by
    intro k
    by_cases hk : ∃ r, res k = .ok r ∧ r.asRegular.InputsEq (u k) ∧ r.Valid
    · simp only [w', dif_pos hk]; exact hk.choose_spec.2
    · simp only [w', dif_neg hk]; exact ⟨asExtended_inputs (huc k) _, asExtended_valid (hu.valid k) _⟩
  refine ⟨w', ?_, tendsTo_congr hu (fun k => (hw' k).2) fun k => (hw' k).1⟩
  filter_upwards [h] with k hk
  simp only [w', dif_pos hk]
  exact hk.choose_spec.1

/-- Other matrices `x` and `P`. -/
def setXP {T : Type} (w : World n T) (x : Mat n 1 T) (P : Mat n n T) : World n T := { w with kf := { w.kf with x := x, P := P } }

theorem setXP_tends {u : ∀ k, World n (T k)} {v : World n ℝ} (h : World.TendsTo lim u v) (hv : v.Valid) {x P x' P'} (hx : MatTends lim x x')
    (hP : MatTends lim P P') (hx' : x'.Valid) (hP' : P'.Valid) : World.TendsTo lim (fun k => setXP (u k) (x k) (P k)) (setXP v x' P') := by
  refine ⟨fun k => ⟨hv.states, ⟨MatTends.valid hx hx' k, (h.valid k).kf.A, MatTends.valid hP hP' k, (h.valid k).kf.Q, (h.valid k).kf.predictedX,
    (h.valid k).kf.tempP⟩, (h.valid k).ctl, (h.valid k).obs⟩, hx, h.A, hP, h.Q, h.ctl, h.obs⟩

theorem setXP_reps {v : World n ℝ} {s : Spec.State n ℝ} (hv : v.Reps s) {x P X PP} (hx : x.RepsV X) (hP : P.Reps PP) :
    (setXP v x P).Reps { s with x := X, P := PP } :=
  ⟨hv.states, ⟨hx, hv.kf.A, hP, hv.kf.Q, hv.kf.predictedX, hv.kf.tempP⟩, hv.ctl, hv.obs⟩

theorem setXP_shape {T : Type} {v : World n T} {x P} (hx : x.data.length = v.kf.x.data.length) (hP : P.data.length = v.kf.P.data.length) :
    v.SameShape (setXP v x P) := ⟨hx, rfl, hP, rfl, rfl, rfl⟩

theorem predict_obs {T : Type} [Zero T] [One T] [Add T] [Sub T] [Mul T] [Neg T] [MDT T] {bld : Build} {w r : World n T}
    (h : w.step bld .predict = .ok r) : r.obs = w.obs ∧ r.ctl = w.ctl ∧ w.kf.predict = .ok r.kf := by
  unfold World.step at h
  dsimp only at h
  obtain ⟨f, h1, h2⟩ := bind_ok h
  cases h2
  exact ⟨rfl, rfl, h1⟩

theorem predictTuned_obs {T : Type} [Zero T] [One T] [Add T] [Sub T] [Mul T] [Neg T] [MDT T] {bld : Build} {w r : World n T} {lambda : T}
    (h : w.step bld (.predictTuned lambda) = .ok r) : r.obs = w.obs ∧ r.ctl = w.ctl ∧ w.kf.predictTuned lambda = .ok r.kf := by
  unfold World.step at h
  dsimp only at h
  obtain ⟨f, h1, h2⟩ := bind_ok h
  cases h2
  exact ⟨rfl, rfl, h1⟩

section Step
variable (hr : ScalarLimit F lim)
include hr

theorem xpredict_tends (bld : Build) {w : ∀ k, XWorld n (T k) (σ k)} {v : World n ℝ} {s : Spec.State n ℝ} (hv : v.Reps s)
    (h : World.TendsTo lim (fun k => (w k).asRegular) v) (hc0 : v.ctl = [])
    {c : ∀ k, σ k → Mat n 1 (T k) → Mat n 1 (T k) → Res (σ k × Mat n 1 (T k))} {Y : Fin n → ℝ} (hc : ClosureTends F lim c s.x Y) :
    ∃ (w' : ∀ k, XWorld n (T k) (σ k)) (v' : World n ℝ), (∀ᶠ k in F, (w k).step bld (.predict (c k)) = .ok (w' k)) ∧
      v'.Reps { s with x := Y, P := Spec.predP s.A s.P s.Q } ∧ v.SameShape v' ∧ World.TendsTo lim (fun k => (w' k).asRegular) v' := by
  obtain ⟨st', px, h1, h2, h3⟩ := hc (fun k => (w k).env) (fun k => (w k).kf.x) (fun k => (w k).kf.predictedX) (MatTends.vec h.x hv.kf.x)
    fun k => (h.valid k).kf.predictedX
  obtain ⟨V, hV1, hV2⟩ := VecTends.choose h2
  obtain ⟨u, v1, s1, e1, e2, e3, e4, e5⟩ := step_tends hr bld hv h .predict (fun k => trivial) trivial trivial
  cases e2
  have hx : MatTends lim (fun k => patch (w k).kf.x (V k)) (patch v.kf.x Y) := patch_tends h.x hv.valid.kf.x hV2
  have hpv := (patch_sameTail hv.valid.kf.x Y).valid hv.valid.kf.x
  have hvc : v1.ctl = [] := by
    have := congrArg List.length e4.ctl
    rw [List.length_map, List.length_map, hc0] at this
    exact List.eq_nil_of_length_eq_zero this
  obtain ⟨w', k1, k2⟩ := collect (w := w) (setXP_tends e5 e3.valid hx e5.P hpv e3.valid.kf.P) hvc (F := F)
    (res := fun k => (w k).step bld (.predict (c k))) (by
    filter_upwards [h1, e1] with k hk1 hk2
    obtain ⟨r, r1, r2, r3⟩ := hk2
    obtain ⟨r4, r5, r6⟩ := predict_obs r1
    have hkv : (w k).kf.asRegular.Valid := (h.valid k).kf
    obtain ⟨g, g1, g2, g3, g4⟩ := predict_any hv.states hkv hkv.x.repsV hkv.A.reps hkv.P.reps hkv.Q.reps
    obtain ⟨f', f1, f2, f3, f4, f5, f6, f7, f8, f9⟩ := xpredict_run hv.states hkv hk1 (h3 k) (hV1 k) hkv.A.reps hkv.P.reps hkv.Q.reps
    have hg : g = r.kf := by
      have : (w k).asRegular.kf.predict = .ok g := g1
      rw [this] at r6; cases r6; rfl
    have hP : f'.P = g.P := Mat.ext_of_reps f3 g3 f8 g4.P
    have hxe : f'.x = patch (w k).kf.x (V k) := Mat.ext_of_repsV f2 (patch_repsV _ _) f7 (patch_sameTail hkv.x _)
    refine ⟨{ w k with kf := f', env := st' k }, ?_, ⟨hxe, ?_, ?_, ?_, ?_, ?_⟩, ?_⟩
    · simp only [XWorld.step, f1, res_bind_ok]; rfl
    · show f'.A = (u k).kf.A
      rw [f5, ← r2.A, ← hg, g4.A]; rfl
    · show f'.P = (u k).kf.P
      rw [hP, hg, r2.P]
    · show f'.Q = (u k).kf.Q
      rw [f6, ← r2.Q, ← hg, g4.Q]; rfl
    · have := r2.ctl
      rw [r5] at this; exact this
    · have := r2.obs
      rw [r4] at this; exact this
    · exact (xpredict_frame (h.valid k) f5 f6 f7 f8 (by rw [f4]; exact h3 k) f9).1)
  refine ⟨w', setXP v1 (patch v.kf.x Y) v1.kf.P, k1, setXP_reps e3 (patch_repsV _ _) e3.kf.P, ?_, k2⟩
  exact e4.trans (setXP_shape ((patch_sameTail hv.valid.kf.x Y).1.trans e4.x.symm) rfl)

theorem xpredictTuned_tends (bld : Build) {w : ∀ k, XWorld n (T k) (σ k)} {v : World n ℝ} {s : Spec.State n ℝ} (hv : v.Reps s)
    (h : World.TendsTo lim (fun k => (w k).asRegular) v) (hc0 : v.ctl = [])
    {c : ∀ k, σ k → Mat n 1 (T k) → Mat n 1 (T k) → Res (σ k × Mat n 1 (T k))} {Y : Fin n → ℝ} {a : ∀ k, T k} {b : ℝ} (hab : lim a b)
    (hb : b ≠ 0) (hc : ClosureTends F lim c s.x Y) :
    ∃ (w' : ∀ k, XWorld n (T k) (σ k)) (v' : World n ℝ), (∀ᶠ k in F, (w k).step bld (.predictTuned (a k) (c k)) = .ok (w' k)) ∧
      v'.Reps { s with x := Y, P := Spec.predPTuned b s.A s.P s.Q } ∧ v.SameShape v' ∧ World.TendsTo lim (fun k => (w' k).asRegular) v' := by
  obtain ⟨st', px, h1, h2, h3⟩ := hc (fun k => (w k).env) (fun k => (w k).kf.x) (fun k => (w k).kf.predictedX) (MatTends.vec h.x hv.kf.x)
    fun k => (h.valid k).kf.predictedX
  obtain ⟨V, hV1, hV2⟩ := VecTends.choose h2
  obtain ⟨u, v1, s1, e1, e2, e3, e4, e5⟩ := step_tends hr bld hv h (.predictTuned hab) (fun k => trivial) trivial hb
  cases e2
  have hx : MatTends lim (fun k => patch (w k).kf.x (V k)) (patch v.kf.x Y) := patch_tends h.x hv.valid.kf.x hV2
  have hpv := (patch_sameTail hv.valid.kf.x Y).valid hv.valid.kf.x
  have hvc : v1.ctl = [] := by
    have := congrArg List.length e4.ctl
    rw [List.length_map, List.length_map, hc0] at this
    exact List.eq_nil_of_length_eq_zero this
  obtain ⟨w', k1, k2⟩ := collect (w := w) (setXP_tends e5 e3.valid hx e5.P hpv e3.valid.kf.P) hvc (F := F)
    (res := fun k => (w k).step bld (.predictTuned (a k) (c k))) (by
    filter_upwards [h1, e1] with k hk1 hk2
    obtain ⟨r, r1, r2, r3⟩ := hk2
    obtain ⟨r4, r5, r6⟩ := predictTuned_obs r1
    have hkv : (w k).kf.asRegular.Valid := (h.valid k).kf
    obtain ⟨φ, hφ⟩ : ∃ φ, MDT.recip (a k * a k) = .ok φ := by
      cases hφ : MDT.recip (a k * a k) with
      | ok φ => exact ⟨φ, rfl⟩
      | error e =>
        rw [predictTuned_error (f := (w k).asRegular.kf) hv.states hkv (a k) hφ] at r6; cases r6
    obtain ⟨g, g1, g2, g3, g4⟩ := predictTuned_any hv.states hkv (a k) hφ hkv.x.repsV hkv.A.reps hkv.P.reps hkv.Q.reps
    obtain ⟨f', f1, f2, f3, f4, f5, f6, f7, f8, f9⟩ := xpredictTuned_run hv.states hkv (a k) hφ hk1 (h3 k) (hV1 k) hkv.A.reps hkv.P.reps hkv.Q.reps
    have hg : g = r.kf := by
      have : (w k).asRegular.kf.predictTuned (a k) = .ok g := g1
      rw [this] at r6; cases r6; rfl
    have hP : f'.P = g.P := Mat.ext_of_reps f3 g3 f8 g4.P
    have hxe : f'.x = patch (w k).kf.x (V k) := Mat.ext_of_repsV f2 (patch_repsV _ _) f7 (patch_sameTail hkv.x _)
    refine ⟨{ w k with kf := f', env := st' k }, ?_, ⟨hxe, ?_, ?_, ?_, ?_, ?_⟩, ?_⟩
    · simp only [XWorld.step, f1, res_bind_ok]; rfl
    · show f'.A = (u k).kf.A
      rw [f5, ← r2.A, ← hg, g4.A]; rfl
    · show f'.P = (u k).kf.P
      rw [hP, hg, r2.P]
    · show f'.Q = (u k).kf.Q
      rw [f6, ← r2.Q, ← hg, g4.Q]; rfl
    · have := r2.ctl
      rw [r5] at this; exact this
    · have := r2.obs
      rw [r4] at this; exact this
    · exact (xpredict_frame (h.valid k) f5 f6 f7 f8 (by rw [f4]; exact h3 k) f9).1)
  refine ⟨w', setXP v1 (patch v.kf.x Y) v1.kf.P, k1, setXP_reps e3 (patch_repsV _ _) e3.kf.P, ?_, k2⟩
  exact e4.trans (setXP_shape ((patch_sameTail hv.valid.kf.x Y).1.trans e4.x.symm) rfl)

theorem xcorrect_tends (bld : Build) {w : ∀ k, XWorld n (T k) (σ k)} {v : World n ℝ} {s : Spec.State n ℝ} (hv : v.Reps s)
    (h : World.TendsTo lim (fun k => (w k).asRegular) v) (hc0 : v.ctl = []) {i m : Nat} {q : Spec.Obs n m ℝ} (hi : s.obs[i]? = some ⟨m, q⟩)
    (hS : (q.H * s.P * q.H.transpose + q.R).PosDef)
    {c : ∀ k, (m : Nat) → σ k → Mat n 1 (T k) → Mat m 1 (T k) → Res (σ k × Mat m 1 (T k))} {Y : Fin m → ℝ}
    (hc : ClosureTends F lim (fun k => c k m) s.x Y) :
    ∃ (w' : ∀ k, XWorld n (T k) (σ k)) (v' : World n ℝ), (∀ᶠ k in F, (w k).step bld (.correct i (c k)) = .ok (w' k)) ∧
      v'.Reps { s with x := s.x + (Spec.gain q.H s.P q.R).mulVec (q.z - Y), P := Spec.corrP q.H s.P q.R } ∧ v.SameShape v' ∧
        World.TendsTo lim (fun k => (w' k).asRegular) v' := by
  have := panickingReal_exact
  obtain ⟨d, hd, hdq⟩ := forall₂_get hv.obs.flip hi
  cases hdq with | @mk _ p _ hm hp =>
  obtain ⟨f, hf1, hf2⟩ := h.obs.2 i _ hd
  cases hf2 with | @mk _ o _ hH hz hR =>
  have hwi : ∀ k, (w k).obs[i]? = some ⟨m, (o k).asExtended⟩ := fun k => xget_regular (hf1 k)
  have hov : ∀ k, (o k).Valid := fun k => ((h.valid k).obs _ (List.mem_of_getElem? (hf1 k))).2
  obtain ⟨st', y, h1, h2, h3⟩ := hc (fun k => (w k).env) (fun k => (w k).kf.x) (fun k => (o k).y) (MatTends.vec h.x hv.kf.x)
    fun k => (hov k).y
  obtain ⟨V, hV1, hV2⟩ := VecTends.choose h2
  obtain ⟨Z, hZ1, hZ2⟩ := VecTends.choose (MatTends.vec hz hp.z)
  have hyt : MatTends lim (fun k => patch (zeros (T k) m 1) (Z k - V k)) (patch (zeros ℝ m 1) (q.z - Y)) :=
    patch_tends (zeros_tends hr.zero) (zeros_valid _ _ _) fun j => hr.sub (hZ2 j) (hV2 j)
  let oc : ∀ k, RegularObservation n m (T k) := fun k => { o k with y := patch (zeros _ m 1) (Z k - V k), S := zeros _ m m, K := zeros _ n m, tempSInv := zeros _ m m, tempHP := zeros _ m n, tempPHt := zeros _ n m, tempKHP := zeros _ n n }
  let pc : RegularObservation n m ℝ := { p with y := patch (zeros _ m 1) (q.z - Y), S := zeros _ m m, K := zeros _ n m, tempSInv := zeros _ m m, tempHP := zeros _ m n, tempPHt := zeros _ n m, tempKHP := zeros _ n n }
  have hfull : FullO lim oc pc := ⟨hH, hz, hR, hyt, zeros_tends hr.zero, zeros_tends hr.zero, zeros_tends hr.zero, zeros_tends hr.zero,
    zeros_tends hr.zero, zeros_tends hr.zero⟩
  have hpcv : pc.Valid := ⟨hp.valid.H, hp.valid.z, hp.valid.R, (patch_sameTail (zeros_valid _ _ _) _).valid (zeros_valid _ _ _), zeros_valid _ _ _, zeros_valid _ _ _,
    zeros_valid _ _ _, zeros_valid _ _ _, zeros_valid _ _ _, zeros_valid _ _ _⟩
  have hocv : ∀ k, (oc k).Valid := fun k => ⟨(hov k).H, (hov k).z, (hov k).R, (patch_sameTail (zeros_valid _ _ _) _).valid (zeros_valid _ _ _),
    zeros_valid _ _ _, zeros_valid _ _ _, zeros_valid _ _ _, zeros_valid _ _ _, zeros_valid _ _ _, zeros_valid _ _ _⟩
  obtain ⟨p1, x1, P1, e1, e2, e3, e4, -, -, -, -, -, -, -, e5, e6⟩ :=
    update_exact bld hm hpcv hp.H hp.R hv.kf.P hv.kf.x (patch_repsV _ _ : pc.y.RepsV (q.z - Y)) hS
  obtain ⟨r, k1, k2, k3, k4⟩ := update_ev hr bld hfull h.x h.P hm hpcv hp.H hp.R hv.kf.P hS _ e1
  have hx1 : x1.Valid := e3.valid hv.valid.kf.x
  have hP1 : P1.Valid := e4.valid hv.valid.kf.P
  obtain ⟨w', l1, l2⟩ := collect (w := w) (setXP_tends h hv.valid k3 k4 hx1 hP1) hc0 (F := F)
    (res := fun k => (w k).step bld (.correct i (c k))) (by
    filter_upwards [h1, k1] with k hk1 hk2
    have hkv : (w k).kf.asRegular.Valid := (h.valid k).kf
    obtain ⟨z', z1, z2, z3, z4⟩ := y_after (hov k) (h3 k) (hZ1 k) (hV1 k)
    have hrel := update_rel bld (o := { o k with y := z' }) (o' := oc k) hm z4 (hocv k) hkv.P (.refl _) (.refl _) (.refl _) hkv.x.repsV z2
      hkv.x.repsV (patch_repsV _ _)
    rcases hrel with ⟨e, a1, a2⟩ | ⟨⟨o1, x2, P2⟩, b, a1, a2, a3, a4, -, -, a5, a6, a7, a8, a9, -, -, -, -, -, K, -, -, a10, a11⟩
    · have : (oc k).updateWithInnovation bld (w k).asRegular.kf.x (w k).asRegular.kf.P = .error e := a2
      rw [hk2] at this; cases this
    · have hb : (oc k).updateWithInnovation bld (w k).asRegular.kf.x (w k).asRegular.kf.P = .ok b := a2
      rw [hk2] at hb; cases hb
      have hx : x2 = (r k).2.1 := Mat.ext_of_repsV a10 a11 a5 a6
      have hP2 : P2.Valid := a7.valid hkv.P
      have hP : P2 = (r k).2.2 := Mat.ext_of_reps hP2.reps (a9.reps hP2.reps) a7 a8
      have hst : (w k).step bld (.correct i (c k)) =
          .ok { kf := { (w k).kf with x := x2, P := P2 }, obs := (w k).obs.set i ⟨m, o1.asExtended⟩, env := st' k } := by
        simp only [XWorld.step, hwi k]
        rw [xcorrect_run bld (o := (o k).asExtended) hk1 z1]
        have a1' : ({ (o k).asExtended with y := z' } : ExtendedObservation n m (T k)).asRegular.updateWithInnovation bld (w k).kf.x (w k).kf.P =
          .ok (o1, x2, P2) := a1
        rw [a1']; rfl
      have ho1 : o1.Valid := a3.valid z4
      have hobs : List.Forall₂ ObsInputsEq ((w k).asRegular.obs.set i ⟨m, o1⟩) (w k).asRegular.obs := by
        have hself : List.Forall₂ ObsInputsEq (w k).asRegular.obs (w k).asRegular.obs := List.forall₂_same.2 fun o _ => .mk rfl rfl rfl
        exact forall₂_set_left hself (hf1 k) (.mk a3.H a3.z a3.R)
      have hre : (({ kf := { (w k).kf with x := x2, P := P2 }, obs := (w k).obs.set i ⟨m, o1.asExtended⟩, env := st' k } : XWorld n (T k) (σ k))).asRegular =
          { setXP (w k).asRegular x2 P2 with obs := (w k).asRegular.obs.set i ⟨m, o1⟩ } := by
        unfold XWorld.asRegular setXP
        rw [xasRegular_set]; rfl
      refine ⟨_, hst, ?_, ?_⟩
      · rw [hre]
        exact ⟨hx, rfl, hP, rfl, .nil, hobs⟩
      · show World.Valid _
        rw [hre]
        refine ⟨hv.states, ⟨a5.valid hkv.x, hkv.A, hP2, hkv.Q, hkv.predictedX, hkv.tempP⟩, fun c hc => (List.not_mem_nil hc).elim, fun o' ho' => ?_⟩
        rcases List.mem_or_eq_of_mem_set ho' with hm1 | rfl
        · exact (h.valid k).obs _ hm1
        · exact ⟨hm, ho1⟩)
  refine ⟨w', setXP v x1 P1, l1, setXP_reps hv ?_ ?_, setXP_shape e3.1 e4.1, l2⟩
  · exact e5
  · have : Spec.corrP q.H s.P q.R = s.P - s.P * q.H.transpose * (q.H * s.P * q.H.transpose + q.R)⁻¹ * (q.H * s.P) := by
      unfold Spec.corrP Spec.gain Spec.innovCov
      simp only [Matrix.mul_assoc]
    rw [this]; exact e6

omit hr [∀ k, Zero (T k)] [∀ k, One (T k)] [∀ k, Add (T k)] [∀ k, Sub (T k)] [∀ k, Mul (T k)] [∀ k, Neg (T k)] [∀ k, MDT (T k)] in
theorem assign_op {a : ∀ k, Assign (T k)} {b : Assign ℝ} (h : Assign.Tends lim a b) : Op.Tends lim (fun k => (a k).toOp) b.toOp := by
  cases h with
  | x h => exact .setX h
  | A h => exact .setA h
  | P h => exact .setP h
  | Q h => exact .setQ h
  | z i h => exact .setZ i h
  | H i h => exact .setH i h
  | R i h => exact .setR i h

/-- One call. -/
theorem xstep_tends [F.NeBot] (bld : Build) {w : ∀ k, XWorld n (T k) (σ k)} {v : World n ℝ} {s : Spec.State n ℝ} (hv : v.Reps s)
    (h : World.TendsTo lim (fun k => (w k).asRegular) v) {op : ∀ k, XOp n (T k) (σ k)} {sop : Spec.XOp n ℝ}
    (hop : XOp.Tends F lim s.x op sop) (hwf : ∀ k, (op k).WellFormed (w k)) (hreg : s.Regular sop.linear) :
    ∃ (w' : ∀ k, XWorld n (T k) (σ k)) (v' : World n ℝ) (s' : Spec.State n ℝ), (∀ᶠ k in F, (w k).step bld (op k) = .ok (w' k)) ∧
      s.xstep sop = some s' ∧ v'.Reps s' ∧ v.SameShape v' ∧ World.TendsTo lim (fun k => (w' k).asRegular) v' := by
  obtain ⟨k0⟩ : Nonempty ι := F.nonempty_of_neBot
  have hc0 : v.ctl = [] := List.eq_nil_of_length_eq_zero (h.ctl.1 k0).symm
  cases hop with
  | predict hc =>
    obtain ⟨w', v', h1, h2, h3, h4⟩ := xpredict_tends hr bld hv h hc0 hc
    exact ⟨w', v', _, h1, rfl, h2, h3, h4⟩
  | predictTuned ha hc =>
    obtain ⟨w', v', h1, h2, h3, h4⟩ := xpredictTuned_tends hr bld hv h hc0 ha hreg hc
    exact ⟨w', v', _, h1, rfl, h2, h3, h4⟩
  | @correct i c g hc =>
    have hl : i < s.obs.length := by
      have h1 : i < (w k0).obs.length := hwf k0
      have h2 := h.obs.1 k0
      have h3 := hv.obs.length_eq
      simp only [XWorld.asRegular, List.length_map] at h2
      omega
    have hi : s.obs[i]? = some s.obs[i] := List.getElem?_eq_getElem hl
    generalize s.obs[i] = q at hi
    obtain ⟨m, q⟩ := q
    obtain ⟨w', v', h1, h2, h3, h4⟩ := xcorrect_tends hr bld hv h hc0 hi (hreg _ hi) (hc m)
    refine ⟨w', v', _, h1, ?_, h2, h3, h4⟩
    simp only [Spec.State.xstep, hi, Option.map_some]
  | @assign a b ha =>
    have hwf' : b.toOp.WellFormed v := wellFormed_limit h (assign_op ha) k0 (hwf k0)
    obtain ⟨u, v', s', e1, e2, e3, e4, e5⟩ := step_tends hr bld hv h (assign_op ha) hwf hwf' hreg
    have hvc : v'.ctl = [] := by
      have := congrArg List.length e4.ctl
      rw [List.length_map, List.length_map, hc0] at this
      exact List.eq_nil_of_length_eq_zero this
    obtain ⟨w', k1, k2⟩ := collect (w := w) e5 hvc (F := F) (res := fun k => (w k).step bld (.assign (a k))) (by
      filter_upwards [e1] with k hk
      obtain ⟨r, r1, r2, r3⟩ := hk
      obtain ⟨r', r4, r5⟩ := xassign_ok r1
      exact ⟨r', r4, by rw [r5]; exact r2, by show World.Valid _; rw [r5]; exact r3⟩)
    exact ⟨w', v', s', k1, e2, e3, e4, k2⟩

end Step
theorem tends_shape {w w' : ∀ k, World n (T k)} {v v' : World n ℝ} (h : World.TendsTo lim w v) (h' : World.TendsTo lim w' v')
    (hs : v.SameShape v') (k : ι) : (w k).SameShape (w' k) := by
  have hc : ∀ {u : ∀ k, World n (T k)} {t : World n ℝ}, World.TendsTo lim u t → (u k).ctl.map ctlShape = t.ctl.map ctlShape := by
    intro u t hu
    apply List.ext_getElem?
    intro i
    rw [List.getElem?_map, List.getElem?_map]
    cases hi : t.ctl[i]? with
    | none => rw [ListTends.none hu.ctl hi k]; rfl
    | some x =>
      obtain ⟨f, h1, h2⟩ := hu.ctl.2 i x hi
      rw [h1 k]
      cases h2 with
      | mk B u Q => simp only [Option.map_some, ctlShape, B.1 k, u.1 k, Q.1 k]
  have ho : ∀ {u : ∀ k, World n (T k)} {t : World n ℝ}, World.TendsTo lim u t → (u k).obs.map obsShape = t.obs.map obsShape := by
    intro u t hu
    apply List.ext_getElem?
    intro i
    rw [List.getElem?_map, List.getElem?_map]
    cases hi : t.obs[i]? with
    | none => rw [ListTends.none hu.obs hi k]; rfl
    | some x =>
      obtain ⟨f, h1, h2⟩ := hu.obs.2 i x hi
      rw [h1 k]
      cases h2 with
      | mk B u Q => simp only [Option.map_some, obsShape, B.1 k, u.1 k, Q.1 k]
  exact ⟨((h'.x.1 k).trans hs.x).trans (h.x.1 k).symm, ((h'.A.1 k).trans hs.A).trans (h.A.1 k).symm,
    ((h'.P.1 k).trans hs.P).trans (h.P.1 k).symm, ((h'.Q.1 k).trans hs.Q).trans (h.Q.1 k).symm,
    ((hc h').trans hs.ctl).trans (hc h).symm, ((ho h').trans hs.obs).trans (ho h).symm⟩

/-- Whole histories. -/
theorem xrun_tends [F.NeBot] (hr : ScalarLimit F lim) (bld : Build) {w : ∀ k, XWorld n (T k) (σ k)} {s : Spec.State n ℝ}
    (h : XWorld.Tends lim w s) {ops : ∀ k, List (XOp n (T k) (σ k))} {sops : List (Spec.XOp n ℝ)} (hops : XOp.RunTends F lim s ops sops)
    (hwf : ∀ k, ∀ op ∈ ops k, op.WellFormed (w k)) (hreg : s.XRegularRun sops) :
    ∃ (w' : ∀ k, XWorld n (T k) (σ k)) (s' : Spec.State n ℝ), (∀ᶠ k in F, (w k).run bld (ops k) = .ok (w' k)) ∧
      s.xrun sops = some s' ∧ XWorld.Tends lim w' s' := by
  induction hops generalizing w with
  | nil => exact ⟨w, _, Eventually.of_forall fun k => rfl, rfl, h⟩
  | @cons s op sop ops sops hop _ ih =>
    obtain ⟨v, hv, hw⟩ := h
    obtain ⟨w1, v1, s1, h1, h2, h3, h4, h5⟩ := xstep_tends hr bld hv hw hop (fun k => hwf k _ (by simp)) hreg.1
    obtain ⟨w2, s2, k1, k2, k3⟩ := ih s1 h2 ⟨v1, h3, h5⟩ (fun k o ho => (hwf k o (by simp [ho])).congr (tends_shape hw h5 h4 k)) (hreg.2 s1 h2)
    refine ⟨w2, s2, ?_, by simp only [Spec.State.xrun, h2, Option.bind_some]; exact k2, k3⟩
    filter_upwards [h1, k1] with k hk1 hk2
    simp only [XWorld.run, hk1, res_bind_ok]; exact hk2

end Limit
end Minikalman
