import Verif.Proofs.CertificateRun

/-! # The example programs in floating point arithmetic: helper lemmas -/

set_option linter.unusedSectionVars false

namespace Minikalman

open Examples Cert

variable {T : Type} {n : Nat}

section Runs
variable [Zero T] [One T] [Add T] [Sub T] [Mul T] [Neg T] [MDT T]

theorem run_ok_cons {bld : Build} {w v : World n T} {op : Op T} {ops : List (Op T)} (h : w.run bld (op :: ops) = .ok v) :
    ∃ w', w.step bld op = .ok w' ∧ w'.run bld ops = .ok v := by
  unfold World.run at h
  cases h1 : w.step bld op with
  | error e => rw [h1] at h; cases h
  | ok w' => rw [h1] at h; exact ⟨w', rfl, h⟩

theorem step_keeps {bld : Build} {w w' : World n T} (hw : w.Valid) {op : Op T} (ho : op.WellFormed w)
    (h : w.step bld op = .ok w') : w'.Valid ∧ w.SameShape w' := by
  rcases step_safe bld hw ho with ⟨e, h1, _⟩ | ⟨v, h1, h2⟩
  · rw [h1] at h; cases h
  · rw [h1] at h; cases h; exact h2

/-- A world with at most one control, and one scalar measurement. -/
def single (f : RegularKalman n T) (cs : List ((l : Nat) × Control n l T)) (o : RegularObservation n 1 T) : World n T :=
  ⟨f, cs, [⟨1, o⟩]⟩

theorem indexSet_single {M : Mat 1 1 T} (h : M.data.length = 1) (a : T) : M.indexSet 0 a = .ok ⟨[a]⟩ := by
  obtain ⟨d⟩ := M
  match d, h with
  | [b], _ => rfl

theorem setZ_single (bld : Build) (f : RegularKalman n T) (cs) {o : RegularObservation n 1 T} (h : o.z.data.length = 1) (a : T) :
    (single f cs o).step bld (.setZ 0 [a]) = .ok (single f cs { o with z := ⟨[a]⟩ }) := by
  simp [World.step, World.withObs, single, Mat.copyFromSlice, h]

theorem setU_single (bld : Build) (f : RegularKalman n T) {c : Control n 1 T} (o : RegularObservation n 1 T)
    (h : c.u.data.length = 1) (a : T) :
    (single f [⟨1, c⟩] o).step bld (.setU 0 [a]) = .ok (single f [⟨1, { c with u := ⟨[a]⟩ }⟩] o) := by
  simp [World.step, World.withCtl, single, Mat.copyFromSlice, h]

theorem correct_single {bld : Build} {f : RegularKalman n T} {cs} {o : RegularObservation n 1 T} {w'}
    (h : (single f cs o).step bld (.correct 0) = .ok w') :
    ∃ f' o', f.correct bld o = .ok (f', o') ∧ w' = single f' cs o' := by
  simp only [World.step, single, List.getElem?_cons_zero] at h
  cases h1 : f.correct bld o with
  | error e => rw [h1] at h; cases h
  | ok r => rw [h1] at h; cases h; exact ⟨r.1, r.2, rfl, rfl⟩

theorem control_single {bld : Build} {f : RegularKalman n T} {c : Control n 1 T} {o : RegularObservation n 1 T} {w'}
    (h : (single f [⟨1, c⟩] o).step bld (.control 0) = .ok w') :
    ∃ f' c', f.control c = .ok (f', c') ∧ w' = single f' [⟨1, c'⟩] o := by
  simp only [World.step, single, List.getElem?_cons_zero] at h
  cases h1 : f.control c with
  | error e => rw [h1] at h; cases h
  | ok r => rw [h1] at h; cases h; exact ⟨r.1, r.2, rfl, rfl⟩

theorem predict_single {bld : Build} {f : RegularKalman n T} {cs} {o : RegularObservation n 1 T} {w'}
    (h : (single f cs o).step bld .predict = .ok w') : ∃ f', f.predict = .ok f' ∧ w' = single f' cs o := by
  simp only [World.step, single] at h
  cases h1 : f.predict with
  | error e => rw [h1] at h; cases h
  | ok r => rw [h1] at h; cases h; exact ⟨r, rfl, rfl⟩

theorem predictTuned_single {bld : Build} {f : RegularKalman n T} {cs} {o : RegularObservation n 1 T} {lambda : T} {w'}
    (h : (single f cs o).step bld (.predictTuned lambda) = .ok w') :
    ∃ f', f.predictTuned lambda = .ok f' ∧ w' = single f' cs o := by
  simp only [World.step, single] at h
  cases h1 : f.predictTuned lambda with
  | error e => rw [h1] at h; cases h
  | ok r => rw [h1] at h; cases h; exact ⟨r, rfl, rfl⟩

theorem single_z {f f' : RegularKalman n T} {cs cs'} {o o' : RegularObservation n 1 T}
    (h : (single f cs o).SameShape (single f' cs' o')) (hz : o.z.data.length = 1) : o'.z.data.length = 1 := by
  have := h.obs
  simp only [single, List.map_cons, List.map_nil, obsShape, List.cons.injEq, Prod.mk.injEq] at this
  rw [this.1.2.1, hz]

theorem single_u {f f' : RegularKalman n T} {c c' : Control n 1 T} {o o' : RegularObservation n 1 T}
    (h : (single f [⟨1, c⟩] o).SameShape (single f' [⟨1, c'⟩] o')) (hu : c.u.data.length = 1) : c'.u.data.length = 1 := by
  have := h.ctl
  simp only [single, List.map_cons, List.map_nil, ctlShape, List.cons.injEq, Prod.mk.injEq] at this
  rw [this.1.2.1, hu]

/-- The calls of `tests/gravity.rs`. -/
def gravityOps (data : List (T × T)) : List (Op T) := data.flatMap fun d => [.predict, .setZ 0 [d.1 + d.2], .correct 0]

/-- The calls of `tests/gravity_q_tuned.rs`. -/
def gravityTunedOps (lambda : T) (data : List (T × T)) : List (Op T) :=
  data.flatMap fun d => [.predictTuned lambda, .setZ 0 [d.1 + d.2], .correct 0]

/-- The calls of the second loop of `examples/car_1d.rs` from time `t`. -/
def brakeOps (brake : T) (t : Nat) : List T → List (Op T)
  | [] => []
  | z :: zs => [.setU 0 [brake], .predict, .control 0] ++ (if t % 2 != 0 then [] else [.setZ 0 [z], .correct 0]) ++
      brakeOps brake (t + 1) zs

theorem gravityLoop_ops {bld : Build} {f : RegularKalman 3 T} {o : RegularObservation 3 1 T} {data : List (T × T)}
    (hw : (single f [] o).Valid) (hz : o.z.data.length = 1) {v} (h : (single f [] o).run bld (gravityOps data) = .ok v) :
    ∃ o', gravityLoop bld f o data = .ok (v.kf, o') := by
  induction data generalizing f o with
  | nil => cases h; exact ⟨o, rfl⟩
  | cons d data ih =>
    obtain ⟨w1, h1, h⟩ := run_ok_cons h
    obtain ⟨f1, e1, rfl⟩ := predict_single h1
    obtain ⟨k1, s1⟩ := step_keeps hw (by trivial) h1
    obtain ⟨w2, h2, h⟩ := run_ok_cons h
    have hz1 := single_z s1 hz
    obtain ⟨k2, s2⟩ := step_keeps k1 (by simpa [Op.WellFormed, single] using hz1) h2
    rw [setZ_single bld f1 [] hz1] at h2
    cases h2
    obtain ⟨w3, h3, h⟩ := run_ok_cons h
    obtain ⟨f3, o3, e3, rfl⟩ := correct_single h3
    obtain ⟨k3, s3⟩ := step_keeps k2 (by simp [Op.WellFormed, single]) h3
    obtain ⟨o', h'⟩ := ih k3 (single_z s3 rfl) h
    refine ⟨o', ?_⟩
    obtain ⟨m, e⟩ := d
    simp only [gravityLoop, e1, indexSet_single hz, e3, res_bind_ok]
    exact h'

theorem gravityTunedLoop_ops {bld : Build} {f : RegularKalman 3 T} {o : RegularObservation 3 1 T} {lambda : T} {data : List (T × T)}
    (hw : (single f [] o).Valid) (hz : o.z.data.length = 1) {v}
    (h : (single f [] o).run bld (gravityTunedOps lambda data) = .ok v) :
    ∃ o', gravityTunedLoop bld lambda f o data = .ok (v.kf, o') := by
  induction data generalizing f o with
  | nil => cases h; exact ⟨o, rfl⟩
  | cons d data ih =>
    obtain ⟨w1, h1, h⟩ := run_ok_cons h
    obtain ⟨f1, e1, rfl⟩ := predictTuned_single h1
    obtain ⟨k1, s1⟩ := step_keeps hw (by trivial) h1
    obtain ⟨w2, h2, h⟩ := run_ok_cons h
    have hz1 := single_z s1 hz
    obtain ⟨k2, s2⟩ := step_keeps k1 (by simpa [Op.WellFormed, single] using hz1) h2
    rw [setZ_single bld f1 [] hz1] at h2
    cases h2
    obtain ⟨w3, h3, h⟩ := run_ok_cons h
    obtain ⟨f3, o3, e3, rfl⟩ := correct_single h3
    obtain ⟨k3, s3⟩ := step_keeps k2 (by simp [Op.WellFormed, single]) h3
    obtain ⟨o', h'⟩ := ih k3 (single_z s3 rfl) h
    refine ⟨o', ?_⟩
    obtain ⟨m, e⟩ := d
    simp only [gravityTunedLoop, e1, indexSet_single hz, e3, res_bind_ok]
    exact h'

theorem carBrake_ops {bld : Build} {brake : T} {t : Nat} {f : RegularKalman 3 T} {c : Control 3 1 T} {o : RegularObservation 3 1 T} {zs : List T}
    (hw : (single f [⟨1, c⟩] o).Valid) (hu : c.u.data.length = 1) (hz : o.z.data.length = 1) {v}
    (h : (single f [⟨1, c⟩] o).run bld (brakeOps brake t zs) = .ok v) :
    ∃ c' o', carBrake bld brake t f c o zs = .ok (v.kf, c', o') := by
  induction zs generalizing f c o t with
  | nil => cases h; exact ⟨c, o, rfl⟩
  | cons z zs ih =>
    simp only [brakeOps, List.cons_append, List.nil_append] at h
    obtain ⟨w1, h1, h⟩ := run_ok_cons h
    obtain ⟨k1, s1⟩ := step_keeps hw (by simpa [Op.WellFormed, single] using hu) h1
    rw [setU_single bld f o hu] at h1
    cases h1
    obtain ⟨w2, h2, h⟩ := run_ok_cons h
    obtain ⟨f2, e2, rfl⟩ := predict_single h2
    obtain ⟨k2, s2⟩ := step_keeps k1 (by trivial) h2
    obtain ⟨w3, h3, h⟩ := run_ok_cons h
    obtain ⟨f3, c3, e3, rfl⟩ := control_single h3
    obtain ⟨k3, s3⟩ := step_keeps k2 (by simp [Op.WellFormed, single]) h3
    have hz3 : o.z.data.length = 1 := hz
    have hu3 := single_u s3 rfl
    have hset : c.u.setAt 0 0 brake = .ok ⟨[brake]⟩ := indexSet_single hu brake
    by_cases ht : (t % 2 != 0) = true
    · rw [if_pos ht, List.nil_append] at h
      obtain ⟨c', o', h'⟩ := ih k3 hu3 hz3 h
      refine ⟨c', o', ?_⟩
      simp only [carBrake, hset, e2, e3, res_bind_ok, ht, if_true]
      exact h'
    · rw [if_neg ht] at h
      simp only [List.cons_append, List.nil_append] at h
      obtain ⟨w4, h4, h⟩ := run_ok_cons h
      obtain ⟨k4, s4⟩ := step_keeps k3 (by simpa [Op.WellFormed, single] using hz3) h4
      rw [setZ_single bld f3 _ hz3] at h4
      cases h4
      obtain ⟨w5, h5, h⟩ := run_ok_cons h
      obtain ⟨f5, o5, e5, rfl⟩ := correct_single h5
      obtain ⟨k5, s5⟩ := step_keeps k4 (by simp [Op.WellFormed, single]) h5
      obtain ⟨c', o', h'⟩ := ih k5 hu3 (single_z s5 rfl) h
      refine ⟨c', o', ?_⟩
      simp only [carBrake, hset, e2, e3, res_bind_ok, ht, indexSet_single hz3, e5]
      exact h'

end Runs

section Close
variable [Zero T] [Add T] [Sub T] [Mul T] (N : Near T)

/-- Sums of nominal data do not exceed the tolerated magnitude. -/
def dataSmall (rat : T → Option ℚ) (M δ : ℚ) (data : List (T × T)) : Bool := data.all fun d =>
  match rat d.1, rat d.2 with
  | some a, some b => decide (|a| + |b| + δ ≤ M)
  | _, _ => false

/-- Measurements with errors within `δ` of the nominal errors are close. -/
theorem sum_close {δ : ℚ} (hδ : 0 ≤ δ) {m e e' : T} (hs : dataSmall N.rat N.M δ [(m, e)] = true) (h : N.ok e')
    (hd : |N.val e' - N.val e| ≤ δ) : ∀ c, rats N.rat [m + e] = some c → N.Close (δ + 2 * N.ε) [m + e'] c := by
  intro c hc
  have hε : (0 : ℝ) ≤ N.ε := by exact_mod_cast N.ε_nonneg
  have hδ' : (0 : ℝ) ≤ δ := by exact_mod_cast hδ
  simp only [dataSmall, List.all_cons, List.all_nil, Bool.and_true] at hs
  cases h1 : N.rat m with
  | none => simp [h1] at hs
  | some a =>
    cases h2 : N.rat e with
    | none => simp [h1, h2] at hs
    | some b =>
      simp only [h1, h2, decide_eq_true_eq] at hs
      have hs' := (Rat.cast_le (K := ℝ)).2 hs
      push_cast at hs'
      obtain ⟨o1, v1⟩ := N.rat_ok h1
      obtain ⟨o2, v2⟩ := N.rat_ok h2
      obtain ⟨g1, g2⟩ := N.rats_cell hc 0
      have n1 := N.add o1 o2 (by rw [v1, v2]; exact (abs_add_le _ _).trans (by linarith))
      have be : |N.val e'| ≤ |(b : ℝ)| + δ := by
        rw [v2] at hd
        have := abs_sub_abs_le_abs_sub (N.val e') (b : ℝ)
        linarith
      have n2 := N.add o1 h (by rw [v1]; exact (abs_add_le _ _).trans (by linarith))
      intro i
      cases i with
      | zero =>
        refine ⟨n2.1, ?_⟩
        simp only [List.getElem?_cons_zero, Option.getD_some] at g2 ⊢
        rw [← g2]
        have a1 := n1.2
        have a2 := n2.2
        push_cast
        rw [abs_le] at a1 a2 hd ⊢
        constructor <;> linarith [a1.1, a1.2, a2.1, a2.2, hd.1, hd.2]
      | succ i =>
        have hcl : cell c (i + 1) = 0 := by
          have := (N.rats_cell hc (i + 1)).2
          simp only [List.getElem?_cons_succ, List.getElem?_nil, Option.getD_none, N.zero.2] at this
          exact_mod_cast this.symm
        simp only [List.getElem?_cons_succ, List.getElem?_nil, Option.getD_none, N.zero.2, hcl]
        refine ⟨N.zero.1, ?_⟩
        push_cast
        simp only [sub_zero, abs_zero]
        linarith

/-- Data with the nominal first components and errors within `δ` of the nominal ones. -/
def DataClose (δ : ℚ) (data data' : List (T × T)) : Prop :=
  List.Forall₂ (fun d d' => d'.1 = d.1 ∧ N.ok d'.2 ∧ |N.val d'.2 - N.val d.2| ≤ δ) data data'

theorem data_close {δ s : ℚ} (hδ : 0 ≤ δ) (pre : Op T) (hp : (∀ i v, pre ≠ .setZ i v) ∧ ∀ i v, pre ≠ .setU i v)
    {data data' : List (T × T)} (h : DataClose N δ data data') (hs : dataSmall N.rat N.M δ data = true) :
    List.Forall₂ (N.OpClose (δ + 2 * N.ε) s) (data.flatMap fun d => [pre, .setZ 0 [d.1 + d.2], .correct 0])
      (data'.flatMap fun d => [pre, .setZ 0 [d.1 + d.2], .correct 0]) := by
  induction h with
  | nil => exact .nil
  | @cons d d' data data' h0 _ ih =>
    simp only [dataSmall, List.all_cons, Bool.and_eq_true] at hs
    obtain ⟨m, e⟩ := d
    obtain ⟨m', e'⟩ := d'
    obtain ⟨rfl, h1, h2⟩ := h0
    refine .cons (.same _ hp.1 hp.2) (.cons (.setZ _ _ _ (sum_close N hδ ?_ h1 h2))
      (.cons (.same _ (by simp) (by simp)) (ih hs.2)))
    simpa [dataSmall] using hs.1

theorem scalar_close {r : ℚ} (hr : 0 ≤ r) {a a' : T} (h : N.ok a') (hd : |N.val a' - N.val a| ≤ r) :
    ∀ c, rats N.rat [a] = some c → N.Close r [a'] c := by
  intro c hc i
  obtain ⟨g1, g2⟩ := N.rats_cell hc i
  cases i with
  | zero =>
    simp only [List.getElem?_cons_zero, Option.getD_some] at g2 ⊢
    exact ⟨h, by rwa [← g2]⟩
  | succ i =>
    simp only [List.getElem?_cons_succ, List.getElem?_nil, Option.getD_none] at g2 ⊢
    refine ⟨N.zero.1, ?_⟩
    rw [g2, sub_self, abs_zero]
    exact_mod_cast hr

theorem brake_close {r s : ℚ} (hr : 0 ≤ r) (hs : 0 ≤ s) (brake : T) (t : Nat) {zs zs' : List T} (hl : zs.length = zs'.length)
    (h : ∀ (i : Nat) a a', (t + i) % 2 = 0 → zs[i]? = some a → zs'[i]? = some a' → N.ok a' ∧ |N.val a' - N.val a| ≤ r) :
    List.Forall₂ (N.OpClose r s) (brakeOps brake t zs) (brakeOps brake t zs') := by
  induction zs generalizing zs' t with
  | nil =>
    cases zs' with
    | nil => exact .nil
    | cons => cases hl
  | cons z zs ih =>
    cases zs' with
    | nil => cases hl
    | cons z' zs' =>
      have key := ih (t + 1) (by simpa using hl) (fun i a a' hi ha ha' => h (i + 1) a a'
        (by rwa [Nat.add_assoc, Nat.add_comm 1 i] at hi) (by simpa using ha) (by simpa using ha'))
      simp only [brakeOps, List.cons_append, List.nil_append]
      refine .cons (.setU _ _ _ fun c hc => N.rats_close hs hc) (.cons (.same _ (by simp) (by simp))
        (.cons (.same _ (by simp) (by simp)) ?_))
      by_cases ht : (t % 2 != 0) = true
      · rw [if_pos ht, if_pos ht]
        exact key
      · rw [if_neg ht, if_neg ht]
        obtain ⟨h1, h2⟩ := h 0 z z' (by simpa using ht) rfl rfl
        exact .cons (.setZ _ _ _ (scalar_close N hr h1 h2)) (.cons (.same _ (by simp) (by simp)) key)

end Close

end Minikalman
