import Verif.Spec.Firmware
import Verif.Proofs.FloatPrograms
import Verif.Proofs.LimitRun
import Verif.Proofs.Builds

/-! # Repeated calls of the firmware's `predict_gravity`: helper lemmas -/

set_option linter.unusedSectionVars false

namespace Minikalman
namespace Firmware

open Examples

variable {T : Type} [Zero T] [One T] [Add T] [Sub T] [Mul T] [Neg T] [MDT T]

theorem list3 {l : List T} (h : l.length = 3) : ∃ a b c, l = [a, b, c] := by
  match l, h with
  | [a, b, c], _ => exact ⟨a, b, c, rfl⟩

theorem list9 {l : List T} (h : l.length = 9) : ∃ a b c d e f g i j, l = [a, b, c, d, e, f, g, i, j] := by
  match l, h with
  | [a, b, c, d, e, f, g, i, j], _ => exact ⟨a, b, c, d, e, f, g, i, j, rfl⟩

/-- The covariance after the initialisation. -/
def startP (tenth : T) (p : Mat 3 3 T) : Mat 3 3 T :=
  ⟨[tenth, 0, 0, p.data.getD 3 0, 1, 0, p.data.getD 6 0, p.data.getD 7 0, 1]⟩

/-- The filter after the initialisation. -/
def startFilter (half tenth six : T) (f : RegularKalman 3 T) : RegularKalman 3 T :=
  { f with x := ⟨[0, 0, six]⟩, A := ⟨[1, 1, half * 1 * 1, 0, 1, 1, 0, 0, 1]⟩, P := startP tenth f.P }

/-- The observation after the initialisation. -/
def startObservation (half : T) (o : RegularObservation 3 1 T) : RegularObservation 3 1 T :=
  { o with H := ⟨[1, 0, 0]⟩, R := ⟨[half]⟩ }

theorem filter_start (half tenth six : T) {s : Statics T} (hs : s.Sized) :
    gravityFilter half tenth six s.filter = .ok (startFilter half tenth six s.filter) := by
  obtain ⟨⟨⟨xd⟩, ⟨Ad⟩, ⟨Pd⟩, Q, px, tp⟩, o⟩ := s
  obtain ⟨a, b, c, rfl⟩ := list3 hs.x
  obtain ⟨_, _, _, _, _, _, _, _, _, rfl⟩ := list9 hs.A
  obtain ⟨_, _, _, _, _, _, _, _, _, rfl⟩ := list9 hs.P
  rfl

theorem observation_start (half : T) {s : Statics T} (hs : s.Sized) :
    gravityObservation half s.observation = .ok (startObservation half s.observation) := by
  obtain ⟨f, ⟨⟨Hd⟩, z, ⟨Rd⟩, y, S, K, t1, t2, t3, t4⟩⟩ := s
  obtain ⟨a, b, c, rfl⟩ := list3 hs.H
  have hR := hs.R
  match Rd, hR with
  | [_], _ => rfl

theorem single_valid {f : RegularKalman 3 T} {o : RegularObservation 3 1 T} (hf : f.Valid) (ho : o.Valid) : (single f [] o).Valid where
  states := by decide
  kf := hf
  ctl := by simp [single]
  obs := by
    intro p hp
    simp only [single, List.mem_singleton] at hp
    subst hp
    exact ⟨Nat.one_pos, ho⟩

theorem start_valid (half tenth six : T) {s : Statics T} (hs : s.Sized) :
    (single (startFilter half tenth six s.filter) [] (startObservation half s.observation)).Valid := by
  refine single_valid ⟨Nat.le_refl _, Nat.le_refl _, Nat.le_refl _, hs.filter.Q, hs.filter.predictedX, hs.filter.tempP⟩ ?_
  have h := hs.observation
  exact ⟨Nat.le_refl _, h.z, Nat.le_refl _, h.y, h.S, h.K, h.tempSInv, h.tempHP, h.tempPHt, h.tempKHP⟩

/-- The loop is the corresponding sequence of calls. -/
theorem loop_run (bld : Build) {f : RegularKalman 3 T} {o : RegularObservation 3 1 T} {data : List (T × T)}
    (hw : (single f [] o).Valid) (hz : o.z.data.length = 1) :
    Rel2 (gravityLoop bld f o data) ((single f [] o).run bld (gravityOps data)) (fun a v => v = single a.1 [] a.2) := by
  induction data generalizing f o with
  | nil => exact Rel2.ok rfl
  | cons d data ih =>
    obtain ⟨m, e⟩ := d
    have hops : gravityOps ((m, e) :: data) = .predict :: .setZ 0 [m + e] :: .correct 0 :: gravityOps data := rfl
    rw [hops]
    unfold World.run
    cases h1 : f.predict with
    | error p =>
      refine Or.inl ⟨p, ?_, ?_⟩
      · simp only [gravityLoop, h1]; rfl
      · simp only [World.step, single, h1]; rfl
    | ok f1 =>
      have e1 : (single f [] o).step bld .predict = .ok (single f1 [] o) := by
        simp only [World.step, single, h1]; rfl
      obtain ⟨k1, s1⟩ := step_keeps hw (by trivial) e1
      rw [e1, res_bind_ok]
      unfold World.run
      have e2 := setZ_single bld f1 [] hz (m + e)
      obtain ⟨k2, s2⟩ := step_keeps k1 (by simpa [Op.WellFormed, single] using hz) e2
      rw [e2, res_bind_ok]
      unfold World.run
      cases h3 : f1.correct bld { o with z := ⟨[m + e]⟩ } with
      | error p =>
        refine Or.inl ⟨p, ?_, ?_⟩
        · simp only [gravityLoop, h1, indexSet_single hz, res_bind_ok, h3]; rfl
        · simp only [World.step, single, List.getElem?_cons_zero, h3]; rfl
      | ok r =>
        obtain ⟨f3, o3⟩ := r
        have e3 : (single f1 [] { o with z := ⟨[m + e]⟩ }).step bld (.correct 0) = .ok (single f3 [] o3) := by
          simp only [World.step, single, List.getElem?_cons_zero, h3]; rfl
        obtain ⟨k3, s3⟩ := step_keeps k2 (by simp [Op.WellFormed, single]) e3
        rw [e3, res_bind_ok]
        simp only [gravityLoop, h1, indexSet_single hz, res_bind_ok, h3]
        exact ih k3 (single_z s3 rfl)

/-- The measurement present before the loop is overwritten before it is read. -/
theorem loop_z (bld : Build) (f : RegularKalman 3 T) {o : RegularObservation 3 1 T} {d : T × T} {data : List (T × T)}
    (hz : o.z.data.length = 1) :
    gravityLoop bld f o (d :: data) = gravityLoop bld f { o with z := ⟨[0]⟩ } (d :: data) := by
  obtain ⟨m, e⟩ := d
  simp only [gravityLoop]
  cases f.predict with
  | error p => rfl
  | ok f1 =>
    simp only [res_bind_ok]
    rw [indexSet_single hz, indexSet_single (M := ⟨[0]⟩) rfl]

theorem ops_wellFormed {f : RegularKalman 3 T} {o : RegularObservation 3 1 T} (hz : o.z.data.length = 1) (data : List (T × T)) :
    ∀ op ∈ gravityOps data, op.WellFormed (single f [] o) := by
  intro op h
  simp only [gravityOps, List.mem_flatMap, List.mem_cons, List.not_mem_nil, or_false] at h
  obtain ⟨d, _, rfl | rfl | rfl⟩ := h
  · trivial
  · simpa [Op.WellFormed, single] using hz
  · simp [Op.WellFormed, single]

/-- The loop keeps the sizes of the buffers and does not write `A`, `Q`, `H`, `R`. -/
theorem loop_keeps (bld : Build) {f f' : RegularKalman 3 T} {o o' : RegularObservation 3 1 T} {data : List (T × T)}
    (hw : (single f [] o).Valid) (hz : o.z.data.length = 1) (h : gravityLoop bld f o data = .ok (f', o')) :
    (single f' [] o').Valid ∧ (single f [] o).SameShape (single f' [] o') ∧ f'.Q = f.Q := by
  induction data generalizing f o with
  | nil => cases h; exact ⟨hw, World.SameShape.refl _, rfl⟩
  | cons d data ih =>
    obtain ⟨m, e⟩ := d
    simp only [gravityLoop] at h
    obtain ⟨f1, e1, _, _, fr⟩ := predict_any hw.states hw.kf hw.kf.x.repsV hw.kf.A.reps hw.kf.P.reps hw.kf.Q.reps
    simp only [single] at e1 fr
    rw [e1, res_bind_ok, indexSet_single hz, res_bind_ok] at h
    have s1 : (single f [] o).step bld .predict = .ok (single f1 [] o) := by
      simp only [World.step, single, e1]; rfl
    obtain ⟨k1, t1⟩ := step_keeps hw (by trivial) s1
    have e2 := setZ_single bld f1 [] hz (m + e)
    obtain ⟨k2, t2⟩ := step_keeps k1 (by simpa [Op.WellFormed, single] using hz) e2
    cases h3 : f1.correct bld { o with z := ⟨[m + e]⟩ } with
    | error p => rw [h3] at h; cases h
    | ok r =>
      obtain ⟨f3, o3⟩ := r
      rw [h3, res_bind_ok] at h
      have e3 : (single f1 [] { o with z := ⟨[m + e]⟩ }).step bld (.correct 0) = .ok (single f3 [] o3) := by
        simp only [World.step, single, List.getElem?_cons_zero, h3]; rfl
      obtain ⟨k3, t3⟩ := step_keeps k2 (by simp [Op.WellFormed, single]) e3
      obtain ⟨q1, q2, q3⟩ := ih k3 (single_z t3 rfl) h
      have ho := (k2.obs _ (List.mem_singleton.2 rfl)).2
      have hr := kcorrect_inputs bld hw.states Nat.one_pos k2.kf ho ho rfl rfl rfl (f := f1) (g := f1) rfl rfl
      simp only [h3] at hr
      rcases hr with ⟨p, hp, _⟩ | ⟨a, b, ha, _, _, _, _, _, _, hQ, _⟩
      · cases hp
      · cases ha
        exact ⟨q1, ((t1.trans t2).trans t3).trans q2, q3.trans (hQ.trans fr.Q)⟩

/-- The statics between calls keep their sizes. -/
theorem sized_after {s : Statics T} (hs : s.Sized) (half tenth six : T) {f' : RegularKalman 3 T} {o' : RegularObservation 3 1 T}
    (hv : (single f' [] o').Valid)
    (h : (single (startFilter half tenth six s.filter) [] (startObservation half s.observation)).SameShape (single f' [] o')) :
    (Statics.mk f' o').Sized := by
  have ho := (hv.obs _ (List.mem_singleton.2 rfl)).2
  have h1 := h.obs
  simp only [single, List.map_cons, List.map_nil, obsShape, List.cons.injEq, Prod.mk.injEq, startObservation] at h1
  exact ⟨hv.kf, ho, h.x, h.A, h.P, h.Q.trans hs.Q, h1.1.2.2.1, h1.1.2.1.trans hs.z, h1.1.2.2.2⟩

theorem getD_getAt {p q : Mat 3 3 T} (hp : p.data.length = 9) (hq : q.data.length = 9) {r c : Nat} (hr : r < 3) (hc : c < 3)
    (h : p.getAt r c = q.getAt r c) : p.data.getD (r * 3 + c) 0 = q.data.getD (r * 3 + c) 0 := by
  obtain ⟨pd⟩ := p
  obtain ⟨qd⟩ := q
  obtain ⟨_, _, _, _, _, _, _, _, _, rfl⟩ := list9 hp
  obtain ⟨_, _, _, _, _, _, _, _, _, rfl⟩ := list9 hq
  interval_cases r <;> interval_cases c <;> exact Except.ok.inj h

theorem startP_eq {s t : Statics T} (hs : s.Sized) (ht : t.Sized) (h : s.SameLeftovers t) (tenth : T) :
    startP tenth s.filter.P = startP tenth t.filter.P := by
  have h1 := getD_getAt hs.P ht.P (r := 1) (c := 0) (by decide) (by decide) h.P10
  have h2 := getD_getAt hs.P ht.P (r := 2) (c := 0) (by decide) (by decide) h.P20
  have h3 := getD_getAt hs.P ht.P (r := 2) (c := 1) (by decide) (by decide) h.P21
  simp only [startP]
  rw [show s.filter.P.data.getD 3 0 = t.filter.P.data.getD 3 0 from h1,
    show s.filter.P.data.getD 6 0 = t.filter.P.data.getD 6 0 from h2,
    show s.filter.P.data.getD 7 0 = t.filter.P.data.getD 7 0 from h3]

theorem call_start (bld : Build) (half tenth six : T) (data : List (T × T)) {s : Statics T} (hs : s.Sized) :
    predictGravity bld half tenth six data s = (do
      let (f, o) ← gravityLoop bld (startFilter half tenth six s.filter) (startObservation half s.observation) data
      let g ← f.x.index 2
      pure (g, ⟨f, o⟩)) := by
  unfold predictGravity
  rw [filter_start half tenth six hs, observation_start half hs]
  rfl

theorem loop_leftovers (bld : Build) (half tenth six : T) (data : List (T × T)) {s t : Statics T} (hs : s.Sized) (ht : t.Sized)
    (h : s.SameLeftovers t) :
    Rel2 (gravityLoop bld (startFilter half tenth six s.filter) (startObservation half s.observation) data)
      (gravityLoop bld (startFilter half tenth six t.filter) (startObservation half t.observation) data)
      (fun a b => a.1.x = b.1.x ∧ a.1.P = b.1.P ∧ a.1.Q = b.1.Q) := by
  have hP := startP_eq hs ht h tenth
  cases data with
  | nil => exact Rel2.ok ⟨rfl, hP, h.Q⟩
  | cons d data =>
    rw [loop_z bld _ (o := startObservation half s.observation) hs.z, loop_z bld _ (o := startObservation half t.observation) ht.z]
    have valid : ∀ {s : Statics T}, s.Sized → (single (startFilter half tenth six s.filter) []
        { startObservation half s.observation with z := ⟨[0]⟩ }).Valid := fun {s} hs => by
      have hv := start_valid half tenth six hs
      have ho := (hv.obs _ (List.mem_singleton.2 rfl)).2
      exact single_valid hv.kf ⟨ho.H, Nat.le_refl _, ho.R, ho.y, ho.S, ho.K, ho.tempSInv, ho.tempHP, ho.tempPHt, ho.tempKHP⟩
    have hin : (single (startFilter half tenth six s.filter) [] { startObservation half s.observation with z := ⟨[0]⟩ }).InputsEq
        (single (startFilter half tenth six t.filter) [] { startObservation half t.observation with z := ⟨[0]⟩ }) :=
      ⟨rfl, rfl, hP, h.Q, .nil, .cons (.mk rfl rfl rfl) .nil⟩
    have h1 := loop_run bld (data := d :: data) (valid hs) rfl
    have h2 := loop_run bld (data := d :: data) (valid ht) rfl
    have h3 := Limit.run_inputs bld (valid hs) (valid ht) hin (ops_wellFormed (data := d :: data) rfl)
    rcases h3 with ⟨e, k1, k2⟩ | ⟨a, b, k1, k2, k3⟩
    · rw [k1] at h1
      rw [k2] at h2
      rcases h1 with ⟨e1, p1, q1⟩ | ⟨_, _, _, q1, _⟩
      · rcases h2 with ⟨e2, p2, q2⟩ | ⟨_, _, _, q2, _⟩
        · cases q1; cases q2
          exact Or.inl ⟨_, p1, p2⟩
        · cases q2
      · cases q1
    · rw [k1] at h1
      rw [k2] at h2
      rcases h1 with ⟨e1, p1, q1⟩ | ⟨a1, _, p1, q1, r1⟩
      · cases q1
      · rcases h2 with ⟨e2, p2, q2⟩ | ⟨b1, _, p2, q2, r2⟩
        · cases q2
        · cases q1; cases q2
          subst r1 r2
          exact Or.inr ⟨_, _, p1, p2, k3.x, k3.P, k3.Q⟩

theorem loop_build (bld bld' : Build) (f : RegularKalman 3 T) (o : RegularObservation 3 1 T) (data : List (T × T)) :
    gravityLoop bld f o data = gravityLoop bld' f o data := by
  induction data generalizing f o with
  | nil => rfl
  | cons d data ih =>
    obtain ⟨m, e⟩ := d
    simp only [gravityLoop, RegularKalman.correct, correct_build_eq (T := T) bld bld' _ _ _ Nat.one_pos, ih]

theorem call_build (bld bld' : Build) (half tenth six : T) (data : List (T × T)) (s : Statics T) :
    predictGravity bld half tenth six data s = predictGravity bld' half tenth six data s := by
  simp only [predictGravity, loop_build (T := T) bld bld']

theorem calls_build (bld bld' : Build) (half tenth six : T) (ds : List (List (T × T))) (s : Statics T) :
    calls bld half tenth six ds s = calls bld' half tenth six ds s := by
  induction ds generalizing s with
  | nil => rfl
  | cons d ds ih => simp only [calls, call_build (T := T) bld bld', ih]

end Firmware
end Minikalman
