import Verif.Spec.Order
import Verif.Proofs.History
import Verif.Proofs.Riccati

/-! # Exchanging independent calls: helper lemmas -/

set_option linter.unusedSectionVars false

namespace Minikalman

open Matrix

variable {T : Type} {n m₁ m₂ : Nat}

theorem Reordered.perm {I : Op T → Op T → Prop} {a b : List (Op T)} (h : Reordered I a b) : a.Perm b := by
  induction h with
  | nil => exact .nil
  | cons op _ ih => exact .cons op ih
  | swap _ l => exact .swap _ _ l
  | trans _ _ h1 h2 => exact h1.trans h2

theorem Reordered.refl {I : Op T → Op T → Prop} (a : List (Op T)) : Reordered I a a := by
  induction a with
  | nil => exact .nil
  | cons op _ ih => exact .cons op ih

theorem Reordered.append_left {I : Op T → Op T → Prop} {a b : List (Op T)} (c : List (Op T)) (h : Reordered I a b) :
    Reordered I (c ++ a) (c ++ b) := by
  induction c with
  | nil => exact h
  | cons op _ ih => exact .cons op ih

theorem Reordered.append_right {I : Op T → Op T → Prop} {a b : List (Op T)} (c : List (Op T)) (h : Reordered I a b) :
    Reordered I (a ++ c) (b ++ c) := by
  induction h with
  | nil => exact .refl c
  | cons op _ ih => exact .cons op ih
  | swap h l => exact .swap h _
  | trans _ _ h1 h2 => exact h1.trans h2

theorem Reordered.of_perm {I : Op T → Op T → Prop} {a b : List (Op T)} (h : a.Perm b)
    (hI : ∀ p ∈ a, ∀ q ∈ a, I p q) : Reordered I a b := by
  induction h with
  | nil => exact .nil
  | cons op _ ih => exact .cons op (ih fun p hp q hq => hI p (by simp [hp]) q (by simp [hq]))
  | swap p q l => exact .swap (hI _ (by simp) _ (by simp)) l
  | trans h1 h2 ih1 ih2 =>
    exact (ih1 hI).trans (ih2 fun p hp q hq => hI p (h1.mem_iff.2 hp) q (h1.mem_iff.2 hq))

/-! ## The exact model -/

section Any
variable [Zero T] [One T] [Add T] [Sub T] [Mul T] [Neg T] [MDT T]

/-- Overwrite one of the vectors or matrices. -/
def World.put (v : List T) (w : World n T) : Cell → World n T
  | .x => { w with kf := { w.kf with x := ⟨v⟩ } }
  | .A => { w with kf := { w.kf with A := ⟨v⟩ } }
  | .P => { w with kf := { w.kf with P := ⟨v⟩ } }
  | .Q => { w with kf := { w.kf with Q := ⟨v⟩ } }
  | .u i => { w with ctl := w.ctl.modify i fun c => ⟨c.1, { c.2 with u := ⟨v⟩ }⟩ }
  | .B i => { w with ctl := w.ctl.modify i fun c => ⟨c.1, { c.2 with B := ⟨v⟩ }⟩ }
  | .Qc i => { w with ctl := w.ctl.modify i fun c => ⟨c.1, { c.2 with Q := ⟨v⟩ }⟩ }
  | .z i => { w with obs := w.obs.modify i fun o => ⟨o.1, { o.2 with z := ⟨v⟩ }⟩ }
  | .H i => { w with obs := w.obs.modify i fun o => ⟨o.1, { o.2 with H := ⟨v⟩ }⟩ }
  | .R i => { w with obs := w.obs.modify i fun o => ⟨o.1, { o.2 with R := ⟨v⟩ }⟩ }

/-- Length of the buffer of one of the vectors or matrices. -/
def World.len (w : World n T) : Cell → Option Nat
  | .x => some w.kf.x.data.length
  | .A => some w.kf.A.data.length
  | .P => some w.kf.P.data.length
  | .Q => some w.kf.Q.data.length
  | .u i => w.ctl[i]?.map fun c => c.2.u.data.length
  | .B i => w.ctl[i]?.map fun c => c.2.B.data.length
  | .Qc i => w.ctl[i]?.map fun c => c.2.Q.data.length
  | .z i => w.obs[i]?.map fun o => o.2.z.data.length
  | .H i => w.obs[i]?.map fun o => o.2.H.data.length
  | .R i => w.obs[i]?.map fun o => o.2.R.data.length

/-- The value an assignment assigns. -/
def Op.value : Op T → List T
  | .setX v | .setA v | .setP v | .setQ v => v
  | .setU _ v | .setB _ v | .setQc _ v | .setZ _ v | .setH _ v | .setR _ v => v
  | _ => []

theorem set_modify {α : Type} {s : List α} {i j : Nat} (h : i ≠ j) (a : α) (f : α → α) :
    (s.modify j f).set i a = (s.set i a).modify j f := by
  apply List.ext_getElem?
  intro k
  simp only [List.getElem?_set, List.getElem?_modify, List.length_modify]
  by_cases hk : i = k
  · subst hk
    simp [Ne.symm h]
  · simp [hk]

theorem modify_some {α : Type} {s : List α} {i : Nat} {a : α} (h : s[i]? = some a) (f : α → α) :
    s.modify i f = s.set i (f a) := by
  apply List.ext_getElem?
  intro k
  simp only [List.getElem?_set, List.getElem?_modify]
  by_cases hk : i = k
  · subst hk
    obtain ⟨h1, rfl⟩ := List.getElem?_eq_some_iff.1 h
    simp [h1]
  · simp [hk]

theorem wellFormed_len {w : World n T} {a : Op T} {c : Cell} (hc : a.assigns = some c) :
    a.WellFormed w ↔ w.len c = some a.value.length := by
  cases a <;> simp only [Op.assigns, Option.some.injEq, reduceCtorEq] at hc <;> subst hc <;>
    simp only [Op.WellFormed, World.len, Op.value, Option.some.injEq, eq_comm]

theorem assign_step (bld : Build) {w : World n T} {a : Op T} {c : Cell} (hc : a.assigns = some c)
    (h : w.len c = some a.value.length) : w.step bld a = .ok (w.put a.value c) := by
  cases a <;> simp only [Op.assigns, Option.some.injEq, reduceCtorEq] at hc <;> subst hc
  case setX | setA | setP | setQ =>
    simp only [World.len, Op.value, Option.some.injEq] at h
    simp only [World.step, Mat.copyFromSlice, h, if_true]
    rfl
  all_goals
    simp only [World.len, Op.value, Option.map_eq_some_iff] at h
    obtain ⟨⟨l, c⟩, h1, h2⟩ := h
    simp only at h2
    simp only [World.step, World.withCtl, World.withObs, h1, Mat.copyFromSlice, h2, if_true, World.put, Op.value,
      modify_some h1]
    rfl

theorem set_modify_same {α : Type} (s : List α) (i : Nat) (a : α) (f : α → α) : (s.modify i f).set i a = s.set i a := by
  apply List.ext_getElem?
  intro k
  simp only [List.getElem?_set, List.getElem?_modify, List.length_modify]
  by_cases hk : i = k
  · subst hk; simp
  · simp [hk]

theorem modify_set_same {α : Type} (s : List α) (i : Nat) (a : α) (f : α → α) :
    (s.set i a).modify i f = s.set i (f a) := by
  apply List.ext_getElem?
  intro k
  simp only [List.getElem?_set, List.getElem?_modify]
  by_cases hk : i = k
  · subst hk
    by_cases hl : i < s.length
    · simp [hl]
    · simp [hl]
  · simp [hk]

theorem modify_ne {α : Type} (s : List α) {i j : Nat} (h : i ≠ j) (f : α → α) : (s.modify j f)[i]? = s[i]? := by
  simp [Ne.symm h]

theorem modify_self {α : Type} (s : List α) (i : Nat) (f : α → α) : (s.modify i f)[i]? = s[i]?.map f := by
  simp

theorem withCtl_modify {w : World n T} {i j : Nat} {g : (l : Nat) → Control n l T → Res (Control n l T)}
    {f : (l : Nat) → Control n l T → Control n l T} (h : i = j → ∀ l c, g l (f l c) = (g l c).map (f l)) :
    ({ w with ctl := w.ctl.modify j fun c => ⟨c.1, f c.1 c.2⟩ } : World n T).withCtl i g =
      (w.withCtl i g).map fun w' => { w' with ctl := w'.ctl.modify j fun c => ⟨c.1, f c.1 c.2⟩ } := by
  unfold World.withCtl
  by_cases hij : i = j
  · subst hij
    simp only [modify_self]
    cases w.ctl[i]? with
    | none => rfl
    | some c =>
      obtain ⟨l, c⟩ := c
      simp only [Option.map_some, h rfl]
      cases g l c with
      | error e => rfl
      | ok c' =>
        simp only [Except.map, res_bind_ok, set_modify_same, Pure.pure, Except.pure, modify_set_same]
  · simp only [modify_ne _ hij]
    cases w.ctl[i]? with
    | none => rfl
    | some c =>
      obtain ⟨l, c⟩ := c
      simp only
      cases g l c with
      | error e => rfl
      | ok c' =>
        simp only [Except.map, res_bind_ok, set_modify hij, Pure.pure, Except.pure]

theorem withObs_modify {w : World n T} {i j : Nat}
    {g : (m : Nat) → RegularObservation n m T → Res (RegularObservation n m T)}
    {f : (m : Nat) → RegularObservation n m T → RegularObservation n m T}
    (h : i = j → ∀ m o, g m (f m o) = (g m o).map (f m)) :
    ({ w with obs := w.obs.modify j fun o => ⟨o.1, f o.1 o.2⟩ } : World n T).withObs i g =
      (w.withObs i g).map fun w' => { w' with obs := w'.obs.modify j fun o => ⟨o.1, f o.1 o.2⟩ } := by
  unfold World.withObs
  by_cases hij : i = j
  · subst hij
    simp only [modify_self]
    cases w.obs[i]? with
    | none => rfl
    | some c =>
      obtain ⟨l, c⟩ := c
      simp only [Option.map_some, h rfl]
      cases g l c with
      | error e => rfl
      | ok c' =>
        simp only [Except.map, res_bind_ok, set_modify_same, Pure.pure, Except.pure, modify_set_same]
  · simp only [modify_ne _ hij]
    cases w.obs[i]? with
    | none => rfl
    | some c =>
      obtain ⟨l, c⟩ := c
      simp only
      cases g l c with
      | error e => rfl
      | ok c' =>
        simp only [Except.map, res_bind_ok, set_modify hij, Pure.pure, Except.pure]

theorem put_step (bld : Build) {w : World n T} {b : Op T} {c : Cell} (hb : c ∉ b.touches) (v : List T) :
    (w.put v c).step bld b = (w.step bld b).map fun w' => w'.put v c := by
  cases b with
  | predict =>
    cases c <;> simp [Op.touches] at hb <;> simp only [World.step, World.put] <;> cases w.kf.predict <;> rfl
  | predictTuned l =>
    cases c <;> simp [Op.touches] at hb <;> simp only [World.step, World.put] <;> cases w.kf.predictTuned l <;> rfl
  | control i =>
    cases c <;> simp [Op.touches] at hb <;> simp only [World.step, World.put]
    case A | Q | z | H | R =>
      cases w.ctl[i]? with
      | none => rfl
      | some c =>
        obtain ⟨l, c⟩ := c
        simp only [RegularKalman.control]
        cases c.applyControl w.kf.x w.kf.P <;> rfl
    all_goals
      simp only [modify_ne _ (Ne.symm hb)]
      cases w.ctl[i]? with
      | none => rfl
      | some c =>
        obtain ⟨l, c⟩ := c
        simp only [RegularKalman.control]
        cases c.applyControl w.kf.x w.kf.P with
        | error e => rfl
        | ok r => simp only [res_bind_ok, Pure.pure, Except.pure, Except.map, set_modify (Ne.symm hb)]
  | correct i =>
    cases c <;> simp [Op.touches] at hb <;> simp only [World.step, World.put]
    case A | Q | u | B | Qc =>
      cases w.obs[i]? with
      | none => rfl
      | some o =>
        obtain ⟨l, o⟩ := o
        simp only [RegularKalman.correct]
        cases o.correct bld w.kf.x w.kf.P <;> rfl
    all_goals
      simp only [modify_ne _ (Ne.symm hb)]
      cases w.obs[i]? with
      | none => rfl
      | some o =>
        obtain ⟨l, o⟩ := o
        simp only [RegularKalman.correct]
        cases o.correct bld w.kf.x w.kf.P with
        | error e => rfl
        | ok r => simp only [res_bind_ok, Pure.pure, Except.pure, Except.map, set_modify (Ne.symm hb)]
  | setX v' =>
    cases c <;> simp [Op.touches] at hb <;> simp only [World.step, World.put] <;>
      cases w.kf.x.copyFromSlice v' <;> rfl
  | setA v' =>
    cases c <;> simp [Op.touches] at hb <;> simp only [World.step, World.put] <;>
      cases w.kf.A.copyFromSlice v' <;> rfl
  | setP v' =>
    cases c <;> simp [Op.touches] at hb <;> simp only [World.step, World.put] <;>
      cases w.kf.P.copyFromSlice v' <;> rfl
  | setQ v' =>
    cases c <;> simp [Op.touches] at hb <;> simp only [World.step, World.put] <;>
      cases w.kf.Q.copyFromSlice v' <;> rfl
  | setU i v' =>
    cases c <;> simp [Op.touches] at hb <;> simp only [World.step, World.put]
    case x | A | P | Q | z | H | R =>
      unfold World.withCtl
      cases w.ctl[i]? with
      | none => rfl
      | some c =>
        obtain ⟨l, c⟩ := c
        simp only
        cases c.u.copyFromSlice v' <;> rfl
    case u => exact withCtl_modify (f := fun _ c => { c with u := ⟨v⟩ }) fun hij => absurd hij.symm hb
    case B =>
      refine withCtl_modify (f := fun _ c => { c with B := ⟨v⟩ }) fun _ _ c => ?_
      simp only
      cases c.u.copyFromSlice v' <;> rfl
    case Qc =>
      refine withCtl_modify (f := fun _ c => { c with Q := ⟨v⟩ }) fun _ _ c => ?_
      simp only
      cases c.u.copyFromSlice v' <;> rfl
  | setB i v' =>
    cases c <;> simp [Op.touches] at hb <;> simp only [World.step, World.put]
    case x | A | P | Q | z | H | R =>
      unfold World.withCtl
      cases w.ctl[i]? with
      | none => rfl
      | some c =>
        obtain ⟨l, c⟩ := c
        simp only
        cases c.B.copyFromSlice v' <;> rfl
    case u =>
      refine withCtl_modify (f := fun _ c => { c with u := ⟨v⟩ }) fun _ _ c => ?_
      simp only
      cases c.B.copyFromSlice v' <;> rfl
    case B => exact withCtl_modify (f := fun _ c => { c with B := ⟨v⟩ }) fun hij => absurd hij.symm hb
    case Qc =>
      refine withCtl_modify (f := fun _ c => { c with Q := ⟨v⟩ }) fun _ _ c => ?_
      simp only
      cases c.B.copyFromSlice v' <;> rfl
  | setQc i v' =>
    cases c <;> simp [Op.touches] at hb <;> simp only [World.step, World.put]
    case x | A | P | Q | z | H | R =>
      unfold World.withCtl
      cases w.ctl[i]? with
      | none => rfl
      | some c =>
        obtain ⟨l, c⟩ := c
        simp only
        cases c.Q.copyFromSlice v' <;> rfl
    case u =>
      refine withCtl_modify (f := fun _ c => { c with u := ⟨v⟩ }) fun _ _ c => ?_
      simp only
      cases c.Q.copyFromSlice v' <;> rfl
    case B =>
      refine withCtl_modify (f := fun _ c => { c with B := ⟨v⟩ }) fun _ _ c => ?_
      simp only
      cases c.Q.copyFromSlice v' <;> rfl
    case Qc => exact withCtl_modify (f := fun _ c => { c with Q := ⟨v⟩ }) fun hij => absurd hij.symm hb
  | setZ i v' =>
    cases c <;> simp [Op.touches] at hb <;> simp only [World.step, World.put]
    case x | A | P | Q | u | B | Qc =>
      unfold World.withObs
      cases w.obs[i]? with
      | none => rfl
      | some c =>
        obtain ⟨l, c⟩ := c
        simp only
        cases c.z.copyFromSlice v' <;> rfl
    case z => exact withObs_modify (f := fun _ c => { c with z := ⟨v⟩ }) fun hij => absurd hij.symm hb
    case H =>
      refine withObs_modify (f := fun _ c => { c with H := ⟨v⟩ }) fun _ _ c => ?_
      simp only
      cases c.z.copyFromSlice v' <;> rfl
    case R =>
      refine withObs_modify (f := fun _ c => { c with R := ⟨v⟩ }) fun _ _ c => ?_
      simp only
      cases c.z.copyFromSlice v' <;> rfl
  | setH i v' =>
    cases c <;> simp [Op.touches] at hb <;> simp only [World.step, World.put]
    case x | A | P | Q | u | B | Qc =>
      unfold World.withObs
      cases w.obs[i]? with
      | none => rfl
      | some c =>
        obtain ⟨l, c⟩ := c
        simp only
        cases c.H.copyFromSlice v' <;> rfl
    case z =>
      refine withObs_modify (f := fun _ c => { c with z := ⟨v⟩ }) fun _ _ c => ?_
      simp only
      cases c.H.copyFromSlice v' <;> rfl
    case H => exact withObs_modify (f := fun _ c => { c with H := ⟨v⟩ }) fun hij => absurd hij.symm hb
    case R =>
      refine withObs_modify (f := fun _ c => { c with R := ⟨v⟩ }) fun _ _ c => ?_
      simp only
      cases c.H.copyFromSlice v' <;> rfl
  | setR i v' =>
    cases c <;> simp [Op.touches] at hb <;> simp only [World.step, World.put]
    case x | A | P | Q | u | B | Qc =>
      unfold World.withObs
      cases w.obs[i]? with
      | none => rfl
      | some c =>
        obtain ⟨l, c⟩ := c
        simp only
        cases c.R.copyFromSlice v' <;> rfl
    case z =>
      refine withObs_modify (f := fun _ c => { c with z := ⟨v⟩ }) fun _ _ c => ?_
      simp only
      cases c.R.copyFromSlice v' <;> rfl
    case H =>
      refine withObs_modify (f := fun _ c => { c with H := ⟨v⟩ }) fun _ _ c => ?_
      simp only
      cases c.R.copyFromSlice v' <;> rfl
    case R => exact withObs_modify (f := fun _ c => { c with R := ⟨v⟩ }) fun hij => absurd hij.symm hb

theorem beside_step (bld : Build) {w : World n T} (hw : w.Valid) {a b : Op T} (h : a.AssignsBeside b)
    (ha : a.WellFormed w) (hb : b.WellFormed w) :
    ((w.step bld a).bind fun w' => w'.step bld b) = ((w.step bld b).bind fun w' => w'.step bld a) := by
  obtain ⟨c, hc, hn⟩ := h
  rw [assign_step bld hc ((wellFormed_len hc).1 ha)]
  show (w.put a.value c).step bld b = _
  rw [put_step bld hn]
  rcases step_safe bld hw hb with ⟨e, he, _⟩ | ⟨w', h1, _, h2⟩
  · rw [he]; rfl
  · rw [h1]
    show _ = w'.step bld a
    rw [assign_step bld hc ((wellFormed_len hc).1 (ha.congr h2))]
    rfl

theorem beside_run (bld : Build) {ops ops' : List (Op T)} (h : Reordered Op.Beside ops ops') {w : World n T}
    (hw : w.Valid) (hops : ∀ op ∈ ops, op.WellFormed w) : w.run bld ops = w.run bld ops' := by
  induction h generalizing w with
  | nil => rfl
  | cons op _ ih =>
    simp only [World.run]
    rcases step_safe bld hw (hops op (by simp)) with ⟨e, he, _⟩ | ⟨w', h1, h2, h3⟩
    · rw [he]; rfl
    · rw [h1]
      exact ih h2 fun o ho => (hops o (by simp [ho])).congr h3
  | @swap a b h l =>
    have ha := hops a (by simp)
    have hb := hops b (by simp)
    have key : ((w.step bld a).bind fun w' => w'.step bld b) = ((w.step bld b).bind fun w' => w'.step bld a) := by
      rcases h with h | h
      · exact beside_step bld hw h ha hb
      · exact (beside_step bld hw h hb ha).symm
    have assoc : ∀ (p q : Op T), w.run bld (p :: q :: l) =
        ((w.step bld p).bind fun w' => w'.step bld q).bind fun w' => w'.run bld l := by
      intro p q
      simp only [World.run]
      cases w.step bld p <;> rfl
    rw [assoc, assoc, key]
  | trans h1 _ ih1 ih2 =>
    exact (ih1 hw hops).trans (ih2 hw fun o ho => hops o (h1.perm.mem_iff.2 ho))

end Any

/-! ## The textbook filter -/

namespace Spec

section Assign
variable [Field T]

/-- Assign one of the vectors or matrices (nothing for other calls). -/
def State.put (s : State n T) : Op T → State n T
  | .setX v => { s with x := vecOf v }
  | .setA v => { s with A := matOf v }
  | .setP v => { s with P := matOf v }
  | .setQ v => { s with Q := matOf v }
  | .setU i v => { s with ctl := s.ctl.modify i fun c => ⟨c.1, { c.2 with u := vecOf v }⟩ }
  | .setB i v => { s with ctl := s.ctl.modify i fun c => ⟨c.1, { c.2 with B := matOf v }⟩ }
  | .setQc i v => { s with ctl := s.ctl.modify i fun c => ⟨c.1, { c.2 with Q := matOf v }⟩ }
  | .setZ i v => { s with obs := s.obs.modify i fun o => ⟨o.1, { o.2 with z := vecOf v }⟩ }
  | .setH i v => { s with obs := s.obs.modify i fun o => ⟨o.1, { o.2 with H := matOf v }⟩ }
  | .setR i v => { s with obs := s.obs.modify i fun o => ⟨o.1, { o.2 with R := matOf v }⟩ }
  | _ => s

/-- The assigned object exists. -/
def State.Has (s : State n T) : Op T → Prop
  | .setU i _ | .setB i _ | .setQc i _ => i < s.ctl.length
  | .setZ i _ | .setH i _ | .setR i _ => i < s.obs.length
  | _ => True

theorem spec_assign {s : State n T} {a : Op T} {c : Cell} (hc : a.assigns = some c) (h : s.Has a) :
    s.step a = some (s.put a) := by
  cases a <;> simp only [Op.assigns, Option.some.injEq, reduceCtorEq] at hc
  case setX | setA | setP | setQ => rfl
  all_goals
    have h1 := List.getElem?_eq_getElem h
    simp only [State.step, State.put, h1, Option.map_some, modify_some h1]

theorem spec_assign_has {s s' : State n T} {a : Op T} {c : Cell} (hc : a.assigns = some c) (h : s.step a = some s') :
    s.Has a := by
  cases a <;> simp only [Op.assigns, Option.some.injEq, reduceCtorEq] at hc
  case setX | setA | setP | setQ => trivial
  all_goals
    simp only [State.step, Option.map_eq_some_iff] at h
    obtain ⟨d, hd, _⟩ := h
    exact (List.getElem?_eq_some_iff.1 hd).1

theorem has_congr {s s' : State n T} {a b : Op T} (h : s.step b = some s') (ha : s.Has a) : s'.Has a := by
  obtain ⟨h1, h2⟩ := spec_step_dims h
  have e1 : s'.ctl.length = s.ctl.length := by simpa using congrArg List.length h1
  have e2 : s'.obs.length = s.obs.length := by simpa using congrArg List.length h2
  cases a <;> simp only [State.Has, e1, e2] at ha ⊢ <;> exact ha

theorem spec_put_step {s : State n T} {a b : Op T} {c : Cell} (hc : a.assigns = some c) (hb : c ∉ b.touches) :
    (s.put a).step b = (s.step b).map fun s' => s'.put a := by
  cases a <;> simp only [Op.assigns, Option.some.injEq, reduceCtorEq] at hc <;> subst hc
  case setX | setA | setP | setQ =>
    cases b <;> simp [Op.touches] at hb <;> simp only [State.step, State.put, Option.map_some, Option.map_map,
      Function.comp_def]
  case setU i v =>
    cases b <;> simp [Op.touches] at hb <;> simp only [State.step, State.put, Option.map_some, Option.map_map,
      Function.comp_def]
    case control j | setU j _ =>
      simp only [modify_ne _ (Ne.symm hb), set_modify (Ne.symm hb)]
    case setB j _ | setQc j _ =>
      by_cases hij : j = i
      · subst hij
        simp only [modify_self]
        cases s.ctl[j]? with
        | none => rfl
        | some o => simp only [Option.map_some, set_modify_same, modify_set_same]
      · simp only [modify_ne _ hij, set_modify hij]
  case setB i v =>
    cases b <;> simp [Op.touches] at hb <;> simp only [State.step, State.put, Option.map_some, Option.map_map,
      Function.comp_def]
    case control j | setB j _ =>
      simp only [modify_ne _ (Ne.symm hb), set_modify (Ne.symm hb)]
    case setU j _ | setQc j _ =>
      by_cases hij : j = i
      · subst hij
        simp only [modify_self]
        cases s.ctl[j]? with
        | none => rfl
        | some o => simp only [Option.map_some, set_modify_same, modify_set_same]
      · simp only [modify_ne _ hij, set_modify hij]
  case setQc i v =>
    cases b <;> simp [Op.touches] at hb <;> simp only [State.step, State.put, Option.map_some, Option.map_map,
      Function.comp_def]
    case control j | setQc j _ =>
      simp only [modify_ne _ (Ne.symm hb), set_modify (Ne.symm hb)]
    case setU j _ | setB j _ =>
      by_cases hij : j = i
      · subst hij
        simp only [modify_self]
        cases s.ctl[j]? with
        | none => rfl
        | some o => simp only [Option.map_some, set_modify_same, modify_set_same]
      · simp only [modify_ne _ hij, set_modify hij]
  case setZ i v =>
    cases b <;> simp [Op.touches] at hb <;> simp only [State.step, State.put, Option.map_some, Option.map_map,
      Function.comp_def]
    case correct j | setZ j _ =>
      simp only [modify_ne _ (Ne.symm hb), set_modify (Ne.symm hb)]
    case setH j _ | setR j _ =>
      by_cases hij : j = i
      · subst hij
        simp only [modify_self]
        cases s.obs[j]? with
        | none => rfl
        | some o => simp only [Option.map_some, set_modify_same, modify_set_same]
      · simp only [modify_ne _ hij, set_modify hij]
  case setH i v =>
    cases b <;> simp [Op.touches] at hb <;> simp only [State.step, State.put, Option.map_some, Option.map_map,
      Function.comp_def]
    case correct j | setH j _ =>
      simp only [modify_ne _ (Ne.symm hb), set_modify (Ne.symm hb)]
    case setZ j _ | setR j _ =>
      by_cases hij : j = i
      · subst hij
        simp only [modify_self]
        cases s.obs[j]? with
        | none => rfl
        | some o => simp only [Option.map_some, set_modify_same, modify_set_same]
      · simp only [modify_ne _ hij, set_modify hij]
  case setR i v =>
    cases b <;> simp [Op.touches] at hb <;> simp only [State.step, State.put, Option.map_some, Option.map_map,
      Function.comp_def]
    case correct j | setR j _ =>
      simp only [modify_ne _ (Ne.symm hb), set_modify (Ne.symm hb)]
    case setZ j _ | setH j _ =>
      by_cases hij : j = i
      · subst hij
        simp only [modify_self]
        cases s.obs[j]? with
        | none => rfl
        | some o => simp only [Option.map_some, set_modify_same, modify_set_same]
      · simp only [modify_ne _ hij, set_modify hij]

theorem spec_beside_step {s : State n T} {a b : Op T} (h : a.AssignsBeside b) :
    ((s.step a).bind fun s' => s'.step b) = ((s.step b).bind fun s' => s'.step a) := by
  obtain ⟨c, hc, hn⟩ := h
  by_cases hs : s.Has a
  · rw [spec_assign hc hs]
    show (s.put a).step b = _
    rw [spec_put_step hc hn]
    cases hb : s.step b with
    | none => rfl
    | some s' => exact (spec_assign hc (has_congr hb hs)).symm
  · have e1 : s.step a = none := by
      cases ha : s.step a with
      | none => rfl
      | some s' => exact absurd (spec_assign_has hc ha) hs
    rw [e1]
    cases hb : s.step b with
    | none => rfl
    | some s' =>
      show none = s'.step a
      cases ha : s'.step a with
      | none => rfl
      | some s'' =>
        refine absurd ?_ hs
        have h2 := spec_assign_has hc ha
        obtain ⟨h3, h4⟩ := spec_step_dims hb
        have l1 : s'.ctl.length = s.ctl.length := by simpa using congrArg List.length h3
        have l2 : s'.obs.length = s.obs.length := by simpa using congrArg List.length h4
        cases a <;> simp only [State.Has, l1, l2] at h2 ⊢ <;> exact h2

theorem spec_controls {s : State n T} (i j : Nat) :
    ((s.step (.control i)).bind fun s' => s'.step (.control j)) =
      ((s.step (.control j)).bind fun s' => s'.step (.control i)) := by
  simp only [State.step]
  cases hi : s.ctl[i]? with
  | none => cases hj : s.ctl[j]? <;> simp [hi]
  | some c =>
    cases hj : s.ctl[j]? with
    | none => simp [hj]
    | some d =>
      simp only [Option.map_some, Option.bind_some, hi, hj, ctlX, ctlP]
      congr 2
      · abel
      · abel

end Assign

/-- The equivalence that exchanges two blocks of measurements. -/
def swapBlocks (m₁ m₂ : Nat) : Fin (m₁ + m₂) ≃ Fin (m₂ + m₁) :=
  finSumFinEquiv.symm.trans ((Equiv.sumComm _ _).trans finSumFinEquiv)

theorem swapBlocks_castAdd (i : Fin m₁) : swapBlocks m₁ m₂ (Fin.castAdd m₂ i) = Fin.natAdd m₂ i := by
  simp [swapBlocks]

theorem swapBlocks_natAdd (i : Fin m₂) : swapBlocks m₁ m₂ (Fin.natAdd m₁ i) = Fin.castAdd m₁ i := by
  simp [swapBlocks]

section Swap
variable {H₁ : Matrix (Fin m₁) (Fin n) ℝ} {H₂ : Matrix (Fin m₂) (Fin n) ℝ} {P : Matrix (Fin n) (Fin n) ℝ}
  {R₁ : Matrix (Fin m₁) (Fin m₁) ℝ} {R₂ : Matrix (Fin m₂) (Fin m₂) ℝ}

theorem stack_swap : (stack H₂ H₁).submatrix (swapBlocks m₁ m₂) id = stack H₁ H₂ := by
  ext i j
  refine Fin.addCases (fun i => ?_) (fun i => ?_) i <;>
    simp [swapBlocks_castAdd, swapBlocks_natAdd, stack]

theorem blockDiag_swap : (blockDiag R₂ R₁).submatrix (swapBlocks m₁ m₂) (swapBlocks m₁ m₂) = blockDiag R₁ R₂ := by
  ext i j
  refine Fin.addCases (fun i => ?_) (fun i => ?_) i <;> refine Fin.addCases (fun j => ?_) (fun j => ?_) j <;>
    simp [swapBlocks_castAdd, swapBlocks_natAdd, blockDiag]

theorem append_swap (z₁ : Fin m₁ → ℝ) (z₂ : Fin m₂ → ℝ) : Fin.append z₂ z₁ ∘ swapBlocks m₁ m₂ = Fin.append z₁ z₂ := by
  ext i
  refine Fin.addCases (fun i => ?_) (fun i => ?_) i <;>
    simp [swapBlocks_castAdd, swapBlocks_natAdd]

theorem corr_swap (hP : P.PosSemidef) (h₁ : R₁.PosDef) (h₂ : R₂.PosDef) (x : Fin n → ℝ) (z₁ : Fin m₁ → ℝ)
    (z₂ : Fin m₂ → ℝ) :
    corrP H₂ (corrP H₁ P R₁) R₂ = corrP H₁ (corrP H₂ P R₂) R₁ ∧
    corrX H₂ (corrP H₁ P R₁) R₂ (corrX H₁ P R₁ x z₁) z₂ = corrX H₁ (corrP H₂ P R₂) R₁ (corrX H₂ P R₂ x z₂) z₁ := by
  have d1 := pd_det (innovCov_pd (H := H₁) hP h₁)
  have d2 := pd_det (innovCov_pd (H := H₂) hP h₂)
  have p1 := corrP_psd hP h₁.posSemidef d1
  have p2 := corrP_psd hP h₂.posSemidef d2
  have d12 := pd_det (innovCov_pd (H := H₂) p1 h₂)
  have d21 := pd_det (innovCov_pd (H := H₁) p2 h₁)
  have b12 := pd_det (innovCov_pd (H := stack H₁ H₂) hP (blockDiag_pd h₁ h₂))
  have b21 := pd_det (innovCov_pd (H := stack H₂ H₁) hP (blockDiag_pd h₂ h₁))
  refine ⟨?_, ?_⟩
  · rw [← batch_corrP b12 d1 d12, ← batch_corrP b21 d2 d21, ← perm_corrP (swapBlocks m₁ m₂) (stack H₂ H₁), stack_swap,
      blockDiag_swap]
  · rw [← batch_corrX b12 d1 d12, ← batch_corrX b21 d2 d21, ← perm_corrX (swapBlocks m₁ m₂) (stack H₂ H₁), stack_swap,
      blockDiag_swap, append_swap]

end Swap

theorem spec_corrections {s : State n ℝ} (hs : s.Psd) (i j : Nat) :
    ((s.step (.correct i)).bind fun s' => s'.step (.correct j)) =
      ((s.step (.correct j)).bind fun s' => s'.step (.correct i)) := by
  simp only [State.step]
  cases hi : s.obs[i]? with
  | none => cases hj : s.obs[j]? <;> simp [hi]
  | some c =>
    cases hj : s.obs[j]? with
    | none => simp [hj]
    | some d =>
      simp only [Option.map_some, Option.bind_some, hi, hj]
      have := corr_swap (H₁ := c.2.H) (H₂ := d.2.H) hs.P (hs.obs c (List.mem_of_getElem? hi))
        (hs.obs d (List.mem_of_getElem? hj)) s.x c.2.z d.2.z
      rw [this.1, this.2]

theorem spec_independent {s : State n ℝ} (hs : s.Psd) {a b : Op ℝ} (h : a.Independent b) :
    ((s.step a).bind fun s' => s'.step b) = ((s.step b).bind fun s' => s'.step a) := by
  cases h with
  | corrections i j => exact spec_corrections hs i j
  | controls i j => exact spec_controls i j
  | left h => exact spec_beside_step h
  | right h => exact (spec_beside_step h).symm

theorem spec_reordered {ops ops' : List (Op ℝ)} (h : Reordered Op.Independent ops ops') {s : State n ℝ} (hs : s.Psd)
    (hl : ∀ op ∈ ops, op.NonzeroLambda) (hd : ∀ op ∈ ops, s.PsdData op) : s.run ops = s.run ops' := by
  induction h generalizing s with
  | nil => rfl
  | cons op _ ih =>
    simp only [State.run]
    cases h1 : s.step op with
    | none => rfl
    | some s' =>
      have hr := psd_regular hs (hl op (by simp))
      exact ih (step_cov_inv psd_closed h1 hs (hd op (by simp)) hr) (fun o ho => hl o (by simp [ho]))
        (fun o ho => covData_congr h1 (hd o (by simp [ho])))
  | @swap a b h l =>
    have assoc : ∀ (p q : Op ℝ), s.run (p :: q :: l) =
        ((s.step p).bind fun s' => s'.step q).bind fun s' => s'.run l := by
      intro p q
      simp only [State.run, Option.bind_assoc]
    rw [assoc, assoc, spec_independent hs h]
  | trans h1 _ ih1 ih2 =>
    exact (ih1 hs hl hd).trans (ih2 hs (fun o ho => hl o (h1.perm.mem_iff.2 ho)) fun o ho => hd o (h1.perm.mem_iff.2 ho))

end Spec
end Minikalman
