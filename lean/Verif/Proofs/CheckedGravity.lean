import Verif.Model.CheckedPrograms
import Verif.Proofs.Affine
import Verif.Proofs.CheckedOrder
import Verif.Spec.Parametric

/-!
# The fixed point gravity program in builds with overflow checks
-/

set_option linter.unusedSectionVars false

namespace Minikalman
namespace Chk

open Mode Limit FixedPoint Examples

section Loop
variable {ι : Type} {M : Mode ι} {T : ι → Type} {X : Type} {o : ∀ k, Ops (T k)} {o' : Ops X} {lim : (∀ k, T k) → X → Prop}
  (hr : OpsSim M o o' lim)
include hr

theorem gravityLoop_sim (bld : Build) {f : ∀ k, RegularKalman 3 (T k)} {g : RegularKalman 3 X} {b : ∀ k, RegularObservation 3 1 (T k)}
    {p : RegularObservation 3 1 X} (hf : FullK lim f g) (hb : FullO lim b p) {data : ∀ k, List (T k × T k)} {data' : List (X × X)}
    (hd : ListTends (fun d x => lim (fun k => (d k).1) x.1 ∧ lim (fun k => (d k).2) x.2) data data') :
    M.Sim (fun k => gravityLoop (o k) bld (f k) (b k) (data k)) (gravityLoop o' bld g p data')
      (fun a b => FullK lim (fun k => (a k).1) b.1 ∧ FullO lim (fun k => (a k).2) b.2) := by
  induction data' generalizing f g b p data with
  | nil =>
    obtain rfl : data = fun _ => [] := funext fun k => ListTends.nil_inv hd k
    exact Sim.ok (s := fun k => (f k, b k)) ⟨hf, hb⟩
  | cons x data' ih =>
    obtain ⟨d, rest, h1, h2, h3⟩ := ListTends.cons_inv hd
    obtain rfl : data = fun k => d k :: rest k := funext h1
    have e : ∀ k, d k = ((d k).1, (d k).2) := fun _ => rfl
    obtain ⟨x1, x2⟩ := x
    show M.Sim (fun k => (predict (o k) (f k) >>= fun f' => (o k).add (d k).1 (d k).2 >>= fun s => (b k).z.indexSet 0 s >>= fun z =>
        correct (o k) bld f' { b k with z := z } >>= fun r => gravityLoop (o k) bld r.1 r.2 (rest k)))
      (predict o' g >>= fun f' => o'.add x1 x2 >>= fun s => p.z.indexSet 0 s >>= fun z =>
        correct o' bld f' { p with z := z } >>= fun r => gravityLoop o' bld r.1 r.2 data') _
    refine Sim.bind (predict_sim hr hf) fun f g hf => ?_
    refine Sim.bind (hr.add h2.1 h2.2) fun s t hs => ?_
    refine Sim.bind (S := MatTends lim) (Sim.bind (sim_wr hb.z 0 hs) fun _ _ h => Sim.pure h) fun z z' hz => ?_
    refine Sim.bind (correct_sim hr bld hf (b := fun k => { b k with z := z k }) (p := { p with z := z' })
      ⟨hb.H, hz, hb.R, hb.y, hb.S, hb.K, hb.tempSInv, hb.tempHP, hb.tempPHt, hb.tempKHP⟩) fun r r' hrr => ?_
    exact ih hrr.1 hrr.2 h3

end Loop

/-- Filter and observation after initialisation. -/
def start16 : RegularKalman 3 I16F16 × RegularObservation 3 1 I16F16 :=
  let c (l : List ℚ) {R C : Nat} : Mat R C I16F16 := ⟨l.map fromNum⟩
  ({ x := c [0, 0, 6], A := c [1, 1, 1 / 2, 0, 1, 1, 0, 0, 1], P := c [1 / 10, 0, 0, 0, 1, 0, 0, 0, 1], Q := c [0, 0, 0, 0, 0, 0, 0, 0, 0],
     predictedX := c [0, 0, 0], tempP := c [0, 0, 0, 0, 0, 0, 0, 0, 0] },
   { H := c [1, 0, 0], z := c [0], R := c [1 / 2], y := c [0], S := c [0], K := c [0, 0, 0], tempSInv := c [0], tempHP := c [0, 0, 0],
     tempPHt := c [0, 0, 0], tempKHP := c [0, 0, 0, 0, 0, 0, 0, 0, 0] })

theorem start_checked (bld : Build) :
    gravityStart (debugOps 16) bld (fromNum (1 / 2)) (fromNum (1 / 10)) (fromNum 6) = .ok start16 := by
  obtain ⟨a, b⟩ := bld
  cases a <;> cases b <;> decide +kernel

theorem start_release (bld : Build) : (do
    let f ← buildRegularKalman bld
    let o ← buildRegularObservation bld
    let f ← Examples.gravityFilter (fromNum (1 / 2) : I16F16) (fromNum (1 / 10)) (fromNum 6) f
    let o ← Examples.gravityObservation (fromNum (1 / 2) : I16F16) o
    pure (f, o)) = .ok start16 := by
  obtain ⟨a, b⟩ := bld
  cases a <;> cases b <;> decide +kernel

/-- Descriptions of the data: known distances, and the unknown errors. -/
def gravityForms : List (Aff 16 × Aff 16) :=
  realDistance.zipIdx.map fun d => (.const (fromNum d.1), .form 0 (List.replicate d.2 0 ++ [1]) 0)

/-- The program after initialisation: the loop, and the estimated acceleration. -/
def gravityRest {T : Type} (o : Ops T) (bld : Build) (f : RegularKalman 3 T) (b : RegularObservation 3 1 T) (data : List (T × T)) :
    Res T := gravityLoop o bld f b data >>= fun r => r.1.x.index 2

/-- The run on descriptions succeeds, for errors up to 8000 in magnitude. -/
theorem forms_run (bld : Build) : ∃ r, gravityRest (Aff.ops 16 (8000 * 65536)) bld (start16.1.mapCells .const)
    (start16.2.mapCells .const) gravityForms = .ok r := by
  have h : ∀ bld : Build, (gravityRest (Aff.ops 16 (8000 * 65536)) bld (start16.1.mapCells .const)
      (start16.2.mapCells .const) gravityForms).isOk = true := by
    intro bld
    obtain ⟨a, b⟩ := bld
    cases a <;> cases b <;> decide +kernel
  have h1 := h bld
  cases hr : gravityRest (Aff.ops 16 (8000 * 65536)) bld (start16.1.mapCells .const) (start16.2.mapCells .const) gravityForms with
  | ok r => exact ⟨r, rfl⟩
  | error e => rw [hr] at h1; cases h1

theorem const_list {f : Nat} {es : List ℚ} (l : List (FixedPoint f)) :
    ListTends (ι := Unit) (fun a x => Aff.Describes es (a ()) x) (fun _ => l) (l.map Aff.const) := by
  refine ⟨fun _ => (List.length_map _).symm, fun i x h => ?_⟩
  rw [List.getElem?_map] at h
  cases hl : l[i]? with
  | none => rw [hl] at h; cases h
  | some a => rw [hl] at h; cases h; exact ⟨fun _ => a, fun _ => hl, rfl⟩

theorem dot_unit (i : Nat) (es : List ℚ) : Aff.dot (List.replicate i 0 ++ [1]) es = es[i]?.getD 0 := by
  induction i generalizing es with
  | zero => cases es <;> simp [Aff.dot]
  | succ i ih =>
    cases es with
    | nil => simp [Aff.dot]
    | cons e es => simp only [List.replicate_succ, List.cons_append, Aff.dot, ih, List.getElem?_cons_succ]; ring

theorem forms_data {errs : List I16F16} (hlen : errs.length = 15) :
    ListTends (ι := Unit) (fun d x => Aff.Describes (errs.map fun e => (e.bits.toInt : ℚ)) (d ()).1 x.1 ∧
      Aff.Describes (errs.map fun e => (e.bits.toInt : ℚ)) (d ()).2 x.2) (fun _ => (realDistance.map fromNum).zip errs) gravityForms := by
  have hl : realDistance.length = 15 := rfl
  refine ⟨fun _ => by simp [gravityForms, hlen, hl], fun i x h => ?_⟩
  unfold gravityForms at h
  rw [List.getElem?_map, List.getElem?_zipIdx] at h
  cases hq : realDistance[i]? with
  | none => rw [hq] at h; cases h
  | some q =>
    rw [hq] at h
    simp only [Option.map_some, Option.some.injEq] at h
    subst h
    have hi : i < errs.length := by
      rw [hlen, ← hl]
      exact (List.getElem?_eq_some_iff.1 hq).1
    refine ⟨fun _ => (fromNum q, errs[i]), fun _ => ?_, rfl, ?_⟩
    · rw [List.getElem?_zip_eq_some]
      exact ⟨by rw [List.getElem?_map, hq]; rfl, List.getElem?_eq_getElem hi⟩
    · show |((errs[i].bits.toInt : Int) : ℚ) - _| ≤ _
      rw [dot_unit, Nat.zero_add, List.getElem?_map, List.getElem?_eq_getElem hi]
      simp

theorem start_kalman {es : List ℚ} (f : RegularKalman 3 I16F16) :
    FullK (ι := Unit) (fun a x => Aff.Describes es (a ()) x) (fun _ => f) (f.mapCells .const) :=
  ⟨const_list _, const_list _, const_list _, const_list _, const_list _, const_list _⟩

theorem start_observation {es : List ℚ} (b : RegularObservation 3 1 I16F16) :
    FullO (ι := Unit) (fun a x => Aff.Describes es (a ()) x) (fun _ => b) (b.mapCells .const) :=
  ⟨const_list _, const_list _, const_list _, const_list _, const_list _, const_list _, const_list _, const_list _, const_list _,
    const_list _⟩

theorem gravityRest_sim {ι : Type} {M : Mode ι} {T : ι → Type} {X : Type} {o : ∀ k, Ops (T k)} {o' : Ops X} {lim : (∀ k, T k) → X → Prop}
    (hr : OpsSim M o o' lim) (bld : Build) {f : ∀ k, RegularKalman 3 (T k)} {g : RegularKalman 3 X} {b : ∀ k, RegularObservation 3 1 (T k)}
    {p : RegularObservation 3 1 X} (hf : FullK lim f g) (hb : FullO lim b p) {data : ∀ k, List (T k × T k)} {data' : List (X × X)}
    (hd : ListTends (fun d x => lim (fun k => (d k).1) x.1 ∧ lim (fun k => (d k).2) x.2) data data') :
    M.Sim (fun k => gravityRest (o k) bld (f k) (b k) (data k)) (gravityRest o' bld g p data') lim :=
  Sim.bind (gravityLoop_sim hr bld hf hb hd) fun _ _ h => sim_rd h.1.x 2

/-- The program runs in builds with overflow checks. -/
theorem gravity_checked (bld : Build) {errs : List I16F16} (hlen : errs.length = 15) (he : ∀ e ∈ errs, |e.bits.toInt| ≤ 8000 * 65536) :
    ∃ r, gravityFixedExample (debugOps 16) bld (fromNum (1 / 2)) (fromNum (1 / 10)) (fromNum 6) ((realDistance.map fromNum).zip errs) =
      .ok r := by
  obtain ⟨r, h⟩ := forms_run bld
  have he' : ∀ e ∈ errs.map fun e => (e.bits.toInt : ℚ), |e| ≤ 8000 * 65536 := by
    intro e h
    obtain ⟨a, ha, rfl⟩ := List.mem_map.1 h
    have := he a ha
    exact_mod_cast this
  obtain ⟨s, h1, -⟩ := (gravityRest_sim (aff_sim (f := 16) (by norm_num) he') bld (start_kalman start16.1) (start_observation start16.2)
    (forms_data hlen)).1 r h
  refine ⟨s (), ?_⟩
  unfold gravityFixedExample
  rw [start_checked]
  exact h1

theorem gravityLoop_total (bld : Build) (f : RegularKalman 3 I16F16) (b : RegularObservation 3 1 I16F16) (data : List (I16F16 × I16F16)) :
    gravityLoop (.total I16F16 0) bld f b data = Examples.gravityLoop bld f b data := by
  induction data generalizing f b with
  | nil => rfl
  | cons d data ih =>
    obtain ⟨m, e⟩ := d
    unfold gravityLoop Examples.gravityLoop
    simp only [correct_total (s := (0 : I16F16)) (fun _ => rfl), ih]
    rfl

end Chk
end Minikalman
