import Verif.Proofs.ParametricBuild
import Verif.Props.History

/-!
# Property C86: the element type is a parameter

The code uses the numbers only through the operations of its traits. So programs over two element types whose operations
correspond do corresponding things: wrapping the numbers (checked, counting, recorded, differentiated, ...) does not change what the
filter does, and the filter cannot look at anything else.
-/

set_option linter.unusedSectionVars false

namespace Minikalman

variable {T T' σ σ' : Type} {n l m : Nat} [Zero T] [One T] [Add T] [Sub T] [Mul T] [Neg T] [MDT T]
  [Zero T'] [One T'] [Add T'] [Sub T'] [Mul T'] [Neg T'] [MDT T'] {r : T → T' → Prop} {e : σ → σ' → Prop}

/-- C86: the same history of calls with related data on related programs: both panic at the same call in the same way, or both
succeed and all cells of all buffers, temporaries included, are related. No assumption on sizes of buffers or indices. -/
theorem C86_related_runs (hr : ScalarRel r) (bld : Build) {w : World n T} {w' : World n T'} (h : w.Related r w')
    {ops : List (Op T)} {ops' : List (Op T')} (hops : List.Forall₂ (Op.Related r) ops ops') :
    Res.Related (World.Related r) (w.run bld ops) (w'.run bld ops') := Param.related_iff.2 (Param.run_rel hr bld h hops)

/-- C86: the same with the program built by the builders. -/
theorem C86_related_programs [Inhabited T] [Inhabited T'] (hr : ScalarRel r) (hd : r default default) (bld : Build)
    (ctls obs : List Nat) {ops : List (Op T)} {ops' : List (Op T')} (hops : List.Forall₂ (Op.Related r) ops ops') :
    Res.Related (World.Related r) (do let w ← (buildWorld bld ctls obs : Res (World n T)); w.run bld ops)
      (do let w ← (buildWorld bld ctls obs : Res (World n T')); w.run bld ops') :=
  Param.related_iff.2 ((Param.buildWorld_rel hd bld ctls obs).bind fun _ _ h => Param.run_rel hr bld h hops)

/-- C86: the extended filter, with closures that treat related arguments alike (and may capture related states). -/
theorem C86_related_extended_runs (hr : ScalarRel r) (bld : Build) {w : XWorld n T σ} {w' : XWorld n T' σ'}
    (h : w.Related e r w') {ops : List (XOp n T σ)} {ops' : List (XOp n T' σ')}
    (hops : List.Forall₂ (XOp.Related e r) ops ops') :
    Res.Related (XWorld.Related e r) (w.run bld ops) (w'.run bld ops') := Param.related_iff.2 (Param.xrun_rel hr bld h hops)

/-- C86: the same with the program built by the builders. -/
theorem C86_related_extended_programs [Inhabited T] [Inhabited T'] (hr : ScalarRel r) (hd : r default default) (bld : Build)
    (obs : List Nat) {st : σ} {st' : σ'} (hst : e st st') {ops : List (XOp n T σ)} {ops' : List (XOp n T' σ')}
    (hops : List.Forall₂ (XOp.Related e r) ops ops') :
    Res.Related (XWorld.Related e r) (do let w ← (buildXWorld bld obs st : Res (XWorld n T σ)); w.run bld ops)
      (do let w ← (buildXWorld bld obs st' : Res (XWorld n T' σ')); w.run bld ops') :=
  Param.related_iff.2 ((Param.buildXWorld_rel hd bld obs hst).bind fun _ _ h => Param.xrun_rel hr bld h hops)

/-- C86: a function between element types that respects all operations commutes with every history: convert all numbers of the
program first and run, or run and convert all results. -/
theorem C86_homomorphism {g : T → T'} (hg : ScalarRel fun a b => g a = b) (bld : Build) (w : World n T) (ops : List (Op T)) :
    (w.mapCells g).run bld (ops.map (Op.mapCells g)) = (w.run bld ops).map (World.mapCells g) := by
  have h := C86_related_runs hg bld (Param.world_fun.2 (rfl : w.mapCells g = _)) (ops := ops) (ops' := ops.map (Op.mapCells g))
    (by induction ops with
      | nil => exact .nil
      | cons op ops ih => exact .cons (Param.op_fun op) ih)
  exact ((Param.res_fun fun _ _ => Param.world_fun).1 h).symm

/-- C86: the matrix kernels. The same decomposition, with the same reported Boolean. -/
theorem C86_related_cholesky (hr : ScalarRel r) (bld : Build) {a : Mat n m T} {a' : Mat n m T'} (h : a.Related r a') :
    Res.Related (fun p q => p.1.Related r q.1 ∧ p.2 = q.2) (a.choleskyDecomposeLower bld) (a'.choleskyDecomposeLower bld) :=
  Param.related_iff.2 (Param.chol_rel hr bld h)

/-- C86: the inversion. -/
theorem C86_related_invert (hr : ScalarRel r) {a b : Mat n n T} {a' b' : Mat n n T'} (h : a.Related r a')
    (hb : b.Related r b') : Res.Related (Mat.Related r) (a.invertLCholesky b) (a'.invertLCholesky b') :=
  Param.related_iff.2 (Param.invert_rel hr h hb)

/-! ## An instrumented element type

The hypotheses can be met in an interesting way: numbers that count how many operations went into them. -/

/-- A number and the number of operations in its history. -/
structure Counting (T : Type) where
  num : T
  ops : Nat
  deriving DecidableEq

namespace Counting

instance : Zero (Counting T) := ⟨⟨0, 0⟩⟩
instance : One (Counting T) := ⟨⟨1, 0⟩⟩
instance : Add (Counting T) := ⟨fun a b => ⟨a.num + b.num, a.ops + b.ops + 1⟩⟩
instance : Sub (Counting T) := ⟨fun a b => ⟨a.num - b.num, a.ops + b.ops + 1⟩⟩
instance : Mul (Counting T) := ⟨fun a b => ⟨a.num * b.num, a.ops + b.ops + 1⟩⟩
instance : Neg (Counting T) := ⟨fun a => ⟨-a.num, a.ops + 1⟩⟩

instance : MDT (Counting T) where
  recip a := (MDT.recip a.num).map fun d => ⟨d, a.ops + 1⟩
  squareRoot a := (MDT.squareRoot a.num).map fun d => ⟨d, a.ops + 1⟩
  le a b := MDT.le a.num b.num
  isum l := ⟨MDT.isum (l.map num), (l.map ops).sum + l.length⟩

/-- Forgetting the counter respects all operations, whatever the underlying arithmetic. -/
theorem scalarRel : ScalarRel (fun (c : Counting T) (a : T) => c.num = a) where
  zero := rfl
  one := rfl
  add h1 h2 := by subst h1; subst h2; rfl
  sub h1 h2 := by subst h1; subst h2; rfl
  mul h1 h2 := by subst h1; subst h2; rfl
  neg h := by subst h; rfl
  recip {a b} h := by
    subst h
    show Res.Related _ ((MDT.recip a.num).map _) _
    cases MDT.recip a.num <;> rfl
  squareRoot {a b} h := by
    subst h
    show Res.Related _ ((MDT.squareRoot a.num).map _) _
    cases MDT.squareRoot a.num <;> rfl
  le h1 h2 := by subst h1; subst h2; rfl
  isum {l l'} h := by
    rw [← Param.forall₂_fun.1 h]
    rfl

end Counting

/-- C86: counting operations does not change the results of any history, in any arithmetic. -/
theorem C86_counting_changes_nothing (bld : Build) (w : World n T) (ops : List (Op T)) (start : Nat) :
    ((w.mapCells fun a => (⟨a, start⟩ : Counting T)).run bld (ops.map (Op.mapCells fun a => ⟨a, start⟩))).map
      (World.mapCells Counting.num) = w.run bld ops := by
  rw [← C86_homomorphism Counting.scalarRel, Param.world_map_map, List.map_map]
  have e1 : (Counting.num ∘ fun a : T => (⟨a, start⟩ : Counting T)) = id := rfl
  have e2 : (Op.mapCells Counting.num ∘ Op.mapCells fun a : T => (⟨a, start⟩ : Counting T)) = id := by
    funext op
    simp only [Function.comp_apply, Param.op_map_map, e1, Param.op_map_id, id]
  rw [e1, e2, Param.world_map_id, List.map_id]

/-- A history of the program of `Props/History.lean` on counting rationals: the results and how many operations went into each
cell. (The last cell of each buffer is surplus and untouched.) -/
example : (((Ex.world ℚ).mapCells fun a => (⟨a, 0⟩ : Counting ℚ)).run ⟨false, false⟩
      ([.correct 0, .predict, .control 0, .predictTuned ⟨2, 0⟩])).map (fun w => (w.kf.x.data, w.kf.P.data)) =
    .ok ([⟨15, 197⟩, ⟨8, 197⟩, ⟨77, 0⟩], [⟨83 / 16, 840⟩, ⟨5 / 2, 840⟩, ⟨5 / 2, 840⟩, ⟨15 / 4, 840⟩, ⟨78, 0⟩]) ∧
    ((Ex.world ℚ).run ⟨false, false⟩ ([.correct 0, .predict, .control 0, .predictTuned 2])).map
      (fun w => (w.kf.x.data, w.kf.P.data)) = .ok ([15, 8, 77], [83 / 16, 5 / 2, 5 / 2, 15 / 4, 78]) := by
  constructor <;> decide +kernel

end Minikalman
