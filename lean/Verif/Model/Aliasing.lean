import Verif.Model.Filter

/-!
# Temporaries that share memory

`observations/regular.rs:178-204` and `observations/extended.rs:178-204` document which temporaries of an observation may be
backed by the same memory. Here the four temporaries are regions of a memory; two temporaries with the same region alias.
Only aliasing of whole buffers (same start) is modelled, not partial overlap. Paths are relative to
`/repo/crates/minikalman/src`.
-/

namespace Minikalman

variable {T : Type} {R C U n m : Nat}

/-- The memory region behind each temporary of an observation, `observations/regular.rs:182,189,196,203`. -/
structure TempRegions where
  sInv : Nat
  hp : Nat
  pht : Nat
  khp : Nat
  deriving DecidableEq

/-- Memory: the contents of each region. -/
abbrev Memory (T : Type) := Nat → List T

/-- A region as a matrix. -/
def Memory.get (h : Memory T) (r : Nat) : Mat R C T := ⟨h r⟩

/-- Replace the contents of a region. -/
def Memory.put (h : Memory T) (r : Nat) (a : Mat R C T) : Memory T := fun k => if k = r then a.data else h k

section Arith
variable [Zero T] [One T] [Add T] [Sub T] [Mul T] [Neg T]

/-- `Matrix::mult`, `matrix/traits.rs:296-335`, when `b` and `c` are the same memory: the loops of `Mat.mult` reading `b`
from the memory that is being written. -/
def Mat.multSharedBC (a : Mat R C T) (U : Nat) (mem : List T) : Res (List T) := do
  let arows := R
  let bcols := U
  let brows := C
  let ccols := U
  forDown bcols (fun j mem => do
    let (mem, _) ← forUp 0 arows (fun i (mem, indexA) => do
      let (total, indexA) ← forUp 0 brows (fun k (total, indexA) => do
        let av ← rd a.data indexA
        let bv ← rd mem (k * bcols + j)
        pure (total + av * bv, indexA + 1)) ((0 : T), indexA)
      let mem ← wr mem (i * ccols + j) total
      pure (mem, indexA)) (mem, 0)
    pure mem) mem

variable [MDT T]

/-- `RegularObservation::update_with_innovation`, `observations/regular.rs:365-419` (and the duplicate
`observations/extended.rs:377-431`), with temporaries in memory. The temporaries of `o` itself are not used. The only kernel
call with a temporary as input and another one as output is `K.mult(temp_HP, temp_KHP)` (`:417`). -/
def RegularObservation.updateShared (bld : Build) (o : RegularObservation n m T) (rg : TempRegions) (h : Memory T)
    (x : Mat n 1 T) (P : Mat n n T) : Res (RegularObservation n m T × Memory T × Mat n 1 T × Mat n n T) := do
  let tempHP ← o.H.mult P (h.get rg.hp : Mat m n T)
  let h := h.put rg.hp tempHP
  let S ← (h.get rg.hp : Mat m n T).multTransb o.H o.S
  let S ← S.addInplaceA o.R
  let (S, _) ← S.choleskyDecomposeLower bld
  let tempSInv ← S.invertLCholesky (h.get rg.sInv : Mat m m T)
  let h := h.put rg.sInv tempSInv
  let tempPHt ← P.multTransb o.H (h.get rg.pht : Mat n m T)
  let h := h.put rg.pht tempPHt
  let K ← (h.get rg.pht : Mat n m T).mult (h.get rg.sInv : Mat m m T) o.K
  let x ← K.multaddRowvector o.y x
  let tempHP ← o.H.mult P (h.get rg.hp : Mat m n T)
  let h := h.put rg.hp tempHP
  let tempKHP ← if rg.hp = rg.khp then do
      let d ← K.multSharedBC n (h rg.hp)
      pure (⟨d⟩ : Mat n n T)
    else K.mult (h.get rg.hp : Mat m n T) (h.get rg.khp : Mat n n T)
  let h := h.put rg.khp tempKHP
  let P ← P.subInplaceA (h.get rg.khp : Mat n n T)
  pure ({ o with S := S, K := K }, h, x, P)

/-- `RegularObservation::correct`, `observations/regular.rs:339-357`, with temporaries in memory. -/
def RegularObservation.correctShared (bld : Build) (o : RegularObservation n m T) (rg : TempRegions) (h : Memory T)
    (x : Mat n 1 T) (P : Mat n n T) : Res (RegularObservation n m T × Memory T × Mat n 1 T × Mat n n T) := do
  let y ← o.H.multRowvector x o.y
  let y ← o.z.subInplaceB y
  RegularObservation.updateShared bld { o with y := y } rg h x P

end Arith

/-- A program in which something overwrites temporaries between the calls: other filters or observations that share the
same memory (`kalman/regular.rs:116`: `temp_P` may be aliased with `temp_BQ` of controls), other threads of control, a
memory test. `scribble k` is what happens before the `k`-th call. -/
def World.runScribbled [Zero T] [One T] [Add T] [Sub T] [Mul T] [Neg T] [MDT T] (bld : Build)
    (scribble : Nat → World n T → World n T) (k : Nat) (w : World n T) : List (Op T) → Res (World n T)
  | [] => .ok w
  | op :: ops => do
    let w ← (scribble k w).step bld op
    w.runScribbled bld scribble (k + 1) ops

end Minikalman
