import Verif.Model.ExtendedWorld
import Verif.Model.Aliasing

/-!
# Model of extended filters whose temporaries share memory with others
-/

namespace Minikalman

variable {T σ : Type} {n m : Nat}

/-- A program with an extended filter in which something overwrites temporaries between the calls: other filters or observations that
share the same memory (`kalman/extended.rs:116`, `observations/extended.rs:178-201`: temporaries may be aliased), other threads of
control, a memory test. `scribble k` is what happens before the `k`-th call. -/
def XWorld.runScribbled [Zero T] [One T] [Add T] [Sub T] [Mul T] [Neg T] [MDT T] (bld : Build)
    (scribble : Nat → XWorld n T σ → XWorld n T σ) (k : Nat) (w : XWorld n T σ) : List (XOp n T σ) → Res (XWorld n T σ)
  | [] => .ok w
  | op :: ops => do
    let w ← (scribble k w).step bld op
    w.runScribbled bld scribble (k + 1) ops

/-- `ExtendedObservation::update_with_innovation`, `observations/extended.rs:377-431`, with temporaries in memory; see
`RegularObservation.updateShared`, which has the same statements. -/
def ExtendedObservation.updateShared [Zero T] [One T] [Add T] [Sub T] [Mul T] [Neg T] [MDT T] (bld : Build)
    (o : ExtendedObservation n m T) (rg : TempRegions) (h : Memory T) (x : Mat n 1 T) (P : Mat n n T) :
    Res (ExtendedObservation n m T × Memory T × Mat n 1 T × Mat n n T) := do
  let tempHP ← o.H.mult P (h.get rg.hp : Mat m n T)
  let h := h.put rg.hp tempHP
  let S ← (h.get rg.hp : Mat m n T).multTransb o.H o.S
  let S ← S.addInplaceA o.R
  let (S, _) ← S.choleskyDecomposeLower bld
  let tempSInv ← S.invertLCholesky (h.get rg.sInv : Mat m m T)
  let h := h.put rg.sInv tempSInv
  let tempPHt ← P.multTransb o.H (h.get rg.pht : Mat n m T)
  let h := h.put rg.pht tempPHt
  let K ← (h.get rg.pht : Mat n m T).mult (h.get rg.sInv : Mat m m T) o.K
  let x ← K.multaddRowvector o.y x
  let tempHP ← o.H.mult P (h.get rg.hp : Mat m n T)
  let h := h.put rg.hp tempHP
  let tempKHP ← if rg.hp = rg.khp then do
      let d ← K.multSharedBC n (h rg.hp)
      pure (⟨d⟩ : Mat n n T)
    else K.mult (h.get rg.hp : Mat m n T) (h.get rg.khp : Mat n n T)
  let h := h.put rg.khp tempKHP
  let P ← P.subInplaceA (h.get rg.khp : Mat n n T)
  pure ({ o with S := S, K := K }, h, x, P)

/-- `ExtendedObservation::correct_nonlinear`, `observations/extended.rs:348-368`, with temporaries in memory. -/
def ExtendedObservation.correctShared [Zero T] [One T] [Add T] [Sub T] [Mul T] [Neg T] [MDT T] (bld : Build)
    (o : ExtendedObservation n m T) (rg : TempRegions) (h : Memory T) (x : Mat n 1 T) (P : Mat n n T)
    (observation : σ → Mat n 1 T → Mat m 1 T → Res (σ × Mat m 1 T)) (st : σ) :
    Res (σ × ExtendedObservation n m T × Memory T × Mat n 1 T × Mat n n T) := do
  let (st, y) ← observation st x o.y
  let y ← o.z.subInplaceB y
  let (o, h, x, P) ← ExtendedObservation.updateShared bld { o with y := y } rg h x P
  pure (st, o, h, x, P)

end Minikalman
