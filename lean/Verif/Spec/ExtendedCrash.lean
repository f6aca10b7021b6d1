import Verif.Model.ExtendedCrash
import Verif.Spec.Crash
import Verif.Spec.ExtendedShared

/-!
# Specification of interrupted calls of an extended filter
-/

namespace Minikalman

variable {T σ : Type} {n : Nat}

/-- Restore a saved estimate: write the state, the covariance and the captured state of the closures of `w` into `w'`. -/
def XWorld.restore (w w' : XWorld n T σ) : XWorld n T σ :=
  { w' with kf := { w'.kf with x := w.kf.x, P := w.kf.P }, env := w.env }

section
variable [Zero T] [One T] [Add T] [Sub T] [Mul T] [Neg T] [MDT T]

/-- A program that treats every call as a transaction: it saves `x` and `P`, and if the call is interrupted it catches the panic, writes
them back and either tries the same call again (`retry`) or gives it up (`skip`). `committed` lists the calls that completed. -/
inductive World.RunTransactions (bld : Build) : World n T → List (Op T) → List (Op T) → World n T → Prop
  | nil (w : World n T) : World.RunTransactions bld w [] [] w
  | commit {w w₁ w' : World n T} {op : Op T} {ops committed : List (Op T)} (h : w.step bld op = .ok w₁)
      (h' : World.RunTransactions bld w₁ ops committed w') : World.RunTransactions bld w (op :: ops) (op :: committed) w'
  | retry {w w₁ w' : World n T} {op : Op T} {ops committed : List (Op T)} (h : World.Interrupted bld w op w₁)
      (h' : World.RunTransactions bld (w.restore w₁) (op :: ops) committed w') :
      World.RunTransactions bld w (op :: ops) committed w'
  | skip {w w₁ w' : World n T} {op : Op T} {ops committed : List (Op T)} (h : World.Interrupted bld w op w₁)
      (h' : World.RunTransactions bld (w.restore w₁) ops committed w') :
      World.RunTransactions bld w (op :: ops) committed w'

/-- The same for a program with an extended filter; it saves the captured state of its closures, too. -/
inductive XWorld.RunTransactions (bld : Build) : XWorld n T σ → List (XOp n T σ) → List (XOp n T σ) → XWorld n T σ → Prop
  | nil (w : XWorld n T σ) : XWorld.RunTransactions bld w [] [] w
  | commit {w w₁ w' : XWorld n T σ} {op : XOp n T σ} {ops committed : List (XOp n T σ)} (h : w.step bld op = .ok w₁)
      (h' : XWorld.RunTransactions bld w₁ ops committed w') : XWorld.RunTransactions bld w (op :: ops) (op :: committed) w'
  | retry {w w₁ w' : XWorld n T σ} {op : XOp n T σ} {ops committed : List (XOp n T σ)} (h : XWorld.Interrupted bld w op w₁)
      (h' : XWorld.RunTransactions bld (w.restore w₁) (op :: ops) committed w') :
      XWorld.RunTransactions bld w (op :: ops) committed w'
  | skip {w w₁ w' : XWorld n T σ} {op : XOp n T σ} {ops committed : List (XOp n T σ)} (h : XWorld.Interrupted bld w op w₁)
      (h' : XWorld.RunTransactions bld (w.restore w₁) ops committed w') :
      XWorld.RunTransactions bld w (op :: ops) committed w'

end
end Minikalman
