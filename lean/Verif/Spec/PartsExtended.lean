import Verif.Spec.Parts
import Verif.Spec.Extended

/-!
# An extended filter that contains a smaller one

As `Verif.Spec.Parts`. The functions of the large filter do to the part what those of the small one do. No reference to filter steps of the model.
-/

namespace Minikalman

variable {T σ τ : Type} {n k : Nat}

/-- The call of the large filter is a call of the small one, too: the second. For the states of the part its functions have the same results. -/
inductive XOp.Part [Zero T] (p : Fin k → Fin n) (g : Spec.Share) (ms : List Nat) : XOp n T σ → XOp k T τ → Prop
  | predict {c c'} {F : (Fin n → T) → Fin n → T} {F' : (Fin k → T) → Fin k → T} (hc : Computes c F) (hc' : Computes c' F')
      (h : ∀ x a, F' (fun b => x (p b)) a = F x (p a)) : Part p g ms (.predict c) (.predict c')
  | predictTuned {c c'} (lambda : T) {F : (Fin n → T) → Fin n → T} {F' : (Fin k → T) → Fin k → T} (hc : Computes c F)
      (hc' : Computes c' F') (h : ∀ x a, F' (fun b => x (p b)) a = F x (p a)) :
      Part p g ms (.predictTuned lambda c) (.predictTuned lambda c')
  | correct (i j : Nat) {c c'} {F : (m : Nat) → (Fin n → T) → Fin m → T} {F' : (m : Nat) → (Fin k → T) → Fin m → T}
      (hi : g.obs i = some j) (hc : ∀ m, Computes (c m) (F m)) (hc' : ∀ m, Computes (c' m) (F' m))
      (h : ∀ m x, F' m (fun b => x (p b)) = F m x) : Part p g ms (.correct i c) (.correct j c')
  | assign (a a' : Assign T) (h : Spec.OpPart p g [] ms a.toOp a'.toOp) : Part p g ms (.assign a) (.assign a')

/-- The call concerns a sensor that has nothing to do with the part, and keeps it so. Its function may be any. -/
def XOp.Other [Zero T] (p : Fin k → Fin n) (g : Spec.Share) (ms : List Nat) : XOp n T σ → Prop
  | .correct i _ => g.obs i = none
  | .assign a => Spec.OpOther p g [] ms a.toOp
  | _ => False

/-- The second history is what the first one is for the small filter. -/
inductive XOp.Parts [Zero T] (p : Fin k → Fin n) (g : Spec.Share) (ms : List Nat) : List (XOp n T σ) → List (XOp k T τ) → Prop
  | nil : Parts p g ms [] []
  | part {op op' ops ops'} (h : XOp.Part p g ms op op') (ht : Parts p g ms ops ops') : Parts p g ms (op :: ops) (op' :: ops')
  | other {op ops ops'} (h : XOp.Other p g ms op) (ht : Parts p g ms ops ops') : Parts p g ms (op :: ops) ops'

end Minikalman
