import Verif.Model.ExtendedShared
import Verif.Spec.Extended
import Verif.Spec.Aliasing

/-!
# Specification of shared temporaries of extended filters
-/

namespace Minikalman

variable {T σ : Type} {n : Nat}

/-- The programs have the same buffers `x`, `A`, `P`, `Q`, `H`, `z`, `R`, surplus cells included, and the same captured state of the
closures. All temporaries and `y`, `S`, `K` may differ. -/
structure XWorld.InputsEq (w w' : XWorld n T σ) : Prop where
  buffers : w.asRegular.InputsEq w'.asRegular
  env : w.env = w'.env

/-- The scribbling touches nothing but temporaries, `y`, `S` and `K`, and leaves all buffers large enough. -/
def OnlyXTemporaries (scribble : Nat → XWorld n T σ → XWorld n T σ) : Prop :=
  ∀ k w, w.InputsEq (scribble k w) ∧ (w.Valid → (scribble k w).Valid)

/-- The closure writes all cells of the matrix it is to fill without looking at what they held before: from two output buffers with
arbitrary contents it panics alike, or returns with the same captured state and the same matrix. -/
def Overwrites {k : Nat} (c : σ → Mat n 1 T → Mat k 1 T → Res (σ × Mat k 1 T)) : Prop :=
  ∀ st x (out out' : Mat k 1 T), out.Valid → out'.Valid →
    (∃ e, c st x out = .error e ∧ c st x out' = .error e) ∨
    ∃ st' r r', c st x out = .ok (st', r) ∧ c st x out' = .ok (st', r') ∧ r.Agree r'

/-- All closures of the call overwrite their outputs. -/
def XOp.Overwrites : XOp n T σ → Prop
  | .predict g => Minikalman.Overwrites g
  | .predictTuned _ g => Minikalman.Overwrites g
  | .correct _ h => ∀ m, Minikalman.Overwrites (h m)
  | .assign _ => True

end Minikalman
