import Verif.Model.Aliasing
import Verif.Spec.History

/-!
# Specification of shared temporaries
-/

namespace Minikalman

variable {T : Type} {n m : Nat}

/-- The documented contract, `observations/regular.rs:178-204`: `temp_S_inv` MUST NOT be aliased with `temp_PHt`, `temp_HP`
MUST NOT be aliased with `temp_KHP`. All other aliasing is allowed. -/
structure TempRegions.Contract (rg : TempRegions) : Prop where
  sInv_pht : rg.sInv ≠ rg.pht
  hp_khp : rg.hp ≠ rg.khp

/-- Every temporary fits into its region. -/
structure TempRegions.Fits (rg : TempRegions) (n m : Nat) (h : Memory T) : Prop where
  sInv : m * m ≤ (h rg.sInv).length
  hp : m * n ≤ (h rg.hp).length
  pht : n * m ≤ (h rg.pht).length
  khp : n * n ≤ (h rg.khp).length

/-- Same `B`, `u`, `Q`; the temporary may differ. -/
inductive CtlInputsEq : (l : Nat) × Control n l T → (l : Nat) × Control n l T → Prop
  | mk {l : Nat} {c d : Control n l T} : c.B = d.B → c.u = d.u → c.Q = d.Q → CtlInputsEq ⟨l, c⟩ ⟨l, d⟩

/-- Same `H`, `z`, `R`; temporaries and the outputs `y`, `S`, `K` may differ. -/
inductive ObsInputsEq : (m : Nat) × RegularObservation n m T → (m : Nat) × RegularObservation n m T → Prop
  | mk {m : Nat} {o p : RegularObservation n m T} : o.H = p.H → o.z = p.z → o.R = p.R → ObsInputsEq ⟨m, o⟩ ⟨m, p⟩

/-- The worlds have the same buffers `x`, `A`, `P`, `Q`, `B`, `u`, `Q` (of controls), `H`, `z`, `R`, surplus cells included.
All temporaries and `y`, `S`, `K` may differ. -/
structure World.InputsEq (w w' : World n T) : Prop where
  x : w.kf.x = w'.kf.x
  A : w.kf.A = w'.kf.A
  P : w.kf.P = w'.kf.P
  Q : w.kf.Q = w'.kf.Q
  ctl : List.Forall₂ CtlInputsEq w.ctl w'.ctl
  obs : List.Forall₂ ObsInputsEq w.obs w'.obs

/-- The scribbling touches nothing but temporaries, `y`, `S` and `K`, and leaves all buffers large enough. -/
def OnlyTemporaries (scribble : Nat → World n T → World n T) : Prop :=
  ∀ k w, w.InputsEq (scribble k w) ∧ (w.Valid → (scribble k w).Valid)

end Minikalman
