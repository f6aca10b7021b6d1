import Verif.Proofs.GravityFixed

/-! # The gains of `examples/gravity_fixed.rs`, computed -/

set_option linter.unusedSectionVars false

namespace Minikalman

open Examples FixedPoint

namespace Examples

/-- The filter of the program after initialisation. -/
def fixedStart (bld : Build) : Res (RegularKalman 3 (Watched 16) × RegularObservation 3 1 (Watched 16)) := do
  let f ← buildRegularKalman bld
  let o ← buildRegularObservation bld
  let f ← gravityFilter (.fresh (fromNum (1 / 2))) (.fresh (fromNum (1 / 10))) (.fresh (fromNum 6)) f
  let o ← gravityObservation (.fresh (fromNum (1 / 2))) o
  pure (f, o)

/-- The distances of the program. -/
def fixedDistance : List (Watched 16) := realDistance.map fun q => .fresh (fromNum q)

/-- Everything about the gains that has to be computed. -/
def gainsCheck (bld : Build) : Bool :=
  match (do let (f, o) ← fixedStart bld; gainsOf bld 15 f o) with
  | .ok (ks, p) => fine ((ks.zip fixedDistance).reverse) && (ks.length == 15) && p.all (fun w => w.clean) &&
    (let b := bounds (0, 0, 1) ((ks.zip fixedDistance).reverse)
     decide (9 < b.1 - (b.2.1 + 4 * b.2.2)) && decide (b.1 + (b.2.1 + 4 * b.2.2) < 10))
  | .error _ => false

theorem gainsCheck_true (bld : Build) : gainsCheck bld = true := by
  rcases bld with ⟨_ | _, _ | _⟩ <;> decide +kernel

end Examples
end Minikalman
