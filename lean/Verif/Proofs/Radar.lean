import Verif.Model.Examples
import Verif.Spec.Radar
import Verif.Proofs.Grid
import Verif.Proofs.ExtendedHistory
import Verif.Props.MatrixOps

/-! # The radar example: helper lemmas -/

set_option linter.unusedSectionVars false

namespace Minikalman
namespace Examples

open Matrix

variable {T : Type} {R C : Nat}

theorem setAt_reps {m : Mat R C T} {A : Matrix (Fin R) (Fin C) T} (hm : m.Reps A) (r : Fin R) (c : Fin C) (v : T) :
    ∃ m', m.setAt r c v = .ok m' ∧ m'.Reps (Matrix.of fun i j => if (i, j) = (r, c) then v else A i j) ∧
      m'.data.length = m.data.length := by
  have hlt : (r : Nat) * C + c < m.data.length := lt_of_lt_of_le (idx_lt r.2 c.2) hm.valid
  refine ⟨⟨m.data.set (r * C + c) v⟩, ?_, ?_, by simp⟩
  · unfold Mat.setAt; rw [wr_eq hlt]; rfl
  · intro i j
    rw [List.getElem?_set]
    by_cases h : (i, j) = (r, c)
    · cases h
      simp [hlt]
    · rw [if_neg, hm i j]
      · simp only [Matrix.of_apply, if_neg h]
      · rw [idx_inj c.2 j.2]
        rintro ⟨h1, h2⟩
        exact h (by rw [Prod.mk.injEq]; exact ⟨Fin.ext h1.symm, Fin.ext h2.symm⟩)

theorem getRow_reps {m : Mat R 1 T} {v : Fin R → T} (hm : m.RepsV v) (r : Fin R) : m.getRow r = .ok (v r) := by
  unfold Mat.getRow Mat.getAt
  apply rd_eq
  simpa using hm r

theorem index_reps {m : Mat R 1 T} {v : Fin R → T} (hm : m.RepsV v) (r : Fin R) : m.index r = .ok (v r) := by
  unfold Mat.index
  exact rd_eq (hm r)

theorem indexSet_reps {m : Mat R 1 T} {v : Fin R → T} (hm : m.RepsV v) (r : Fin R) (a : T) :
    ∃ m', m.indexSet r a = .ok m' ∧ m'.RepsV (Function.update v r a) ∧ m'.data.length = m.data.length := by
  have hlt : (r : Nat) < m.data.length := by
    have := hm r
    rw [List.getElem?_eq_some_iff] at this
    exact this.1
  refine ⟨⟨m.data.set r a⟩, ?_, ?_, by simp⟩
  · unfold Mat.indexSet; rw [wr_eq hlt]; rfl
  · intro i
    rw [List.getElem?_set]
    by_cases h : i = r
    · cases h; simp [hlt]
    · rw [if_neg (fun e => h (Fin.ext e.symm)), hm i, Function.update_of_ne h]

theorem setRow_eq (m : Mat R 1 T) (r : Nat) (a : T) : m.setRow r a = m.indexSet r a := by
  unfold Mat.setRow Mat.setAt Mat.indexSet; simp

end Examples
end Minikalman
