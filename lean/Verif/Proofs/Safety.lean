import Verif.Proofs.InvMatrix

/-! # The factorisation and inversion raise no panics of their own -/

set_option linter.unusedSectionVars false

namespace Minikalman

variable {T : Type} {n : Nat} [Zero T] [One T] [Add T] [Sub T] [Mul T] [Neg T] [MDT T]

theorem safe_recip (x : T) : Safe (ScalarPanic T) (MDT.recip x) (fun _ => True) :=
  Safe.all fun _ he => ⟨x, Or.inl he⟩

theorem safe_sqrt (x : T) : Safe (ScalarPanic T) (MDT.squareRoot x) (fun _ => True) :=
  Safe.all fun _ he => ⟨x, Or.inr he⟩

theorem chol_safe (bld : Build) {m : Mat n n T} (hn : 0 < n) (hm : m.Valid) :
    Safe (ScalarPanic T) (m.choleskyDecomposeLower bld) (fun r => TailEq n m.data r.1.data) := by
  unfold Mat.choleskyDecomposeLower
  have e1 : debugAssert bld (n == n) = .ok () := by simp [debugAssert]
  have e2 : debugAssert bld (decide (0 < n)) = .ok () := by simp [debugAssert, hn]
  simp only [e1, e2, res_bind_ok]
  refine (safe_forUpR (I := fun _ (s : List T × T) => TailEq n m.data s.1) (Qr := fun (t : List T) => TailEq n m.data t) (Nat.zero_le _)
    (TailEq.refl _) ?_).bind fun c hc => ?_
  · intro i s _ hi hs
    refine safe_forUpR (I := fun _ (s : List T × T) => TailEq n m.data s.1) (Qr := fun (t : List T) => TailEq n m.data t) hi.le hs ?_
    intro j s _ hj hs
    have hl := hs.le hm
    have hlt : j * n + i < s.1.length := lt_of_lt_of_le (idx_lt hj hi) hl
    have hloop := cholLoop (t := s.1) (i := i) (a0 := i * n) (b0 := j * n) (cl n s.1 i j)
      (f := fun k => cl n s.1 i k) (g := fun k => cl n s.1 j k)
      (fun k hk => getElem?_cl hl hi (by omega)) (fun k hk => getElem?_cl hl hj (by omega))
    simp only [rd_eq (getElem?_cl hl hi hj), res_bind_ok, hloop, wr_eq hlt]
    split
    · split
      · exact Safe.pure (hs.set hj hi _)
      · refine (safe_sqrt _).bind fun e _ => ?_
        rw [wr_eq (by rw [List.length_set]; exact lt_of_lt_of_le (idx_lt hi hi) hl), res_bind_ok]
        refine (safe_recip _).bind fun d _ => Safe.pure ((hs.set hj hi _).set hi hi _)
    · exact Safe.pure (hs.set hj hi _)
  · cases c with
    | ret t => exact Safe.pure hc
    | cont s =>
      obtain ⟨u, hu, hu1, _⟩ := zeroUpper (TailEq.le hc hm)
      simp only [hu, res_bind_ok]
      exact Safe.pure ⟨hu1.1.trans hc.1, fun k hk => (hu1.2 k hk).trans (hc.2 k hk)⟩

theorem invert_safe {m inverse : Mat n n T} (hn : 0 < n) (hm : m.Valid) (hv : inverse.Valid) :
    Safe (ScalarPanic T) (m.invertLCholesky inverse) (fun r => TailEq n inverse.data r.data) := by
  rw [invert_unfold _ _ hn]
  refine (safe_forUp (I := fun _ inv => TailEq n inverse.data inv) (Nat.zero_le _) (TailEq.refl _) ?_).bind
    fun inv hinv => ?_
  · intro i inv _ hi hinv
    rw [invBody1_eq hm hi]
    refine (safe_recip _).bind fun d _ => safe_forUp (I := fun _ inv => TailEq n inverse.data inv) (Nat.zero_le _) hinv ?_
    intro j inv _ hj hinv
    rw [invStep1 hm (hinv.le hv) hi (by omega)]
    exact Safe.ok (hinv.set (by omega) hi _)
  · refine (safe_forDown (I := fun _ inv => TailEq n inverse.data inv) hinv ?_).bind fun inv hinv => Safe.pure hinv
    intro i inv hi hinv
    rw [invBody2_eq hm hi]
    refine (safe_recip _).bind fun d _ => safe_forUp (I := fun _ inv => TailEq n inverse.data inv) (Nat.zero_le _) hinv ?_
    intro j inv _ hj hinv
    rw [invStep2 hm (hinv.le hv) hi (by omega)]
    exact Safe.ok ((hinv.set hi (by omega) _).set (by omega) hi _)

end Minikalman
