import Verif.Proofs.GravityFixedGains

/-! # The run of `examples/gravity_fixed.rs` -/

set_option linter.unusedSectionVars false

namespace Minikalman

open Examples FixedPoint

namespace Examples

section Init
variable {T : Type} [Zero T] [One T] [Add T] [Sub T] [Mul T] [Neg T] [MDT T]

theorem gravityFilter_any (half tenth six : T) :
    ∃ f, gravityFilter half tenth six (staticKalman 0) = .ok f ∧ f.Reps ![0, 0, six]
      (!![1, 1, half * 1 * 1; 0, 1, 1; 0, 0, 1] : Matrix (Fin 3) (Fin 3) T) !![tenth, 0, 0; 0, 1, 0; 0, 0, 1] 0 := by
  refine ⟨_, rfl, ?_, ?_, ?_, ?_, Nat.le_refl _, Nat.le_refl _⟩
  · intro i; fin_cases i <;> rfl
  · intro i j; fin_cases i <;> fin_cases j <;> rfl
  · intro i j; fin_cases i <;> fin_cases j <;> rfl
  · intro i j; fin_cases i <;> fin_cases j <;> rfl

theorem gravityObservation_any (half : T) :
    ∃ o, gravityObservation half (staticObservation 0) = .ok o ∧
      o.Reps (!![1, 0, 0] : Matrix (Fin 1) (Fin 3) T) ![0] !![half] := by
  refine ⟨_, rfl, ?_, ?_, ?_, Nat.le_refl _, Nat.le_refl _, Nat.le_refl _, Nat.le_refl _, Nat.le_refl _, Nat.le_refl _,
    Nat.le_refl _⟩
  · intro i j; fin_cases i; fin_cases j <;> rfl
  · intro i; fin_cases i; rfl
  · intro i j; fin_cases i; fin_cases j; rfl

end Init

theorem val_bits {w : Watched 16} {z : Int} (h : w.num.bits.toInt = z) : w.num.val = z / 2 ^ 16 := by
  unfold FixedPoint.val; rw [h]

theorem fixed_consts : Consts
    !![1, 1, .fresh (fromNum (1 / 2)) * 1 * 1; 0, 1, 1; 0, 0, 1] !![1, 0, 0] where
  cleanA i j := by fin_cases i <;> fin_cases j <;> decide +kernel
  cleanH i j := by fin_cases i; fin_cases j <;> decide +kernel
  row0 := by
    refine ⟨(val_bits (z := 65536) (by decide +kernel)).trans (by norm_num),
      (val_bits (z := 65536) (by decide +kernel)).trans (by norm_num),
      (val_bits (z := 32768) (by decide +kernel)).trans (by norm_num)⟩
  row1 := by
    refine ⟨(val_bits (z := 0) (by decide +kernel)).trans (by norm_num),
      (val_bits (z := 65536) (by decide +kernel)).trans (by norm_num),
      (val_bits (z := 65536) (by decide +kernel)).trans (by norm_num)⟩
  row2 := by
    refine ⟨(val_bits (z := 0) (by decide +kernel)).trans (by norm_num),
      (val_bits (z := 0) (by decide +kernel)).trans (by norm_num),
      (val_bits (z := 65536) (by decide +kernel)).trans (by norm_num)⟩
  rowH := by
    refine ⟨(val_bits (z := 65536) (by decide +kernel)).trans (by norm_num),
      (val_bits (z := 0) (by decide +kernel)).trans (by norm_num),
      (val_bits (z := 0) (by decide +kernel)).trans (by norm_num)⟩

theorem zip_shuffle {α β γ : Type} (ks : List α) (ms : List β) (es : List γ) :
    ks.zip (ms.zip es) = ((ks.zip ms).zip es).map fun d => (d.1.1, d.1.2, d.2) := by
  induction ks generalizing ms es with
  | nil => rfl
  | cons k ks ih =>
    cases ms with
    | nil => rfl
    | cons m ms =>
      cases es with
      | nil => rfl
      | cons e es => simp [ih]

/-- The watched run of the program. -/
theorem fixed_run (bld : Build) {errs : List (Watched 16)} (hlen : errs.length = 15)
    (he : ∀ e ∈ errs, e.clean = true ∧ |e.num.val| ≤ 4) :
    ∃ f o x P, (do let (f, o) ← fixedStart bld; gravityLoop bld f o (fixedDistance.zip errs)) = .ok (f, o) ∧
      f.x.RepsV x ∧ f.P.Reps P ∧ (∀ i, (x i).clean = true) ∧ (∀ i j, (P i j).clean = true) ∧
      9 < (x 2).num.val ∧ (x 2).num.val < 10 := by
  have b1 : (buildRegularKalman bld : Res (RegularKalman 3 (Watched 16))) = .ok (staticKalman 0) := by
    rcases bld with ⟨_ | _, _ | _⟩ <;> rfl
  have b3 : (buildRegularObservation bld : Res (RegularObservation 3 1 (Watched 16))) = .ok (staticObservation 0) := by
    rcases bld with ⟨_ | _, _ | _⟩ <;> rfl
  obtain ⟨f, h1, h2⟩ := gravityFilter_any (.fresh (fromNum (1 / 2)) : Watched 16) (.fresh (fromNum (1 / 10))) (.fresh (fromNum 6))
  obtain ⟨o, h3, h4⟩ := gravityObservation_any (.fresh (fromNum (1 / 2)) : Watched 16)
  have hs : fixedStart bld = .ok (f, o) := by
    simp only [fixedStart, b1, b3, res_bind_ok, h1, h3]; rfl
  have hc := gainsCheck_true bld
  simp only [gainsCheck, hs, res_bind_ok] at hc
  split at hc
  case h_2 => cases hc
  rename_i ks p hg
  simp only [Bool.and_eq_true, beq_iff_eq, List.all_eq_true, decide_eq_true_eq] at hc
  obtain ⟨⟨⟨c1, c2⟩, c3⟩, c4, c5⟩ := hc
  have hfv : f.Valid := ⟨h2.x.valid, h2.A.valid, h2.P.valid, h2.Q.valid, h2.predictedX, h2.tempP⟩
  have hov : o.Valid := ⟨h4.H.valid, h4.z.valid, h4.R.valid, h4.y, h4.S, h4.K, h4.tempSInv, h4.tempHP, h4.tempPHt, h4.tempKHP⟩
  have hd : (fixedDistance.zip errs).length = 15 := by
    rw [List.length_zip, hlen]; rfl
  obtain ⟨g', q', t1, t2, t3⟩ := loop_track bld (fixedDistance.zip errs) hfv hfv hov hov h2.A h2.A h4.H (Mat.Agree.refl _)
    (Mat.Agree.refl _) (Mat.Agree.refl _) (Mat.Agree.refl _) h2.x (by rw [hd]; exact hg)
  refine ⟨g', q', _, _, ?_, t2, t3, ?_⟩
  · rw [hs, res_bind_ok]; exact t1
  have hz : (ks.zip (fixedDistance.zip errs)) = (((ks.zip fixedDistance).reverse.zip errs.reverse).reverse).map
      fun d => (d.1.1, d.1.2, d.2) := by
    rw [zip_shuffle, List.zip, List.zip, List.reverse_zipWith, List.reverse_reverse, List.reverse_reverse]
    rw [List.length_reverse, List.length_reverse, hlen, ← List.zip, List.length_zip, c2]; rfl
  rw [hz, List.foldl_map, List.foldl_reverse]
  obtain ⟨k1, k2⟩ := track_bounds fixed_consts (x := ![0, 0, .fresh (fromNum 6)])
    (fun i => by fin_cases i <;> decide +kernel)
    ⟨(val_bits (z := 0) (by decide +kernel)).trans (by norm_num), (val_bits (z := 0) (by decide +kernel)).trans (by norm_num),
      (val_bits (z := 393216) (by decide +kernel)).trans (by norm_num)⟩
    ((ks.zip fixedDistance).reverse) errs.reverse
    (by rw [List.length_reverse, List.length_reverse, List.length_zip, c2, hlen]; rfl)
    (fun e h => he e (List.mem_reverse.1 h)) c1
  refine ⟨k1, fun i j => ?_, ?_⟩
  · unfold Spec.matOf
    cases hm : p[(i : Nat) * 3 + (j : Nat)]? with
    | none => rfl
    | some w => exact c3 w (List.mem_of_getElem? hm)
  · have k3 := k2 (0, 0, 1)
    rw [abs_le] at k3
    generalize bounds (0, 0, 1) (ks.zip fixedDistance).reverse = b at k3 c4 c5
    have c4' : (9 : ℝ) < b.1 - (b.2.1 + 4 * b.2.2) := by exact_mod_cast c4
    have c5' : (b.1 + (b.2.1 + 4 * b.2.2) : ℝ) < 10 := by exact_mod_cast c5
    simp only [Functional.at, Rat.cast_zero, zero_mul, zero_add, Rat.cast_one, one_mul] at k3
    exact ⟨by linarith [k3.1], by linarith [k3.2]⟩

theorem forall₂_zip {α β γ δ : Type} {r : α → γ → Prop} {s : β → δ → Prop} {as : List α} {bs : List β} {cs : List γ}
    {ds : List δ} (h1 : List.Forall₂ r as cs) (h2 : List.Forall₂ s bs ds) :
    List.Forall₂ (fun a b => r a.1 b.1 ∧ s a.2 b.2) (as.zip bs) (cs.zip ds) := by
  induction h1 generalizing bs ds with
  | nil => exact .nil
  | cons h _ ih =>
    cases h2 with
    | nil => exact .nil
    | cons h' h2 => exact .cons ⟨h, h'⟩ (ih h2)

end Examples

end Minikalman
