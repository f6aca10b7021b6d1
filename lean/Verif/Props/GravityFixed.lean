import Verif.Proofs.GravityFixedRun

/-!
# Property C88: the fixed point gravity program finds the acceleration, whatever the measurement errors are

The program of `/repo/crates/minikalman/examples/gravity_fixed.rs` in the `I16F16` arithmetic it uses: products rounded down,
overflows wrapping around.
-/

set_option linter.unusedSectionVars false

namespace Minikalman

open Examples FixedPoint

/-- C88: whatever the 15 measurement errors are, as long as none is larger than 4 in magnitude (the errors in the program are
below 0.9), `examples/gravity_fixed.rs` does not panic, and its assertion on the estimated acceleration holds, in the
wrapping fixed point arithmetic the program uses. -/
theorem C88_gravity_fixed (bld : Build) {errs : List I16F16} (hlen : errs.length = 15) (he : ∀ e ∈ errs, |e.val| ≤ 4) :
    ∃ g, gravityFixedExample bld (fromNum (1 / 2)) (fromNum (1 / 10)) (fromNum 6) ((realDistance.map fromNum).zip errs) = .ok g ∧
      9 < g.val ∧ g.val < 10 := by
  obtain ⟨f, o, x, P, h1, h2, h3, _, _, h6, h7⟩ := fixed_run bld (errs := errs.map .fresh) (by simpa using hlen)
    (by
      intro e h
      obtain ⟨a, ha, rfl⟩ := List.mem_map.1 h
      exact ⟨rfl, he a ha⟩)
  have hr := Watched.scalarRel (f := 16)
  have rel : Rel2 (do let (f, o) ← fixedStart bld; gravityLoop bld f o (fixedDistance.zip (errs.map .fresh)))
      (gravityFixedRun bld (fromNum (1 / 2)) (fromNum (1 / 10)) (fromNum 6) ((realDistance.map fromNum).zip errs))
      (fun a b => a.1.Related (fun (w : Watched 16) (a : FixedPoint 16) => w.num = a) b.1 ∧ a.2.Related (fun (w : Watched 16) (a : FixedPoint 16) => w.num = a) b.2) := by
    unfold fixedStart gravityFixedRun
    simp only [bind_assoc, pure_bind]
    refine Rel2.bind (Param.buildRegularKalman_rel (r := fun (w : Watched 16) a => w.num = a) rfl bld) fun _ _ hk => ?_
    refine Rel2.bind (Param.buildRegularObservation_rel (r := fun (w : Watched 16) a => w.num = a) rfl bld) fun _ _ ho => ?_
    refine Rel2.bind (gravityFilter_rel hr rfl rfl rfl hk) fun _ _ hk => ?_
    refine Rel2.bind (gravityObservation_rel hr rfl ho) fun _ _ ho => ?_
    refine gravityLoop_rel hr bld hk ho (forall₂_zip (r := fun (w : Watched 16) a => w.num = a) (s := fun (w : Watched 16) a => w.num = a) ?_ ?_)
    · unfold fixedDistance
      rw [List.forall₂_map_left_iff, List.forall₂_map_right_iff]
      exact List.forall₂_same.2 fun _ _ => rfl
    · rw [List.forall₂_map_left_iff]
      exact List.forall₂_same.2 fun _ _ => rfl
  rw [h1] at rel
  rcases rel with ⟨e, h, _⟩ | ⟨a, b, ha, hb, hx, _⟩
  · cases h
  cases ha
  obtain ⟨v, hv, hv'⟩ : ∃ v, b.1.x.index 2 = .ok v ∧ v = (x 2).num := by
    have h2' : rd f.x.data 2 = .ok (x 2) := rd_eq (h2 2)
    rcases Param.rel2_rd hx.x 2 with ⟨e, h, _⟩ | ⟨u, v, h, h', huv⟩
    · change rd f.x.data 2 = _ at h; rw [h2'] at h; cases h
    · change rd f.x.data 2 = _ at h; rw [h2'] at h; cases h
      exact ⟨v, h', huv.symm⟩
  refine ⟨v, ?_, by rw [hv']; exact h6, by rw [hv']; exact h7⟩
  unfold gravityFixedExample
  rw [hb]; exact hv

/-- C88: in this run no operation leaves the range of the type: every entry of the state and the covariance at the end has been
computed without an overflow. -/
theorem C88_gravity_fixed_no_overflow (bld : Build) {errs : List I16F16} (hlen : errs.length = 15)
    (he : ∀ e ∈ errs, |e.val| ≤ 4) :
    ∃ f o x P, gravityFixedRun bld (.fresh (fromNum (1 / 2)) : Watched 16) (.fresh (fromNum (1 / 10))) (.fresh (fromNum 6))
        (((realDistance.map fromNum).zip errs).map fun d => (.fresh d.1, .fresh d.2)) = .ok (f, o) ∧
      f.x.RepsV x ∧ f.P.Reps P ∧ (∀ i, (x i).clean = true) ∧ ∀ i j, (P i j).clean = true := by
  obtain ⟨f, o, x, P, h1, h2, h3, h4, h5, _⟩ := fixed_run bld (errs := errs.map .fresh) (by simpa using hlen)
    (by
      intro e h
      obtain ⟨a, ha, rfl⟩ := List.mem_map.1 h
      exact ⟨rfl, he a ha⟩)
  refine ⟨f, o, x, P, ?_, h2, h3, h4, h5⟩
  have e : ((realDistance.map (fromNum (f := 16))).zip errs).map (fun d => (Watched.fresh d.1, Watched.fresh d.2)) =
      (realDistance.map fun q => Watched.fresh (fromNum q)).zip (errs.map Watched.fresh) := by
    rw [show (realDistance.map fun q => Watched.fresh (fromNum (f := 16) q)) =
      (realDistance.map (fromNum (f := 16))).map Watched.fresh by rw [List.map_map]; rfl, List.zip_map]
    rfl
  rw [e, ← h1]
  unfold fixedStart fixedDistance gravityFixedRun
  simp only [bind_assoc, pure_bind]

/-- C88: in particular with the errors written in the program. -/
theorem C88_gravity_fixed_program (bld : Build) :
    ∃ g : I16F16, gravityFixedExample bld (fromNum (1 / 2)) (fromNum (1 / 10)) (fromNum 6)
      ((realDistance.map fromNum).zip (observationError.map fromNum)) = .ok g ∧ 9 < g.val ∧ g.val < 10 := by
  refine C88_gravity_fixed bld rfl ?_
  have h : ∀ e ∈ observationError.map (fromNum (f := 16)), |e.bits.toInt| ≤ 4 * 65536 := by decide +kernel
  intro e he
  have h1 : |(e.bits.toInt : ℝ)| ≤ 4 * 65536 := by exact_mod_cast h e he
  unfold val
  rw [abs_div, abs_of_pos (show (0 : ℝ) < 2 ^ 16 by norm_num), div_le_iff₀ (by norm_num)]
  norm_num at h1 ⊢
  exact h1

/-- The bound on the errors cannot be dropped: if the object is seen 300 m too far at the end, the assertion fails. -/
example : (gravityFixedExample ⟨true, false⟩ (fromNum (1 / 2)) (fromNum (1 / 10)) (fromNum 6)
    ((realDistance.map (fromNum (f := 16))).zip (List.replicate 14 0 ++ [fromNum 300]))).toOption.map
      (fun g => decide (g.bits.toInt < 10 * 65536)) = some false := by decide +kernel

end Minikalman
