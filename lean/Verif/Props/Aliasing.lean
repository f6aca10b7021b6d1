import Verif.Proofs.Aliasing
import Verif.Props.History

/-!
# Properties C56, C57: temporaries that share memory
-/

set_option linter.unusedSectionVars false

namespace Minikalman

variable {T : Type} {n m : Nat}

/-! ## C56: the documented aliasing contract of an observation -/

/-- C56: place the four temporaries of an observation in memory so that the two documented prohibitions are respected
(`temp_S_inv` and `temp_PHt` differ, `temp_HP` and `temp_KHP` differ; anything else may coincide). Then `correct` panics
exactly when it panics with separate temporaries, with the same panic, and otherwise leaves bit for bit the same `x`, `P`,
`y`, `S` and `K`. No other memory region is written and the model inputs are kept. Any element type. -/
theorem C56_documented_aliasing_is_harmless [Zero T] [One T] [Add T] [Sub T] [Mul T] [Neg T] [MDT T] (bld : Build)
    {o : RegularObservation n m T} {rg : TempRegions} {h : Memory T} {x : Mat n 1 T} {P : Mat n n T} (hn : 0 < n)
    (hm : 0 < m) (ho : o.Valid) (hx : x.Valid) (hP : P.Valid) (hc : rg.Contract) (hf : rg.Fits n m h) :
    (∃ e, o.correct bld x P = .error e ∧ o.correctShared bld rg h x P = .error e) ∨
    ∃ o₁ o₂ h' x' P', o.correct bld x P = .ok (o₁, x', P') ∧ o.correctShared bld rg h x P = .ok (o₂, h', x', P') ∧
      o₁.y = o₂.y ∧ o₁.S = o₂.S ∧ o₁.K = o₂.K ∧ o₂.H = o.H ∧ o₂.z = o.z ∧ o₂.R = o.R ∧
      ∀ k, k ≠ rg.sInv → k ≠ rg.hp → k ≠ rg.pht → k ≠ rg.khp → h' k = h k := by
  rcases correctShared_rel bld hn hm ho hx hP hc hf with he | ⟨⟨o₁, x', P'⟩, ⟨o₂, h', x'', P''⟩, h1, h2, hy, hS, hK, hH, hz,
    hR, hxx, hPP, hk, _⟩
  · exact .inl he
  · dsimp only at hxx hPP
    subst hxx; subst hPP
    exact .inr ⟨o₁, o₂, h', x', P', h1, h2, hy, hS, hK, hH, hz, hR, hk⟩

/-- Two regions only: `temp_S_inv` with `temp_HP`, `temp_PHt` with `temp_KHP`. -/
example : (⟨0, 0, 1, 1⟩ : TempRegions).Contract ∧
    (⟨0, 0, 1, 1⟩ : TempRegions).Fits 2 1 (fun _ => [7, 7, 7, 7, 7] : Memory ℚ) ∧
    ((Ex.obs ℚ).correctShared ⟨true, false⟩ ⟨0, 0, 1, 1⟩ (fun _ => [7, 7, 7, 7, 7]) (Ex.filter ℚ).x (Ex.filter ℚ).P).map
      (fun r => (r.1.K.data, r.2.1 0, r.2.1 1, r.2.2.1.data, r.2.2.2.data)) =
    .ok ([1/4, 0], [1, 0, 7, 7, 7], [1/4, 0, 0, 0, 7], [2, 2, 77], [3/4, 0, 0, 1, 78]) :=
  ⟨⟨by decide, by decide⟩, ⟨by decide, by decide, by decide, by decide⟩, by decide +kernel⟩

/-- An observation of the sum of both states: `H = (1 1)`, `R = 2`. -/
def Ex.sumObs : RegularObservation 2 1 ℚ where
  H := ⟨[1, 1]⟩
  z := ⟨[0]⟩
  R := ⟨[2]⟩
  y := ⟨[0]⟩
  S := ⟨[0]⟩
  K := ⟨[0, 0]⟩
  tempSInv := ⟨[0]⟩
  tempHP := ⟨[0, 0]⟩
  tempPHt := ⟨[0, 0]⟩
  tempKHP := ⟨[0, 0, 0, 0]⟩

/-- C56, the prohibition for `temp_S_inv` and `temp_PHt` is needed: with both in one region (everything else separate)
the gain, the state and the covariance are wrong. -/
theorem C56_sInv_pht_must_differ :
    (⟨0, 1, 0, 2⟩ : TempRegions).hp ≠ (⟨0, 1, 0, 2⟩ : TempRegions).khp ∧
    (⟨0, 1, 0, 2⟩ : TempRegions).Fits 2 1 (fun _ => [0, 0, 0, 0] : Memory ℚ) ∧
    ((Ex.obs ℚ).correct ⟨true, false⟩ (Ex.filter ℚ).x (Ex.filter ℚ).P).map
      (fun r => (r.1.K.data, r.2.1.data, r.2.2.data)) = .ok ([1/4, 0], [2, 2, 77], [3/4, 0, 0, 1, 78]) ∧
    ((Ex.obs ℚ).correctShared ⟨true, false⟩ ⟨0, 1, 0, 2⟩ (fun _ => [0, 0, 0, 0]) (Ex.filter ℚ).x (Ex.filter ℚ).P).map
      (fun r => (r.1.K.data, r.2.2.1.data, r.2.2.2.data)) = .ok ([1, 0], [5, 2, 77], [0, 0, 0, 1, 78]) :=
  ⟨by decide, ⟨by decide, by decide, by decide, by decide⟩, by decide +kernel, by decide +kernel⟩

/-- C56, the prohibition for `temp_HP` and `temp_KHP` is needed: with both in one region (everything else separate) the
covariance is wrong, and not even symmetric. -/
theorem C56_hp_khp_must_differ :
    (⟨0, 1, 2, 1⟩ : TempRegions).sInv ≠ (⟨0, 1, 2, 1⟩ : TempRegions).pht ∧
    (⟨0, 1, 2, 1⟩ : TempRegions).Fits 2 1 (fun _ => [0, 0, 0, 0] : Memory ℚ) ∧
    (Ex.sumObs.correct ⟨true, false⟩ ⟨[0, 0]⟩ ⟨[1, 0, 0, 1]⟩).map (fun r => r.2.2.data) =
      .ok [3/4, -1/4, -1/4, 3/4] ∧
    (Ex.sumObs.correctShared ⟨true, false⟩ ⟨0, 1, 2, 1⟩ (fun _ => [0, 0, 0, 0]) ⟨[0, 0]⟩ ⟨[1, 0, 0, 1]⟩).map
      (fun r => r.2.2.2.data) = .ok [3/4, -1/4, -1/16, 15/16] :=
  ⟨by decide, ⟨by decide, by decide, by decide, by decide⟩, by decide +kernel, by decide +kernel⟩

/-! ## C57: sharing temporaries between objects -/

/-- C57: let anything overwrite temporaries (and the output buffers `y`, `S`, `K`) between any two calls of any program:
other filters, controls or observations that use the same memory. The program panics exactly when it would without the
interference, and otherwise `x`, `P` and all model inputs of filter, controls and observations are bit for bit the same
after every step. Any element type. -/
theorem C57_sharing_temporaries_is_harmless [Zero T] [One T] [Add T] [Sub T] [Mul T] [Neg T] [MDT T] (bld : Build)
    {scribble : Nat → World n T → World n T} (hsc : OnlyTemporaries scribble) {w : World n T} (hw : w.Valid)
    {ops : List (Op T)} (hops : ∀ op ∈ ops, op.WellFormed w) :
    (∃ e, w.run bld ops = .error e ∧ w.runScribbled bld scribble 0 ops = .error e) ∨
    ∃ w₁ w₂, w.run bld ops = .ok w₁ ∧ w.runScribbled bld scribble 0 ops = .ok w₂ ∧ w₁.InputsEq w₂ :=
  run_scribbled bld hsc 0 hw hw (World.InputsEq.refl w) hops

/-- Interference that is allowed: before each call the call number is written into every cell of every temporary. -/
def Ex.scribble (T : Type) [NatCast T] (k : Nat) (w : World n T) : World n T :=
  { kf := { w.kf with tempP := ⟨w.kf.tempP.data.map fun _ => (k : T)⟩
                      predictedX := ⟨w.kf.predictedX.data.map fun _ => (k : T)⟩ }
    ctl := w.ctl.map fun c => ⟨c.1, { c.2 with tempBQ := ⟨c.2.tempBQ.data.map fun _ => (k : T)⟩ }⟩
    obs := w.obs.map fun o => ⟨o.1, { o.2 with
      tempSInv := ⟨o.2.tempSInv.data.map fun _ => (k : T)⟩
      tempHP := ⟨o.2.tempHP.data.map fun _ => (k : T)⟩
      tempPHt := ⟨o.2.tempPHt.data.map fun _ => (k : T)⟩
      tempKHP := ⟨o.2.tempKHP.data.map fun _ => (k : T)⟩ }⟩ }

theorem Ex.scribble_ok (T : Type) [NatCast T] : OnlyTemporaries (n := n) (Ex.scribble T) := by
  intro k w
  refine ⟨⟨rfl, rfl, rfl, rfl, ?_, ?_⟩, fun hw => ⟨hw.states, ?_, ?_, ?_⟩⟩
  · simp only [Ex.scribble, List.forall₂_map_right_iff]
    exact List.forall₂_same.mpr fun c _ => .mk rfl rfl rfl
  · simp only [Ex.scribble, List.forall₂_map_right_iff]
    exact List.forall₂_same.mpr fun c _ => .mk rfl rfl rfl
  · have h := hw.kf
    have h1 := h.predictedX
    have h2 := h.tempP
    exact ⟨h.x, h.A, h.P, h.Q, by simpa [Mat.Valid, Ex.scribble] using h1, by simpa [Mat.Valid, Ex.scribble] using h2⟩
  · intro c hc
    simp only [Ex.scribble, List.mem_map] at hc
    obtain ⟨d, hd, rfl⟩ := hc
    have h := hw.ctl d hd
    have h1 := h.tempBQ
    exact ⟨h.B, h.u, h.Q, by simpa [Mat.Valid] using h1⟩
  · intro c hc
    simp only [Ex.scribble, List.mem_map] at hc
    obtain ⟨d, hd, rfl⟩ := hc
    obtain ⟨h0, h⟩ := hw.obs d hd
    have h1 := h.tempSInv
    have h2 := h.tempHP
    have h3 := h.tempPHt
    have h4 := h.tempKHP
    exact ⟨h0, h.H, h.z, h.R, h.y, h.S, h.K, by simpa [Mat.Valid] using h1, by simpa [Mat.Valid] using h2,
      by simpa [Mat.Valid] using h3, by simpa [Mat.Valid] using h4⟩

example : OnlyTemporaries (n := 2) (Ex.scribble ℚ) ∧ (Ex.world ℚ).Valid ∧
    (∀ op ∈ Ex.ops ℚ, op.WellFormed (Ex.world ℚ)) ∧
    (Ex.scribble ℚ 5 (Ex.world ℚ)).kf.tempP.data = [5, 5, 5, 5] ∧
    ((Ex.world ℚ).runScribbled ⟨true, false⟩ (Ex.scribble ℚ) 5 [.correct 0, .predict, .control 0]).map
      (fun w => (w.kf.x.data, w.kf.P.data, w.kf.tempP.data)) =
    ((Ex.world ℚ).run ⟨true, false⟩ [.correct 0, .predict, .control 0]).map
      (fun w => (w.kf.x.data, w.kf.P.data, [7, 7, 7, 7])) :=
  ⟨Ex.scribble_ok ℚ, (Ex.world_reps ℚ).valid, Ex.ops_wellFormed ℚ, by decide +kernel, by decide +kernel⟩

end Minikalman
