import Verif.Proofs.ExtendedShared
import Verif.Props.Aliasing
import Verif.Props.ExtendedHistory

/-!
# Property C99: temporaries of extended filters

Which memory may be shared, what closures must not do, and what no step touches. Any element type.
-/

set_option linter.unusedSectionVars false

namespace Minikalman

variable {T σ : Type} {n m : Nat} [Zero T] [One T] [Add T] [Sub T] [Mul T] [Neg T] [MDT T]

/-- C99: the documented contract for the temporaries of an extended observation. If the two prohibitions are respected, then
`correct_nonlinear` panics exactly when it panics with separate temporaries, with the same panic, and otherwise leaves bit for bit the
same `x`, `P`, `y`, `S`, `K` and captured state of the closure. No other memory region is written and the model inputs are kept.
The closure may be anything (it sees neither temporaries nor other regions), as long as it does not change the buffer's length. -/
theorem C99_documented_aliasing_is_harmless (bld : Build) {o : ExtendedObservation n m T} {rg : TempRegions} {h : Memory T}
    {x : Mat n 1 T} {P : Mat n n T} (hm : 0 < m) (ho : o.asRegular.Valid) (hx : x.Valid) (hP : P.Valid) (hc : rg.Contract)
    (hf : rg.Fits n m h) {g : σ → Mat n 1 T → Mat m 1 T → Res (σ × Mat m 1 T)} (hg : KeepsLength g) (st : σ) :
    (∃ e, o.correctNonlinear bld x P g st = .error e ∧ o.correctShared bld rg h x P g st = .error e) ∨
    ∃ st' o₁ o₂ h' x' P', o.correctNonlinear bld x P g st = .ok (st', o₁, x', P') ∧
      o.correctShared bld rg h x P g st = .ok (st', o₂, h', x', P') ∧
      o₁.y = o₂.y ∧ o₁.S = o₂.S ∧ o₁.K = o₂.K ∧ o₂.H = o.H ∧ o₂.z = o.z ∧ o₂.R = o.R ∧
      ∀ k, k ≠ rg.sInv → k ≠ rg.hp → k ≠ rg.pht → k ≠ rg.khp → h' k = h k := by
  rcases xcorrectShared_rel bld hm ho hx hP hc hf hg st with he | ⟨⟨s1, o₁, x', P'⟩, ⟨s2, o₂, h', x'', P''⟩, h1, h2, hs, hy, hS, hK,
    hH, hz, hR, hxx, hPP, hk⟩
  · exact .inl he
  · dsimp only at hxx hPP hs
    subst hxx; subst hPP; subst hs
    exact .inr ⟨s1, o₁, o₂, h', x', P', h1, h2, hy, hS, hK, hH, hz, hR, hk⟩

/-- C99: let anything overwrite temporaries (and the output buffers `y`, `S`, `K`) between any two calls of a program with an extended
filter. If the closures fill their outputs without reading them first, the program panics exactly when it would without the
interference, and otherwise `x`, `P`, all model inputs and the state captured by the closures are bit for bit the same. -/
theorem C99_sharing_temporaries_is_harmless (bld : Build) {scribble : Nat → XWorld n T σ → XWorld n T σ}
    (hsc : OnlyXTemporaries scribble) {w : XWorld n T σ} (hw : w.Valid) {ops : List (XOp n T σ)}
    (hops : ∀ op ∈ ops, op.WellFormed w) (hk : ∀ op ∈ ops, op.KeepsLength) (hc : ∀ op ∈ ops, op.Overwrites) :
    (∃ e, w.run bld ops = .error e ∧ w.runScribbled bld scribble 0 ops = .error e) ∨
    ∃ w₁ w₂, w.run bld ops = .ok w₁ ∧ w.runScribbled bld scribble 0 ops = .ok w₂ ∧ w₁.InputsEq w₂ :=
  xrun_scribbled bld hsc 0 hw hw ⟨World.InputsEq.refl _, rfl⟩ hops hk hc

/-- C99: a single call of two programs that differ in their temporaries (and `y`, `S`, `K`) only. -/
theorem C99_temporaries_do_not_leak (bld : Build) {w w' : XWorld n T σ} (hw : w.Valid) (hw' : w'.Valid) (h : w.InputsEq w')
    {op : XOp n T σ} (hop : op.WellFormed w) (hk : op.KeepsLength) (hc : op.Overwrites) :
    (∃ e, w.step bld op = .error e ∧ w'.step bld op = .error e) ∨
    ∃ v v', w.step bld op = .ok v ∧ w'.step bld op = .ok v' ∧ v.InputsEq v' :=
  xstep_inputs bld hw hw' h hop hk hc

/-- C99: no step changes the length or a surplus cell of any buffer, except where the closure itself does so in the buffer it is given
(`predictedX`, `y`); and `A`, `Q`, `H`, `z`, `R` are not changed at all. -/
theorem C99_surplus (bld : Build) {f f' : ExtendedKalman n T} {st st' : σ} (hn : 0 < n) (hf : f.asRegular.Valid) :
    (∀ g, KeepsLength g → f.predictNonlinear g st = .ok (st', f') → f'.A = f.A ∧ f'.Q = f.Q ∧ f.x.SameTail f'.x ∧
      f.P.SameTail f'.P ∧ f.tempP.SameTail f'.tempP ∧ g st f.x f.predictedX = .ok (st', f'.predictedX)) ∧
    (∀ lambda g, KeepsLength g → f.predictTunedNonlinear lambda g st = .ok (st', f') → f'.A = f.A ∧ f'.Q = f.Q ∧ f.x.SameTail f'.x ∧
      f.P.SameTail f'.P ∧ f.tempP.SameTail f'.tempP ∧ g st f.x f.predictedX = .ok (st', f'.predictedX)) ∧
    (∀ (m : Nat) (o o' : ExtendedObservation n m T) g, 0 < m → o.asRegular.Valid → KeepsLength g →
      f.correctNonlinear bld o g st = .ok (st', f', o') → f' = { f with x := f'.x, P := f'.P } ∧ f.x.SameTail f'.x ∧
        f.P.SameTail f'.P ∧ ∃ y, g st f.x o.y = .ok (st', y) ∧
          ({ o with y := y } : ExtendedObservation n m T).asRegular.Frame o'.asRegular) := by
  refine ⟨fun g hg h => ?_, fun lambda g hg h => ?_, fun m o o' g hm ho hg h => ?_⟩
  · cases hr : g st f.x f.predictedX with
    | error e => rw [xpredictX_error hr] at h; cases h
    | ok r =>
      obtain ⟨s1, px⟩ := r
      have hl := hg _ _ _ _ _ hr
      have hv : px.Valid := (show n * 1 ≤ f.predictedX.data.length from hf.predictedX).trans_eq hl.symm
      obtain ⟨f2, k1, _, _, k4, k5, k6, k7, k8, k9⟩ := xpredict_run hn hf hr hl hv.repsV hf.A.reps hf.P.reps hf.Q.reps
      rw [k1] at h; cases h
      exact ⟨k5, k6, k7, k8, k9, by rw [k4]⟩
  · cases hr : g st f.x f.predictedX with
    | error e => rw [xpredictTunedX_error lambda hr] at h; cases h
    | ok r =>
      obtain ⟨s1, px⟩ := r
      have hl := hg _ _ _ _ _ hr
      have hv : px.Valid := (show n * 1 ≤ f.predictedX.data.length from hf.predictedX).trans_eq hl.symm
      cases hφ : MDT.recip (lambda * lambda) with
      | error e => rw [xpredictTuned_panic hn hf lambda hφ hr hl] at h; cases h
      | ok φ =>
        obtain ⟨f2, k1, _, _, k4, k5, k6, k7, k8, k9⟩ :=
          xpredictTuned_run hn hf lambda hφ hr hl hv.repsV hf.A.reps hf.P.reps hf.Q.reps
        rw [k1] at h; cases h
        exact ⟨k5, k6, k7, k8, k9, by rw [k4]⟩
  · obtain ⟨y, y', x', P', h1, h2, h3, rfl⟩ := xcorrect_ok bld h
    have hl := hg _ _ _ _ _ h1
    have hv : y.Valid := (show m * 1 ≤ o.y.data.length from ho.y).trans_eq hl.symm
    obtain ⟨y2, a1, a2, a3⟩ := Mat.subInplaceB_repsV ho.z.repsV hv.repsV
    have h2 : o.asRegular.z.subInplaceB y = .ok y' := h2
    rw [a1] at h2; cases h2
    have ho' : ({ o with y := y' } : ExtendedObservation n m T).asRegular.Valid :=
      ⟨ho.H, ho.z, ho.R, a3.valid hv, ho.S, ho.K, ho.tempSInv, ho.tempHP, ho.tempPHt, ho.tempKHP⟩
    rcases update_safe_frame bld hm ho' hf.x hf.P with ⟨e, he, _⟩ | ⟨r, hr, f1, f2, f3⟩
    · have h3 : _ = _ := h3
      rw [show f.asRegular.x = f.x from rfl, show f.asRegular.P = f.P from rfl, h3] at he; cases he
    · rw [show f.asRegular.x = f.x from rfl, show f.asRegular.P = f.P from rfl, h3] at hr; cases hr
      refine ⟨rfl, f2, f3, y, h1, ⟨f1.H, f1.z, f1.R, a3.trans f1.y, f1.S, f1.K, f1.tempSInv, f1.tempHP, f1.tempPHt, f1.tempKHP⟩⟩

omit [One T] [Add T] [Sub T] [Mul T] [Neg T] [MDT T] in
/-- Every function is computed by a closure that overwrites its output. -/
theorem overwrites_closureOf {k : Nat} (g : (Fin n → T) → Fin k → T) : Overwrites (σ := σ) (closureOf g) := by
  intro st x out out' _ _
  refine Or.inr ⟨st, _, _, rfl, rfl, fun i j => ?_⟩
  have : (i : Nat) * 1 + (j : Nat) < k := by omega
  rw [List.getElem?_append_left (by simp), List.getElem?_append_left (by simp)]

namespace Ex

/-- Interference that is allowed: before each call the call number is written into every cell of every temporary, and of `y`. -/
def xscribble (T : Type) [NatCast T] (k : Nat) (w : XWorld n T σ) : XWorld n T σ :=
  { kf := { w.kf with tempP := ⟨w.kf.tempP.data.map fun _ => (k : T)⟩
                      predictedX := ⟨w.kf.predictedX.data.map fun _ => (k : T)⟩ }
    obs := w.obs.map fun o => ⟨o.1, { o.2 with
      y := ⟨o.2.y.data.map fun _ => (k : T)⟩
      tempSInv := ⟨o.2.tempSInv.data.map fun _ => (k : T)⟩
      tempHP := ⟨o.2.tempHP.data.map fun _ => (k : T)⟩
      tempPHt := ⟨o.2.tempPHt.data.map fun _ => (k : T)⟩
      tempKHP := ⟨o.2.tempKHP.data.map fun _ => (k : T)⟩ }⟩
    env := w.env }

omit [Zero T] [One T] [Add T] [Sub T] [Mul T] [Neg T] [MDT T] in
theorem xscribble_ok [NatCast T] : OnlyXTemporaries (n := n) (σ := σ) (Ex.xscribble T) := by
  intro k w
  refine ⟨⟨⟨rfl, rfl, rfl, rfl, .nil, ?_⟩, rfl⟩, fun hw => ⟨hw.states, ?_, ?_, ?_⟩⟩
  · simp only [xscribble, XWorld.asRegular, List.map_map, List.forall₂_map_right_iff, List.forall₂_map_left_iff]
    exact List.forall₂_same.mpr fun c _ => .mk rfl rfl rfl
  · have h := hw.kf
    have h1 := h.predictedX
    have h2 := h.tempP
    exact ⟨h.x, h.A, h.P, h.Q, by simpa [Mat.Valid, xscribble, XWorld.asRegular, ExtendedKalman.asRegular] using h1,
      by simpa [Mat.Valid, xscribble, XWorld.asRegular, ExtendedKalman.asRegular] using h2⟩
  · intro c hc
    cases hc
  · intro c hc
    simp only [xscribble, XWorld.asRegular, List.map_map, List.mem_map, Function.comp] at hc
    obtain ⟨d, hd, rfl⟩ := hc
    obtain ⟨h0, h⟩ := hw.obs ⟨d.1, d.2.asRegular⟩ (List.mem_map.mpr ⟨d, hd, rfl⟩)
    have h1 := h.tempSInv
    have h2 := h.tempHP
    have h3 := h.tempPHt
    have h4 := h.tempKHP
    have h5 := h.y
    exact ⟨h0, h.H, h.z, h.R, by simpa [Mat.Valid, ExtendedObservation.asRegular] using h5, h.S, h.K,
      by simpa [Mat.Valid, ExtendedObservation.asRegular] using h1, by simpa [Mat.Valid, ExtendedObservation.asRegular] using h2,
      by simpa [Mat.Valid, ExtendedObservation.asRegular] using h3, by simpa [Mat.Valid, ExtendedObservation.asRegular] using h4⟩

/-- A closure that accumulates: `|x, y| y[0] += x[0]`. -/
def accumulate {m : Nat} (st : Unit) (x : Mat 2 1 ℚ) (out : Mat m 1 ℚ) : Res (Unit × Mat m 1 ℚ) := do
  let v ← x.get 0 0
  let y ← out.get 0 0
  let out ← out.set 0 0 (y + v)
  pure (st, out)

/-- A closure that assigns: `|x, y| y[0] = x[0]`, leaving other cells as they are. -/
def assignFirst {m : Nat} (st : Unit) (x : Mat 2 1 ℚ) (out : Mat m 1 ℚ) : Res (Unit × Mat m 1 ℚ) := do
  let v ← x.get 0 0
  let out ← out.set 0 0 v
  pure (st, out)

end Ex

omit [One T] [Add T] [Sub T] [Mul T] [Neg T] [MDT T] in
theorem Ex.fill_overwrites {k : Nat} (f : Nat → Mat n 1 T → T) : Overwrites (Ex.fill (k := k) f) := by
  intro st x out out' h h'
  refine Or.inr ⟨st + 1, _, _, rfl, rfl, fun i j => ?_⟩
  have h1 : (i : Nat) * 1 + (j : Nat) < out.data.length := by have : k * 1 ≤ out.data.length := h; omega
  have h2 : (i : Nat) * 1 + (j : Nat) < out'.data.length := by have : k * 1 ≤ out'.data.length := h'; omega
  rw [List.getElem?_mapIdx, List.getElem?_mapIdx, List.getElem?_eq_getElem h1, List.getElem?_eq_getElem h2]
  rfl

/-- The hypotheses of `C99_sharing_temporaries_is_harmless` can be met, for any functions. -/
example (f : Nat → Mat 2 1 ℚ → ℚ) :
    OnlyXTemporaries (n := 2) (σ := Nat) (Ex.xscribble ℚ) ∧ ((Ex.world ℚ).asExtended 0).Valid ∧
    ∀ op ∈ ([.predict (Ex.fill f), .correct 0 (fun _ => Ex.fill f), .assign (.z 0 [3]), .predictTuned 2 (Ex.fill f)] :
      List (XOp 2 ℚ Nat)), op.KeepsLength ∧ op.Overwrites ∧ op.WellFormed ((Ex.world ℚ).asExtended 0) := by
  refine ⟨Ex.xscribble_ok, ⟨by decide, (Ex.filter_reps ℚ).valid, by simp [XWorld.asRegular], (Ex.world_reps ℚ).valid.obs⟩, ?_⟩
  simp only [List.mem_cons, List.not_mem_nil, or_false, forall_eq_or_imp, forall_eq]
  exact ⟨⟨(Ex.fill_ok f).1, Ex.fill_overwrites f, trivial⟩,
    ⟨fun m => (Ex.fill_ok f).1, fun m => Ex.fill_overwrites f, Nat.zero_lt_two⟩, ⟨trivial, trivial, rfl⟩,
    ⟨(Ex.fill_ok f).1, Ex.fill_overwrites f, trivial⟩⟩

/-- The hypotheses of `C99_documented_aliasing_is_harmless` can be met with two regions for four temporaries. -/
example : (⟨0, 0, 1, 1⟩ : TempRegions).Contract ∧
    (⟨0, 0, 1, 1⟩ : TempRegions).Fits 2 1 (fun _ => [7, 7, 7, 7, 7] : Memory ℚ) ∧ (Ex.obs ℚ).asExtended.asRegular.Valid ∧
    ((Ex.obs ℚ).asExtended.correctShared ⟨true, false⟩ ⟨0, 0, 1, 1⟩ (fun _ => [7, 7, 7, 7, 7]) (Ex.filter ℚ).x (Ex.filter ℚ).P
      Ex.assignFirst ()).map (fun r => (r.2.1.K.data, r.2.2.1 0, r.2.2.1 1, r.2.2.2.1.data, r.2.2.2.2.data)) =
    .ok ([1/4, 0], [1, 0, 7, 7, 7], [1/4, 0, 0, 0, 7], [2, 2, 77], [3/4, 0, 0, 1, 78]) :=
  ⟨⟨by decide, by decide⟩, ⟨by decide, by decide, by decide, by decide⟩, (Ex.obs_reps ℚ).valid, by decide +kernel⟩

/-- C99, the hypothesis on closures is needed: a closure that adds to its output instead of assigning reads what the previous
correction left in the innovation buffer, so a program without any sharing computes something else in its second correction,
and interference with `y` changes the estimate. -/
theorem C99_reading_closure_leaks :
    (((Ex.world ℚ).asExtended ()).run ⟨true, false⟩ [.correct 0 fun _ => Ex.accumulate]).map (fun w => w.kf.x.data) ≠
      (((Ex.world ℚ).asExtended ()).runScribbled ⟨true, false⟩ (Ex.xscribble ℚ) 1 [.correct 0 fun _ => Ex.accumulate]).map
        (fun w => w.kf.x.data) ∧
    (((Ex.world ℚ).asExtended ()).run ⟨true, false⟩ [.correct 0 fun _ => Ex.assignFirst]).map (fun w => w.kf.x.data) =
      (((Ex.world ℚ).asExtended ()).runScribbled ⟨true, false⟩ (Ex.xscribble ℚ) 1 [.correct 0 fun _ => Ex.assignFirst]).map
        (fun w => w.kf.x.data) ∧
    (((Ex.world ℚ).asExtended ()).run ⟨true, false⟩ [.correct 0 fun _ => Ex.assignFirst]).isOk = true := by
  decide +kernel

end Minikalman
