import Verif.Spec.PartsExtended
import Verif.Proofs.PartsRun
import Verif.Proofs.ExtendedHistory

/-! # An extended filter that contains a smaller one -/

set_option linter.unusedSectionVars false

namespace Minikalman

open Matrix

variable {T σ τ : Type} {n k m : Nat}
variable [Zero T] [One T] [Add T] [Sub T] [Mul T] [Neg T] [MDT T]

theorem xframe {f f' : ExtendedKalman n T} {x A P Q x' P'} (h : f.asRegular.Reps x A P Q) (hA : f'.A = f.A) (hQ : f'.Q = f.Q)
    (hx : f'.x.RepsV x') (hP : f'.P.Reps P') (hp : f.predictedX.data.length = f'.predictedX.data.length) (ht : f.tempP.SameTail f'.tempP) :
    f'.asRegular.Reps x' A P' Q :=
  ⟨hx, by show f'.A.Reps A; rw [hA]; exact h.A, hP, by show f'.Q.Reps Q; rw [hQ]; exact h.Q, by
    show n * 1 ≤ f'.predictedX.data.length
    rw [← hp]; exact h.predictedX, ht.valid h.tempP⟩

theorem xpredict_part (hz : Spec.ZeroExact T) {p : Fin k → Fin n} (hp : StrictMono p) {f : ExtendedKalman n T} {g : ExtendedKalman k T}
    (hn : 0 < n) (hk : 0 < k) {x A P Q x' A' P' Q'} (hf : f.asRegular.Reps x A P Q) (hg : g.asRegular.Reps x' A' P' Q')
    (hx : ∀ a, x' a = x (p a)) (hA : Spec.Block p p A A') (hP : Spec.Block p p P P') (hQ : Spec.Block p p Q Q')
    {c : σ → Mat n 1 T → Mat n 1 T → Res (σ × Mat n 1 T)} {c' : τ → Mat k 1 T → Mat k 1 T → Res (τ × Mat k 1 T)} {F F'}
    (hc : Computes c F) (hc' : Computes c' F') (hF : ∀ x a, F' (fun b => x (p b)) a = F x (p a)) (st : σ) (st' : τ) :
    Rel2 (f.predictNonlinear c st) (g.predictNonlinear c' st') (fun a b => ∃ X Pn X' Pn', a.2.asRegular.Reps X A Pn Q ∧
      b.2.asRegular.Reps X' A' Pn' Q' ∧ (∀ a, X' a = X (p a)) ∧ Spec.Block p p Pn Pn') := by
  obtain rfl : x' = fun a => x (p a) := funext hx
  obtain ⟨s1, y1, a1, a2, a3⟩ := hc st f.x f.predictedX x hf.x hf.predictedX
  obtain ⟨s2, y2, b1, b2, b3⟩ := hc' st' g.x g.predictedX _ hg.x hg.predictedX
  obtain ⟨f', h1, h2, h3, h4, h5, h6, _, _, h7⟩ := xpredict_run hn hf.valid a1 a3 a2 hf.A hf.P hf.Q
  obtain ⟨g', k1, k2, k3, k4, k5, k6, _, _, k7⟩ := xpredict_run hk hg.valid b1 b3 b2 hg.A hg.P hg.Q
  exact rel2_of_ok h1 k1 ⟨_, _, _, _, xframe hf h5 h6 h2 h3 (by rw [h4, a3]) h7, xframe hg k5 k6 k2 k3 (by rw [k4, b3]) k7, hF x,
    Spec.Block.add hz (Spec.Block.mul hz hp (Spec.Block.mul hz hp hA hP) hA.transpose) hQ⟩

theorem xpredictTuned_part (hz : Spec.ZeroExact T) {p : Fin k → Fin n} (hp : StrictMono p) (lambda : T) {f : ExtendedKalman n T}
    {g : ExtendedKalman k T} (hn : 0 < n) (hk : 0 < k) {x A P Q x' A' P' Q'} (hf : f.asRegular.Reps x A P Q)
    (hg : g.asRegular.Reps x' A' P' Q') (hx : ∀ a, x' a = x (p a)) (hA : Spec.Block p p A A') (hP : Spec.Block p p P P')
    (hQ : Spec.Block p p Q Q') {c : σ → Mat n 1 T → Mat n 1 T → Res (σ × Mat n 1 T)}
    {c' : τ → Mat k 1 T → Mat k 1 T → Res (τ × Mat k 1 T)} {F F'}
    (hc : Computes c F) (hc' : Computes c' F') (hF : ∀ x a, F' (fun b => x (p b)) a = F x (p a)) (st : σ) (st' : τ) :
    Rel2 (f.predictTunedNonlinear lambda c st) (g.predictTunedNonlinear lambda c' st') (fun a b => ∃ X Pn X' Pn',
      a.2.asRegular.Reps X A Pn Q ∧ b.2.asRegular.Reps X' A' Pn' Q' ∧ (∀ a, X' a = X (p a)) ∧ Spec.Block p p Pn Pn') := by
  obtain rfl : x' = fun a => x (p a) := funext hx
  obtain ⟨s1, y1, a1, a2, a3⟩ := hc st f.x f.predictedX x hf.x hf.predictedX
  obtain ⟨s2, y2, b1, b2, b3⟩ := hc' st' g.x g.predictedX _ hg.x hg.predictedX
  cases hφ : MDT.recip (lambda * lambda) with
  | error e => exact Or.inl ⟨e, xpredictTuned_panic hn hf.valid lambda hφ a1 a3, xpredictTuned_panic hk hg.valid lambda hφ b1 b3⟩
  | ok φ =>
    obtain ⟨f', h1, h2, h3, h4, h5, h6, _, _, h7⟩ := xpredictTuned_run hn hf.valid lambda hφ a1 a3 a2 hf.A hf.P hf.Q
    obtain ⟨g', k1, k2, k3, k4, k5, k6, _, _, k7⟩ := xpredictTuned_run hk hg.valid lambda hφ b1 b3 b2 hg.A hg.P hg.Q
    exact rel2_of_ok h1 k1 ⟨_, _, _, _, xframe hf h5 h6 h2 h3 (by rw [h4, a3]) h7, xframe hg k5 k6 k2 k3 (by rw [k4, b3]) k7, hF x,
      Spec.Block.add hz (Spec.Block.scale hz φ (Spec.Block.mul hz hp (Spec.Block.mul hz hp hA hP) hA.transpose)) hQ⟩

theorem with_y_reps {o : RegularObservation n m T} {H z R} (h : o.Reps H z R) {y : Mat m 1 T} (hy : y.Valid) :
    ({ o with y := y } : RegularObservation n m T).Reps H z R :=
  ⟨h.H, h.z, h.R, hy, h.S, h.K, h.tempSInv, h.tempHP, h.tempPHt, h.tempKHP⟩

theorem xcorrect_part (hz : Spec.ZeroExact T) (bld : Build) {p : Fin k → Fin n} (hp : StrictMono p) {f : ExtendedKalman n T}
    {g : ExtendedKalman k T} {o : ExtendedObservation n m T} {d : ExtendedObservation k m T} (hm : 0 < m)
    {x A P Q x' A' P' Q' H z R H'} (hf : f.asRegular.Reps x A P Q) (hg : g.asRegular.Reps x' A' P' Q') (ho : o.asRegular.Reps H z R)
    (hd : d.asRegular.Reps H' z R) (hx : ∀ a, x' a = x (p a)) (hP : Spec.Block p p P P') (hH : Spec.Block id p H H')
    {c : σ → Mat n 1 T → Mat m 1 T → Res (σ × Mat m 1 T)} {c' : τ → Mat k 1 T → Mat m 1 T → Res (τ × Mat m 1 T)} {F F'}
    (hc : Computes c F) (hc' : Computes c' F') (hF : ∀ x, F' (fun b => x (p b)) = F x) (st : σ) (st' : τ) :
    Rel2 (f.correctNonlinear bld o c st) (g.correctNonlinear bld d c' st') (fun a b => ∃ X Pn X' Pn', a.2.1.asRegular.Reps X A Pn Q ∧
      b.2.1.asRegular.Reps X' A' Pn' Q' ∧ a.2.2.asRegular.Reps H z R ∧ b.2.2.asRegular.Reps H' z R ∧ (∀ a, X' a = X (p a)) ∧
      Spec.Block p p Pn Pn') := by
  obtain rfl : x' = fun a => x (p a) := funext hx
  obtain ⟨s1, y1, a1, a2, a3⟩ := hc st f.x o.y x hf.x ho.y
  obtain ⟨s2, y2, b1, b2, b3⟩ := hc' st' g.x d.y _ hg.x hd.y
  obtain ⟨y1', a4, a5, a6⟩ := Mat.subInplaceB_repsV ho.z a2
  obtain ⟨y2', b4, b5, b6⟩ := Mat.subInplaceB_repsV hd.z b2
  rw [hF x] at b5
  rw [xcorrect_run bld a1 a4, xcorrect_run bld b1 b4]
  have hor := with_y_reps ho a5.valid
  have hdr := with_y_reps hd b5.valid
  refine (update_part hz bld hp (o := { o.asRegular with y := y1' }) (o' := { d.asRegular with y := y2' }) hm hor.valid hdr.valid ho.H ho.R hf.P hf.x
    a5 hd.H hd.R hg.P hg.x b5 hx hP hH).bind ?_
  rintro ⟨o1, x1, P1⟩ ⟨d1, x2, P2⟩ ⟨_, _, _, _, r1, r2, r3, r4, r5, r6, f1, f2, r7, r8, r9, r10⟩
  exact Rel2.ok ⟨_, _, _, _, hf.of_frame (frame_xP r7 r9) r1 r2, hg.of_frame (frame_xP r8 r10) r3 r4, hor.of_frame f1, hdr.of_frame f2, r5, r6⟩

theorem xcorrect_other (hz : Spec.ZeroExact T) (bld : Build) {p : Fin k → Fin n} {f f' : ExtendedKalman n T}
    {o o' : ExtendedObservation n m T} (hm : 0 < m) {x A P Q H z R} {x' : Fin k → T} {P' : Matrix (Fin k) (Fin k) T}
    (hf : f.asRegular.Reps x A P Q) (ho : o.asRegular.Reps H z R) (hx : ∀ a, x' a = x (p a)) (hP : Spec.Block p p P P')
    (hH : ∀ b a, H b (p a) = 0) {c : σ → Mat n 1 T → Mat m 1 T → Res (σ × Mat m 1 T)} (hc : KeepsLength c) {st st' : σ}
    (h : f.correctNonlinear bld o c st = .ok (st', f', o')) :
    ∃ X Pn, f'.asRegular.Reps X A Pn Q ∧ o'.asRegular.Reps H z R ∧ (∀ a, x' a = X (p a)) ∧ Spec.Block p p Pn P' := by
  obtain ⟨y, y', x1, P1, h1, h2, h3, rfl⟩ := xcorrect_ok bld h
  have hy : y.Valid := by
    show m * 1 ≤ y.data.length
    rw [hc _ _ _ _ _ h1]; exact ho.y
  obtain ⟨y2, h4, h5, _⟩ := Mat.subInplaceB_repsV ho.z hy.repsV
  obtain rfl : y' = y2 := Except.ok.inj (h2.symm.trans h4)
  have hor := with_y_reps ho h5.valid
  obtain ⟨_, _, _, W, _, _, _, _, _, _, h7, h8⟩ := update_any bld (o := { o.asRegular with y := y' }) hm hor.valid ho.H ho.R hf.P hf.x h5 _ h3
  rcases update_part hz bld strictMono_id (o := { o.asRegular with y := y' }) (o' := { o.asRegular with y := y' }) hm hor.valid hor.valid ho.H ho.R
    hf.P hf.x h5 ho.H ho.R hf.P hf.x h5 (fun _ => rfl) (Spec.Block.refl _) (Spec.Block.refl _) with ⟨e, he, _⟩ | ⟨a, b, ha, _, hab⟩
  · exact absurd (h3.symm.trans he) (by intro h; cases h)
  obtain rfl : (o'.asRegular, x1, P1) = a := Except.ok.inj (h3.symm.trans ha)
  obtain ⟨_, _, _, _, _, _, _, _, _, _, k2, _, k3, _, k4, _⟩ := hab
  have hPH : ∀ a b, Spec.mulSeq P Hᵀ (p a) b = 0 := by
    intro a b
    refine dotFrom_zeros hz 0 fun i => ?_
    by_cases hi : ∃ c, i = p c
    · obtain ⟨c, rfl⟩ := hi
      rw [Matrix.transpose_apply, hH, hz.mul_zero]
    · rw [hP.rows a i (fun c hc => hi ⟨c, hc⟩), hz.zero_mul]
  have hHP : ∀ b a, Spec.mulSeq H P b (p a) = 0 := by
    intro b a
    refine dotFrom_zeros hz 0 fun i => ?_
    by_cases hi : ∃ c, i = p c
    · obtain ⟨c, rfl⟩ := hi
      rw [hH, hz.zero_mul]
    · rw [hP.cols i a (fun c hc => hi ⟨c, hc⟩), hz.mul_zero]
  have hK : ∀ a b, Spec.mulSeq (Spec.mulSeq P Hᵀ) W (p a) b = 0 := fun a b =>
    dotFrom_zeros hz 0 fun i => by rw [hPH, hz.zero_mul]
  refine ⟨_, _, hf.of_frame (frame_xP k3 k4) h7 h8, hor.of_frame k2, fun a => ?_,
    hP.keepSub hz (fun a j => dotFrom_zeros hz 0 fun i => by rw [hK, hz.zero_mul]) fun i b =>
      dotFrom_zeros hz 0 fun j => by rw [hHP, hz.mul_zero]⟩
  rw [Pi.add_apply, hx]
  have : Spec.mulVecSeq (Spec.mulSeq (Spec.mulSeq P Hᵀ) W) (fun i => z i - y.cell i 0) (p a) = 0 := by
    show Spec.dotFirst _ _ = 0
    rw [dotFirst_dotFrom hz]
    exact dotFrom_zeros hz 0 fun j => by rw [hK, hz.zero_mul]
  exact (hz.add_zero _).symm.trans (congrArg _ this.symm)

/-! ## Histories -/

/-- As `World.PartOf`. -/
abbrev XWorld.PartOf (p : Fin k → Fin n) (g : Spec.Share) (ms : List Nat) (w : XWorld n T σ) (v : XWorld k T τ) : Prop :=
  World.PartOf p g [] ms w.asRegular v.asRegular

theorem xget {w : XWorld n T σ} {i : Nat} {m : Nat} {o : RegularObservation n m T} (h : w.asRegular.obs[i]? = some ⟨m, o⟩) :
    w.obs[i]? = some ⟨m, o.asExtended⟩ := by
  have h : (w.obs.map fun o => (⟨o.1, o.2.asRegular⟩ : (m : Nat) × RegularObservation n m T))[i]? = some ⟨m, o⟩ := h
  rw [List.getElem?_map] at h
  cases hi : w.obs[i]? with
  | none => rw [hi] at h; cases h
  | some a => rw [hi] at h; cases h; rfl

theorem xlen {w : XWorld n T σ} : w.asRegular.obs.length = w.obs.length := List.length_map ..

theorem xstep_part (hz : Spec.ZeroExact T) (bld : Build) {p : Fin k → Fin n} (hp : StrictMono p) {g : Spec.Share} {ms : List Nat}
    {w : XWorld n T σ} {v : XWorld k T τ} (h0 : XWorld.PartOf p g ms w v) {op : XOp n T σ} {op' : XOp k T τ} (ho : XOp.Part p g ms op op')
    (hop : op.WellFormed w) (hop' : op'.WellFormed v) : Rel2 (w.step bld op) (v.step bld op') (XWorld.PartOf p g ms) := by
  obtain ⟨s, t, hs, ht, hst, hl, hm⟩ := id h0
  cases ho with
  | predict hc hc' hF =>
    simp only [XWorld.step]
    refine (xpredict_part hz hp hs.states ht.states hs.kf ht.kf hst.x hst.A hst.P hst.Q hc hc' hF w.env v.env).bind ?_
    rintro a b ⟨X, Pn, X', Pn', h1, h2, h3, h4⟩
    exact Rel2.pure ⟨{ s with x := X, P := Pn }, { t with x := X', P := Pn' }, ⟨hs.states, h1, hs.ctl, hs.obs⟩, ⟨ht.states, h2, ht.ctl, ht.obs⟩, hst.newXP h3 h4, hl, hm⟩
  | predictTuned lambda hc hc' hF =>
    simp only [XWorld.step]
    refine (xpredictTuned_part hz hp lambda hs.states ht.states hs.kf ht.kf hst.x hst.A hst.P hst.Q hc hc' hF w.env v.env).bind ?_
    rintro a b ⟨X, Pn, X', Pn', h1, h2, h3, h4⟩
    exact Rel2.pure ⟨{ s with x := X, P := Pn }, { t with x := X', P := Pn' }, ⟨hs.states, h1, hs.ctl, hs.obs⟩, ⟨ht.states, h2, ht.ctl, ht.obs⟩, hst.newXP h3 h4, hl, hm⟩
  | correct i j hij hc hc' hF =>
    have hop : i < w.asRegular.obs.length := by rw [xlen]; exact hop
    obtain ⟨c, hi⟩ : ∃ c, w.asRegular.obs[i]? = some c := ⟨_, List.getElem?_eq_getElem hop⟩
    obtain ⟨sc, hsi, hrc⟩ := forall₂_get hs.obs hi
    obtain ⟨sd, htj, hcd⟩ := hst.obsIn i j sc hij hsi
    obtain ⟨d, hj, hrd⟩ := forall₂_get' ht.obs htj
    cases hrc with | @mk m c sc hm0 hrc =>
    cases hcd with | @mk _ _ sd hH hzz hR =>
    cases hrd with | @mk _ d _ _ hrd =>
    simp only [XWorld.step, xget hi, xget hj]
    rw [hzz, hR] at hrd
    refine (xcorrect_part hz bld hp hm0 hs.kf ht.kf (o := c.asExtended) (d := d.asExtended) hrc hrd hst.x hst.P hH (hc m) (hc' m) (hF m) w.env v.env).bind ?_
    rintro ⟨e1, f1, c1⟩ ⟨e2, g1, d1⟩ ⟨X, Pn, X', Pn', h1, h2, h3, h4, h5, h6⟩
    refine Rel2.pure ⟨{ s with x := X, P := Pn }, { t with x := X', P := Pn' }, ⟨hs.states, h1, hs.ctl, ?_⟩, ⟨ht.states, h2, ht.ctl, ?_⟩, hst.newXP h5 h6, hl, hm⟩
    · show List.Forall₂ _ ((w.obs.set i ⟨m, c1⟩).map _) s.obs
      rw [xasRegular_set, ← list_set_self hsi]
      exact forall₂_set hs.obs i (.mk hm0 h3)
    · show List.Forall₂ _ ((v.obs.set j ⟨m, d1⟩).map _) t.obs
      rw [xasRegular_set, ← list_set_self htj]
      exact forall₂_set ht.obs j (.mk hm0 (by rw [hzz, hR]; exact h4))
  | assign a a' h =>
    have := step_part hz bld hp h0 h hop hop'
    rw [← xassign_eq, ← xassign_eq] at this
    show Rel2 (w.assign a) (v.assign a') _
    revert this
    cases w.assign a with
    | error e =>
      cases v.assign a' with
      | error e' =>
        rintro (⟨e2, h1, h2⟩ | ⟨x, y, h1, _⟩)
        · cases h1; cases h2; exact Or.inl ⟨_, rfl, rfl⟩
        · cases h1
      | ok v' =>
        rintro (⟨e2, _, h2⟩ | ⟨x, y, h1, _⟩)
        · cases h2
        · cases h1
    | ok w' =>
      cases v.assign a' with
      | error e' =>
        rintro (⟨e2, h1, _⟩ | ⟨x, y, _, h2, _⟩)
        · cases h1
        · cases h2
      | ok v' =>
        rintro (⟨e2, h1, _⟩ | ⟨x, y, h1, h2, h3⟩)
        · cases h1
        · cases h1; cases h2; exact Rel2.ok h3

theorem xstep_other (hz : Spec.ZeroExact T) (bld : Build) {p : Fin k → Fin n} {g : Spec.Share} {ms : List Nat}
    {w w' : XWorld n T σ} {v : XWorld k T τ} (h0 : XWorld.PartOf p g ms w v) {op : XOp n T σ} (ho : XOp.Other p g ms op)
    (hop : op.WellFormed w) (hk : op.KeepsLength) (h : w.step bld op = .ok w') : XWorld.PartOf p g ms w' v := by
  obtain ⟨s, t, hs, ht, hst, hl, hm⟩ := id h0
  cases op with
  | predict _ => exact ho.elim
  | predictTuned _ _ => exact ho.elim
  | assign a =>
    refine step_other hz bld h0 ho hop (w' := w'.asRegular) ?_
    rw [← xassign_eq]
    show (w.assign a).map _ = _
    rw [show w.assign a = .ok w' from h]
    rfl
  | correct i c0 =>
    have hop : i < w.asRegular.obs.length := by rw [xlen]; exact hop
    obtain ⟨c, hi⟩ : ∃ c, w.asRegular.obs[i]? = some c := ⟨_, List.getElem?_eq_getElem hop⟩
    obtain ⟨sc, hsi, hrc⟩ := forall₂_get hs.obs hi
    have ho0 := hst.obsOut i sc ho hsi
    cases hrc with | @mk m c sc hm0 hrc =>
    simp only [XWorld.step, xget hi] at h
    obtain ⟨⟨e, f', c'⟩, h1, h⟩ := bind_ok h
    cases h
    obtain ⟨X, Pn, h2, h3, h4, h5⟩ := xcorrect_other hz bld hm0 hs.kf (o := c.asExtended) hrc hst.x hst.P ho0 (hk m) h1
    refine ⟨{ s with x := X, P := Pn }, t, ⟨hs.states, h2, hs.ctl, ?_⟩, ht,
      ⟨h4, hst.A, h5, hst.Q, hst.ctlIn, hst.ctlOut, hst.obsIn, hst.obsOut⟩, hl, hm⟩
    show List.Forall₂ _ ((w.obs.set i ⟨m, c'⟩).map _) s.obs
    rw [xasRegular_set, ← list_set_self hsi]
    exact forall₂_set hs.obs i (.mk hm0 h3)

theorem XPartOf.valid {p : Fin k → Fin n} {g : Spec.Share} {ms : List Nat} {w : XWorld n T σ} {v : XWorld k T τ}
    (h : XWorld.PartOf p g ms w v) : w.Valid ∧ v.Valid := Minikalman.PartOf.valid h

/-- A history. -/
theorem xrun_part (hz : Spec.ZeroExact T) (bld : Build) {p : Fin k → Fin n} (hp : StrictMono p) {g : Spec.Share} {ms : List Nat}
    {w w' : XWorld n T σ} {v : XWorld k T τ} (h : XWorld.PartOf p g ms w v) {ops : List (XOp n T σ)} {ops' : List (XOp k T τ)}
    (ho : XOp.Parts p g ms ops ops') (hops : ∀ op ∈ ops, op.WellFormed w ∧ op.KeepsLength)
    (hops' : ∀ op ∈ ops', op.WellFormed v ∧ op.KeepsLength) (hr : w.run bld ops = .ok w') :
    ∃ v', v.run bld ops' = .ok v' ∧ XWorld.PartOf p g ms w' v' := by
  induction ho generalizing w v with
  | nil => cases hr; exact ⟨v, rfl, h⟩
  | part h1 _ ih =>
    unfold XWorld.run at hr ⊢
    obtain ⟨a, ha, hr⟩ := bind_ok hr
    rcases xstep_part hz bld hp h h1 (hops _ (by simp)).1 (hops' _ (by simp)).1 with ⟨e, he, _⟩ | ⟨a', b, ha', hb, hab⟩
    · rw [ha] at he; cases he
    · rw [ha] at ha'; cases ha'
      have s1 := (xstep_ok (XPartOf.valid h).1 (hops _ (by simp)).1 (hops _ (by simp)).2 ha).2
      have s2 := (xstep_ok (XPartOf.valid h).2 (hops' _ (by simp)).1 (hops' _ (by simp)).2 hb).2
      rw [hb]
      exact ih hab (fun o hm => ⟨(hops o (by simp [hm])).1.congr s1, (hops o (by simp [hm])).2⟩)
        (fun o hm => ⟨(hops' o (by simp [hm])).1.congr s2, (hops' o (by simp [hm])).2⟩) hr
  | other h1 _ ih =>
    unfold XWorld.run at hr
    obtain ⟨a, ha, hr⟩ := bind_ok hr
    have hab := xstep_other hz bld h h1 (hops _ (by simp)).1 (hops _ (by simp)).2 ha
    have s1 := (xstep_ok (XPartOf.valid h).1 (hops _ (by simp)).1 (hops _ (by simp)).2 ha).2
    exact ih hab (fun o hm => ⟨(hops o (by simp [hm])).1.congr s1, (hops o (by simp [hm])).2⟩) hops' hr

/-- If every call concerns one of the parts, and no part panics, then the large filter does not panic. -/
theorem xrun_parts (hz : Spec.ZeroExact T) (bld : Build) {ι : Type} {κ : ι → Nat} {τ : ι → Type} {p : ∀ i, Fin (κ i) → Fin n}
    (hp : ∀ i, StrictMono (p i)) {g : ι → Spec.Share} {ms : List Nat} {w : XWorld n T σ} {v : ∀ i, XWorld (κ i) T (τ i)}
    (h : ∀ i, XWorld.PartOf (p i) (g i) ms w (v i)) {ops : List (XOp n T σ)} {ops' : ∀ i, List (XOp (κ i) T (τ i))}
    (ho : ∀ i, XOp.Parts (p i) (g i) ms ops (ops' i)) (hc : ∀ op ∈ ops, ∃ i, ¬ XOp.Other (p i) (g i) ms op)
    (hops : ∀ op ∈ ops, op.WellFormed w ∧ op.KeepsLength) (hops' : ∀ i, ∀ op ∈ ops' i, op.WellFormed (v i) ∧ op.KeepsLength)
    (hr : ∀ i, ∃ v', (v i).run bld (ops' i) = .ok v') : ∃ w', w.run bld ops = .ok w' := by
  induction ops generalizing w v ops' with
  | nil => exact ⟨w, rfl⟩
  | cons op ops ih =>
    obtain ⟨i0, hi0⟩ := hc op (by simp)
    have hw : ∃ a, w.step bld op = .ok a := by
      have := ho i0
      have hw' := hops' i0
      obtain ⟨v', hv'⟩ := hr i0
      generalize ops' i0 = l at *
      cases this with
      | part h1 h2 =>
        unfold XWorld.run at hv'
        obtain ⟨b, hb, _⟩ := bind_ok hv'
        rcases xstep_part hz bld (hp i0) (h i0) h1 (hops _ (by simp)).1 (hw' _ (by simp)).1 with ⟨e, _, he⟩ | ⟨a', b, ha', _, _⟩
        · rw [hb] at he; cases he
        · exact ⟨a', ha'⟩
      | other h1 h2 => exact absurd h1 hi0
    obtain ⟨a, ha⟩ := hw
    have next : ∀ i, ∃ (u : XWorld (κ i) T (τ i)) (l : List (XOp (κ i) T (τ i))), XWorld.PartOf (p i) (g i) ms a u ∧
        XOp.Parts (p i) (g i) ms ops l ∧ (∀ o ∈ l, o.WellFormed u ∧ o.KeepsLength) ∧ ∃ v', u.run bld l = .ok v' := by
      intro i
      have := ho i
      have hw' := hops' i
      obtain ⟨v', hv'⟩ := hr i
      generalize ops' i = l at *
      cases this with
      | part h1 h2 =>
        unfold XWorld.run at hv'
        obtain ⟨b, hb, hv'⟩ := bind_ok hv'
        rcases xstep_part hz bld (hp i) (h i) h1 (hops _ (by simp)).1 (hw' _ (by simp)).1 with ⟨e, _, he⟩ | ⟨a', b', ha', hb', hab⟩
        · rw [hb] at he; cases he
        · rw [ha] at ha'; cases ha'
          rw [hb] at hb'; cases hb'
          have s2 := (xstep_ok (XPartOf.valid (h i)).2 (hw' _ (by simp)).1 (hw' _ (by simp)).2 hb).2
          exact ⟨b, _, hab, h2, fun o hm => ⟨(hw' o (by simp [hm])).1.congr s2, (hw' o (by simp [hm])).2⟩, v', hv'⟩
      | other h1 h2 => exact ⟨v i, _, xstep_other hz bld (h i) h1 (hops _ (by simp)).1 (hops _ (by simp)).2 ha, h2, hw', v', hv'⟩
    choose u l q1 q2 q3 q4 using next
    have s1 := (xstep_ok (XPartOf.valid (h i0)).1 (hops _ (by simp)).1 (hops _ (by simp)).2 ha).2
    obtain ⟨w', hw'⟩ := ih q1 q2 (fun o hm => hc o (by simp [hm]))
      (fun o hm => ⟨(hops o (by simp [hm])).1.congr s1, (hops o (by simp [hm])).2⟩) q3 q4
    refine ⟨w', ?_⟩
    unfold XWorld.run
    rw [ha]
    exact hw'

end Minikalman
