import Verif.Spec.Parts
import Verif.Proofs.HistoryRel
import Verif.Proofs.Poison
import Mathlib.Data.List.FinRange
import Mathlib.Order.Fin.Basic

/-! # A filter that contains a smaller one -/

set_option linter.unusedSectionVars false

namespace Minikalman

open Matrix

variable {T : Type} {n k m l R C U R' C' U' : Nat}

/-! ## Sums with additional zeros -/

theorem range_filter {p : Fin k → Fin n} (hp : StrictMono p) :
    (List.finRange n).filter (fun i => decide (∃ a, i = p a)) = (List.finRange k).map p := by
  refine List.Perm.eq_of_pairwise (le := fun a b => a < b) (fun a b _ _ h1 h2 => absurd h1 (lt_asymm h2)) ?_ ?_ ?_
  · exact (List.pairwise_lt_finRange n).filter _
  · exact List.pairwise_map.2 ((List.pairwise_lt_finRange k).imp fun h => hp h)
  · rw [List.perm_ext_iff_of_nodup ((List.nodup_finRange n).filter _) ((List.nodup_finRange k).map hp.injective)]
    intro i
    simp only [List.mem_filter, List.mem_finRange, true_and, decide_eq_true_eq, List.mem_map]
    exact ⟨fun ⟨a, h⟩ => ⟨a, h.symm⟩, fun ⟨a, h⟩ => ⟨a, h.symm⟩⟩

section Arith
variable [Zero T] [Add T] [Sub T] [Mul T]

theorem foldl_skip (hz : Spec.ZeroExact T) {ι : Type} (g : ι → T) (c : ι → Bool) (hg : ∀ i, c i = false → g i = 0) (l : List ι) (init : T) :
    l.foldl (fun acc i => acc + g i) init = (l.filter c).foldl (fun acc i => acc + g i) init := by
  induction l generalizing init with
  | nil => rfl
  | cons i l ih =>
    cases hc : c i with
    | true => rw [List.filter_cons_of_pos hc, List.foldl_cons, List.foldl_cons, ih]
    | false =>
      rw [List.filter_cons_of_neg (by simp [hc]), List.foldl_cons, hg i hc, hz.add_zero, ih]

omit [Zero T] [Add T] [Sub T] [Mul T] in
theorem foldl_list (f : T → Fin n → T) (init : T) : Fin.foldl n f init = (List.finRange n).foldl f init := by
  induction n generalizing init with
  | zero => rfl
  | succ n ih => rw [Fin.foldl_succ, ih, List.finRange_succ, List.foldl_cons, List.foldl_map]

theorem dotFrom_part (hz : Spec.ZeroExact T) {p : Fin k → Fin n} (hp : StrictMono p) (init : T) {v w : Fin n → T}
    (h : ∀ i, (∀ a, i ≠ p a) → v i * w i = 0) :
    Spec.dotFrom init v w = Spec.dotFrom init (fun a => v (p a)) (fun a => w (p a)) := by
  unfold Spec.dotFrom
  rw [foldl_list, foldl_list,
    foldl_skip hz (fun i => v i * w i) (fun i => decide (∃ a, i = p a)) (fun i hi => h i fun a ha => by
      rw [decide_eq_false_iff_not] at hi; exact hi ⟨a, ha⟩) _ init, range_filter hp, List.foldl_map]

theorem dotFirst_dotFrom (hz : Spec.ZeroExact T) (v w : Fin n → T) : Spec.dotFirst v w = Spec.dotFrom 0 v w := by
  cases n with
  | zero => rfl
  | succ n =>
    unfold Spec.dotFirst Spec.dotFrom
    rw [Fin.foldl_succ, hz.zero_add]

theorem dotFrom_zeros (hz : Spec.ZeroExact T) (init : T) {v w : Fin n → T} (h : ∀ i, v i * w i = 0) : Spec.dotFrom init v w = init := by
  have := dotFrom_part hz (k := 0) (p := fun a => a.elim0) (fun a => a.elim0) init (v := v) (w := w) fun i _ => h i
  rw [this]
  rfl

/-! ## Matrices -/

namespace Spec.Block
variable {p : Fin R' → Fin R} {q : Fin C' → Fin C} {r : Fin U' → Fin U}

theorem mul (hz : Spec.ZeroExact T) (hq : StrictMono q) {M : Matrix (Fin R) (Fin C) T} {N M2 N2} (h : Spec.Block p q M N)
    (h2 : Spec.Block q r M2 N2) : Spec.Block p r (Spec.mulSeq M M2) (Spec.mulSeq N N2) := by
  refine ⟨fun a b => ?_, fun a j hj => ?_, fun i b hi => ?_⟩
  · show Spec.dotFrom 0 _ _ = Spec.dotFrom 0 _ _
    rw [dotFrom_part hz hq 0 (v := fun j => M (p a) j) (w := fun j => M2 j (r b)) fun j hj => by rw [h.rows a j hj, hz.zero_mul]]
    congr 1
    · funext c; exact h.same a c
    · funext c; exact h2.same c b
  · refine dotFrom_zeros hz 0 fun i => ?_
    by_cases hi : ∃ c, i = q c
    · obtain ⟨c, rfl⟩ := hi
      rw [h2.rows c j hj, hz.mul_zero]
    · rw [h.rows a i (fun c hc => hi ⟨c, hc⟩), hz.zero_mul]
  · refine dotFrom_zeros hz 0 fun j => ?_
    by_cases hj : ∃ c, j = q c
    · obtain ⟨c, rfl⟩ := hj
      rw [h.cols i c hi, hz.zero_mul]
    · rw [h2.cols j b (fun c hc => hj ⟨c, hc⟩), hz.mul_zero]

theorem mulVec (hz : Spec.ZeroExact T) (hq : StrictMono q) {M : Matrix (Fin R) (Fin C) T} {N} {x : Fin C → T} {y : Fin C' → T}
    (h : Spec.Block p q M N) (hx : ∀ c, y c = x (q c)) (a : Fin R') : Spec.mulVecSeq N y a = Spec.mulVecSeq M x (p a) := by
  show Spec.dotFirst _ _ = Spec.dotFirst _ _
  rw [dotFirst_dotFrom hz, dotFirst_dotFrom hz,
    dotFrom_part hz hq 0 (v := fun j => M (p a) j) (w := x) fun j hj => by rw [h.rows a j hj, hz.zero_mul]]
  congr 1
  · funext c; exact h.same a c
  · funext c; exact hx c

omit [Add T] [Sub T] [Mul T] in
theorem transpose {M : Matrix (Fin R) (Fin C) T} {N} (h : Spec.Block p q M N) : Spec.Block q p Mᵀ Nᵀ :=
  ⟨fun a b => h.same b a, fun a j hj => h.cols j a hj, fun i b hi => h.rows b i hi⟩

theorem add (hz : Spec.ZeroExact T) {M M2 : Matrix (Fin R) (Fin C) T} {N N2} (h : Spec.Block p q M N) (h2 : Spec.Block p q M2 N2) :
    Spec.Block p q (M + M2) (N + N2) := by
  refine ⟨fun a b => ?_, fun a j hj => ?_, fun i b hi => ?_⟩
  · rw [Matrix.add_apply, Matrix.add_apply, h.same, h2.same]
  · rw [Matrix.add_apply, h.rows a j hj, h2.rows a j hj, hz.add_zero]
  · rw [Matrix.add_apply, h.cols i b hi, h2.cols i b hi, hz.add_zero]

theorem sub (hz : Spec.ZeroExact T) {M M2 : Matrix (Fin R) (Fin C) T} {N N2} (h : Spec.Block p q M N) (h2 : Spec.Block p q M2 N2) :
    Spec.Block p q (M - M2) (N - N2) := by
  refine ⟨fun a b => ?_, fun a j hj => ?_, fun i b hi => ?_⟩
  · rw [Matrix.sub_apply, Matrix.sub_apply, h.same, h2.same]
  · rw [Matrix.sub_apply, h.rows a j hj, h2.rows a j hj, hz.sub_zero]
  · rw [Matrix.sub_apply, h.cols i b hi, h2.cols i b hi, hz.sub_zero]

theorem scale (hz : Spec.ZeroExact T) (φ : T) {M : Matrix (Fin R) (Fin C) T} {N} (h : Spec.Block p q M N) :
    Spec.Block p q (Matrix.of fun i j => M i j * φ) (Matrix.of fun i j => N i j * φ) := by
  refine ⟨fun a b => ?_, fun a j hj => ?_, fun i b hi => ?_⟩
  · show N a b * φ = M (p a) (q b) * φ
    rw [h.same]
  · show M (p a) j * φ = 0
    rw [h.rows a j hj, hz.zero_mul]
  · show M i (q b) * φ = 0
    rw [h.cols i b hi, hz.zero_mul]

omit [Add T] [Sub T] [Mul T] in
theorem refl (M : Matrix (Fin R) (Fin C) T) : Spec.Block id id M M :=
  ⟨fun _ _ => rfl, fun _ j hj => absurd rfl (hj j), fun i _ hi => absurd rfl (hi i)⟩

/-- Adding what is zero in the rows and columns of the part. -/
theorem keep (hz : Spec.ZeroExact T) {M E : Matrix (Fin R) (Fin C) T} {N} (h : Spec.Block p q M N) (h1 : ∀ a j, E (p a) j = 0)
    (h2 : ∀ i b, E i (q b) = 0) : Spec.Block p q (M + E) N := by
  refine ⟨fun a b => ?_, fun a j hj => ?_, fun i b hi => ?_⟩
  · rw [Matrix.add_apply, h1, hz.add_zero, h.same]
  · rw [Matrix.add_apply, h1, hz.add_zero, h.rows a j hj]
  · rw [Matrix.add_apply, h2, hz.add_zero, h.cols i b hi]

theorem keepSub (hz : Spec.ZeroExact T) {M E : Matrix (Fin R) (Fin C) T} {N} (h : Spec.Block p q M N) (h1 : ∀ a j, E (p a) j = 0)
    (h2 : ∀ i b, E i (q b) = 0) : Spec.Block p q (M - E) N := by
  refine ⟨fun a b => ?_, fun a j hj => ?_, fun i b hi => ?_⟩
  · rw [Matrix.sub_apply, h1, hz.sub_zero, h.same]
  · rw [Matrix.sub_apply, h1, hz.sub_zero, h.rows a j hj]
  · rw [Matrix.sub_apply, h2, hz.sub_zero, h.cols i b hi]

end Spec.Block

end Arith

/-! ## Steps -/

section Steps
variable [Zero T] [One T] [Add T] [Sub T] [Mul T] [Neg T] [MDT T]

theorem RegularKalman.Reps.of_frame {f f' : RegularKalman n T} {x A P Q x' P'} (h : f.Reps x A P Q) (hF : f.Frame f') (hx : f'.x.RepsV x')
    (hP : f'.P.Reps P') : f'.Reps x' A P' Q :=
  ⟨hx, by rw [hF.A]; exact h.A, hP, by rw [hF.Q]; exact h.Q, hF.predictedX.valid h.predictedX, hF.tempP.valid h.tempP⟩

theorem predict_part (hz : Spec.ZeroExact T) {p : Fin k → Fin n} (hp : StrictMono p) {f : RegularKalman n T} {g : RegularKalman k T}
    (hn : 0 < n) (hk : 0 < k) {x A P Q x' A' P' Q'} (hf : f.Reps x A P Q) (hg : g.Reps x' A' P' Q') (hx : ∀ a, x' a = x (p a))
    (hA : Spec.Block p p A A') (hP : Spec.Block p p P P') (hQ : Spec.Block p p Q Q') :
    Rel2 f.predict g.predict (fun a b => ∃ X Pn X' Pn', a.Reps X A Pn Q ∧ b.Reps X' A' Pn' Q' ∧ (∀ a, X' a = X (p a)) ∧
      Spec.Block p p Pn Pn') := by
  obtain ⟨f1, h1, h2, h3, h4⟩ := predict_any hn hf.valid hf.x hf.A hf.P hf.Q
  obtain ⟨g1, k1, k2, k3, k4⟩ := predict_any hk hg.valid hg.x hg.A hg.P hg.Q
  exact rel2_of_ok h1 k1 ⟨_, _, _, _, hf.of_frame h4 h2 h3, hg.of_frame k4 k2 k3, hA.mulVec hz hp hx,
    Spec.Block.add hz (Spec.Block.mul hz hp (Spec.Block.mul hz hp hA hP) hA.transpose) hQ⟩

theorem predictTuned_part (hz : Spec.ZeroExact T) {p : Fin k → Fin n} (hp : StrictMono p) (lambda : T) {f : RegularKalman n T}
    {g : RegularKalman k T} (hn : 0 < n) (hk : 0 < k) {x A P Q x' A' P' Q'} (hf : f.Reps x A P Q) (hg : g.Reps x' A' P' Q')
    (hx : ∀ a, x' a = x (p a)) (hA : Spec.Block p p A A') (hP : Spec.Block p p P P') (hQ : Spec.Block p p Q Q') :
    Rel2 (f.predictTuned lambda) (g.predictTuned lambda) (fun a b => ∃ X Pn X' Pn', a.Reps X A Pn Q ∧ b.Reps X' A' Pn' Q' ∧
      (∀ a, X' a = X (p a)) ∧ Spec.Block p p Pn Pn') := by
  cases hφ : MDT.recip (lambda * lambda) with
  | error e => exact Or.inl ⟨e, predictTuned_error hn hf.valid lambda hφ, predictTuned_error hk hg.valid lambda hφ⟩
  | ok φ =>
    obtain ⟨f1, h1, h2, h3, h4⟩ := predictTuned_any hn hf.valid lambda hφ hf.x hf.A hf.P hf.Q
    obtain ⟨g1, k1, k2, k3, k4⟩ := predictTuned_any hk hg.valid lambda hφ hg.x hg.A hg.P hg.Q
    exact rel2_of_ok h1 k1 ⟨_, _, _, _, hf.of_frame h4 h2 h3, hg.of_frame k4 k2 k3, hA.mulVec hz hp hx,
      Spec.Block.add hz (Spec.Block.scale hz φ (Spec.Block.mul hz hp (Spec.Block.mul hz hp hA hP) hA.transpose)) hQ⟩

theorem control_part (hz : Spec.ZeroExact T) {p : Fin k → Fin n} {q : Fin l → Fin l} (hq : q = id) {f : RegularKalman n T}
    {g : RegularKalman k T} {c : Control n l T} {d : Control k l T} (hn : 0 < n) (hk : 0 < k) {x A P Q x' A' P' Q' B u Qc B'}
    (hf : f.Reps x A P Q) (hg : g.Reps x' A' P' Q') (hc : c.Reps B u Qc) (hd : d.Reps B' u Qc) (hx : ∀ a, x' a = x (p a))
    (hP : Spec.Block p p P P') (hB : Spec.Block p q B B') :
    Rel2 (f.control c) (g.control d) (fun a b => ∃ X Pn X' Pn', a.1.Reps X A Pn Q ∧ b.1.Reps X' A' Pn' Q' ∧ a.2.Reps B u Qc ∧
      b.2.Reps B' u Qc ∧ (∀ a, X' a = X (p a)) ∧ Spec.Block p p Pn Pn') := by
  subst hq
  have hid : StrictMono (id : Fin l → Fin l) := strictMono_id
  rcases Nat.eq_zero_or_pos l with h0 | hl
  · refine rel2_of_ok (x := (f, c)) (y := (g, d)) ?_ ?_ ⟨_, _, _, _, hf, hg, hc, hd, hx, hP⟩
    · unfold RegularKalman.control
      rw [control_empty (c := c) (Or.inl h0) f.x f.P]; rfl
    · unfold RegularKalman.control
      rw [control_empty (c := d) (Or.inl h0) g.x g.P]; rfl
  · obtain ⟨c1, x1, P1, h1, h2, h3, h4, h5, h6⟩ := control_any hn hl hc.valid hc.B hc.u hc.Q hf.x hf.P
    obtain ⟨d1, x2, P2, k1, k2, k3, k4, k5, k6⟩ := control_any hk hl hd.valid hd.B hd.u hd.Q hg.x hg.P
    refine rel2_of_ok (x := ({ f with x := x1, P := P1 }, c1)) (y := ({ g with x := x2, P := P2 }, d1)) ?_ ?_
      ⟨_, _, _, _, hf.of_frame (frame_xP h5 h6) h2 h3, hg.of_frame (frame_xP k5 k6) k2 k3,
        ⟨by rw [h4.B]; exact hc.B, by rw [h4.u]; exact hc.u, by rw [h4.Q]; exact hc.Q, h4.tempBQ.valid hc.tempBQ⟩,
        ⟨by rw [k4.B]; exact hd.B, by rw [k4.u]; exact hd.u, by rw [k4.Q]; exact hd.Q, k4.tempBQ.valid hd.tempBQ⟩, fun a => ?_,
        Spec.Block.add hz hP (Spec.Block.mul hz hid (Spec.Block.mul hz hid hB (Spec.Block.refl Qc)) hB.transpose)⟩
    · unfold RegularKalman.control
      rw [h1]; rfl
    · unfold RegularKalman.control
      rw [k1]; rfl
    · rw [Pi.add_apply, Pi.add_apply, hx, hB.mulVec hz hid (fun _ => rfl)]

/-- A control that has nothing to do with the part. -/
theorem control_other (hz : Spec.ZeroExact T) {p : Fin k → Fin n} {f : RegularKalman n T} {c : Control n l T} (hn : 0 < n)
    {x A P Q B u Qc} {x' : Fin k → T} {P' : Matrix (Fin k) (Fin k) T} (hf : f.Reps x A P Q) (hc : c.Reps B u Qc)
    (hx : ∀ a, x' a = x (p a)) (hP : Spec.Block p p P P') (hB : ∀ a j, B (p a) j = 0) :
    ∃ f' c' X Pn, f.control c = .ok (f', c') ∧ f'.Reps X A Pn Q ∧ c'.Reps B u Qc ∧ (∀ a, x' a = X (p a)) ∧ Spec.Block p p Pn P' := by
  rcases Nat.eq_zero_or_pos l with h0 | hl
  · refine ⟨f, c, _, _, ?_, hf, hc, hx, hP⟩
    unfold RegularKalman.control
    rw [control_empty (c := c) (Or.inl h0) f.x f.P]; rfl
  · obtain ⟨c1, x1, P1, h1, h2, h3, h4, h5, h6⟩ := control_any hn hl hc.valid hc.B hc.u hc.Q hf.x hf.P
    refine ⟨{ f with x := x1, P := P1 }, c1, _, _, ?_, hf.of_frame (frame_xP h5 h6) h2 h3,
        ⟨by rw [h4.B]; exact hc.B, by rw [h4.u]; exact hc.u, by rw [h4.Q]; exact hc.Q, h4.tempBQ.valid hc.tempBQ⟩, fun a => ?_, ?_⟩
    · unfold RegularKalman.control
      rw [h1]; rfl
    · rw [Pi.add_apply, hx]
      have : Spec.mulVecSeq B u (p a) = 0 := by
        show Spec.dotFirst _ _ = 0
        rw [dotFirst_dotFrom hz]
        exact dotFrom_zeros hz 0 fun j => by rw [hB, hz.zero_mul]
      rw [this, hz.add_zero]
    · exact hP.keep hz (fun a j => dotFrom_zeros hz 0 fun i => by
          rw [show Spec.mulSeq B Qc (p a) i = 0 from dotFrom_zeros hz 0 fun j => by rw [hB, hz.zero_mul], hz.zero_mul])
        fun i b => dotFrom_zeros hz 0 fun j => by rw [Matrix.transpose_apply, hB, hz.mul_zero]

/-! ### Corrections -/

theorem RegularObservation.Reps.of_frame {o o' : RegularObservation n m T} {H z R} (h : o.Reps H z R) (hF : o.Frame o') : o'.Reps H z R :=
  ⟨by rw [hF.H]; exact h.H, by rw [hF.z]; exact h.z, by rw [hF.R]; exact h.R, hF.y.valid h.y, hF.S.valid h.S, hF.K.valid h.K,
    hF.tempSInv.valid h.tempSInv, hF.tempHP.valid h.tempHP, hF.tempPHt.valid h.tempPHt, hF.tempKHP.valid h.tempKHP⟩

theorem update_part (hz : Spec.ZeroExact T) (bld : Build) {p : Fin k → Fin n} (hp : StrictMono p) {o : RegularObservation n m T}
    {o' : RegularObservation k m T} {x : Mat n 1 T} {x' : Mat k 1 T} {P : Mat n n T} {P' : Mat k k T} (hm : 0 < m) (ho : o.Valid)
    (ho' : o'.Valid) {H R Pm X Y H' Pm' X'} (hH : o.H.Reps H) (hR : o.R.Reps R) (hP : P.Reps Pm) (hX : x.RepsV X) (hY : o.y.RepsV Y)
    (hH' : o'.H.Reps H') (hR' : o'.R.Reps R) (hP' : P'.Reps Pm') (hX' : x'.RepsV X') (hY' : o'.y.RepsV Y) (hx : ∀ a, X' a = X (p a))
    (hPp : Spec.Block p p Pm Pm') (hHp : Spec.Block id p H H') :
    Rel2 (o.updateWithInnovation bld x P) (o'.updateWithInnovation bld x' P') (fun a b => ∃ Xn Pn Xn' Pn', a.2.1.RepsV Xn ∧
      a.2.2.Reps Pn ∧ b.2.1.RepsV Xn' ∧ b.2.2.Reps Pn' ∧ (∀ c, Xn' c = Xn (p c)) ∧ Spec.Block p p Pn Pn' ∧ o.Frame a.1 ∧ o'.Frame b.1 ∧
      x.SameTail a.2.1 ∧ x'.SameTail b.2.1 ∧ P.SameTail a.2.2 ∧ P'.SameTail b.2.2) := by
  obtain ⟨hp1, h1, h2, h3⟩ := Mat.mult_reps hH hP ho.tempHP
  obtain ⟨hp1', h1', h2', h3'⟩ := Mat.mult_reps hH' hP' ho'.tempHP
  obtain ⟨s, h4, h5, h6⟩ := Mat.multTransb_reps h2 hH ho.S
  obtain ⟨s', h4', h5', h6'⟩ := Mat.multTransb_reps h2' hH' ho'.S
  obtain ⟨s2, h7, h8, h9⟩ := Mat.addInplaceA_reps h5 hR
  obtain ⟨s2', h7', h8', h9'⟩ := Mat.addInplaceA_reps h5' hR'
  obtain ⟨pht, h10, h11, h12⟩ := Mat.multTransb_reps hP hH ho.tempPHt
  obtain ⟨pht', h10', h11', h12'⟩ := Mat.multTransb_reps hP' hH' ho'.tempPHt
  obtain ⟨hq, h13, h14, h15⟩ := Mat.mult_reps hH hP (h3.valid ho.tempHP)
  obtain ⟨hq', h13', h14', h15'⟩ := Mat.mult_reps hH' hP' (h3'.valid ho'.tempHP)
  have hid : StrictMono (id : Fin m → Fin m) := strictMono_id
  have bHP : Spec.Block id p _ _ := Spec.Block.mul hz hp hHp hPp
  have bPH : Spec.Block p id _ _ := Spec.Block.mul hz hp hPp hHp.transpose
  have bS : Spec.Block id id _ _ := Spec.Block.add hz (Spec.Block.mul hz hp bHP hHp.transpose) (Spec.Block.refl R)
  have hag : s2.Agree s2' := by
    refine h8.agree fun i j => (h8' i j).trans ?_
    exact congrArg some (bS.same i j)
  unfold RegularObservation.updateWithInnovation
  simp only [h1, h4, h7, h1', h4', h7', res_bind_ok]
  refine (chol_rel 1 bld h8.valid h8'.valid (fun r c hr hc _ => hag.cl hr hc)).bind ?_
  rintro ⟨L, b⟩ ⟨L', b'⟩ ⟨ht, ht', _, hL⟩
  have hLv : L.Valid := ht.le h8.valid
  have hLv' : L'.Valid := ht'.le h8'.valid
  have hLag := Mat.agree_of_cl hLv hLv' (hL (Or.inr rfl))
  have htS : o.S.SameTail L := (h6.trans h9).trans ht
  have htS' : o'.S.SameTail L' := (h6'.trans h9').trans ht'
  refine (invert_rel hm hLv hLv' ho.tempSInv ho'.tempSInv (fun r c hr hc => hLag.cl hr (by omega))).bind ?_
  rintro si si' ⟨hsi, hsi', hsic⟩
  have hsv : si.Valid := hsi.le ho.tempSInv
  have hsv' : si'.Valid := hsi'.le ho'.tempSInv
  have hsag := Mat.agree_of_cl hsv hsv' hsic
  obtain ⟨K, k1, k2, k3⟩ := Mat.mult_reps h11 hsv.reps ho.K
  obtain ⟨K', k1', k2', k3'⟩ := Mat.mult_reps h11' (hsag.reps hsv.reps) ho'.K
  obtain ⟨xn, x1, x2, x3⟩ := Mat.multaddRowvector_reps hm k2 hY hX
  obtain ⟨xn', x1', x2', x3'⟩ := Mat.multaddRowvector_reps hm k2' hY' hX'
  obtain ⟨khp, q1, q2, q3⟩ := Mat.mult_reps k2 h14 ho.tempKHP
  obtain ⟨khp', q1', q2', q3'⟩ := Mat.mult_reps k2' h14' ho'.tempKHP
  obtain ⟨pn, p1, p2, p3⟩ := Mat.subInplaceA_reps hP q2
  obtain ⟨pn', p1', p2', p3'⟩ := Mat.subInplaceA_reps hP' q2'
  have bK : Spec.Block p id (Spec.mulSeq (Spec.mulSeq Pm Hᵀ) fun (i j : Fin m) => si.cell i j)
      (Spec.mulSeq (Spec.mulSeq Pm' H'ᵀ) fun (i j : Fin m) => si.cell i j) := Spec.Block.mul hz hid bPH (Spec.Block.refl _)
  simp only [h10, h10', k1, k1', x1, x1', h13, h13', q1, q1', p1, p1', res_bind_ok]
  refine Rel2.pure ⟨_, _, _, _, x2, p2, x2', p2', fun a => ?_, Spec.Block.sub hz hPp (Spec.Block.mul hz hid bK bHP),
    ⟨rfl, rfl, rfl, Mat.SameTail.refl _, htS, k3, hsi, h3.trans h15, h12, q3⟩,
    ⟨rfl, rfl, rfl, Mat.SameTail.refl _, htS', k3', hsi', h3'.trans h15', h12', q3'⟩, x3, x3', p3, p3'⟩
  exact congrArg₂ (· + ·) (hx a) (bK.mulVec hz hid (fun _ => rfl) a)

theorem correct_part (hz : Spec.ZeroExact T) (bld : Build) {p : Fin k → Fin n} (hp : StrictMono p) {f : RegularKalman n T}
    {g : RegularKalman k T} {o : RegularObservation n m T} {d : RegularObservation k m T} (hn : 0 < n) (hk : 0 < k) (hm : 0 < m)
    {x A P Q x' A' P' Q' H z R H'} (hf : f.Reps x A P Q) (hg : g.Reps x' A' P' Q') (ho : o.Reps H z R) (hd : d.Reps H' z R)
    (hx : ∀ a, x' a = x (p a)) (hP : Spec.Block p p P P') (hH : Spec.Block id p H H') :
    Rel2 (f.correct bld o) (g.correct bld d) (fun a b => ∃ X Pn X' Pn', a.1.Reps X A Pn Q ∧ b.1.Reps X' A' Pn' Q' ∧ a.2.Reps H z R ∧
      b.2.Reps H' z R ∧ (∀ a, X' a = X (p a)) ∧ Spec.Block p p Pn Pn') := by
  obtain ⟨y1, y2, h1, h2, h3, h4⟩ := innovation_any hn ho.valid ho.H ho.z hf.x
  obtain ⟨y1', y2', h1', h2', h3', h4'⟩ := innovation_any hk hd.valid hd.H hd.z hg.x
  have hY : y2'.RepsV (z - Spec.mulVecSeq H x) := by
    refine fun i => (h3' i).trans (congrArg some ?_)
    exact congrArg (z i - ·) (hH.mulVec hz hp hx i)
  unfold RegularKalman.correct RegularObservation.correct
  simp only [h1, h2, h1', h2', res_bind_ok]
  refine (update_part hz bld hp (o := { o with y := y2 }) (o' := { d with y := y2' }) hm (obs_with_y_valid ho.valid h4)
    (obs_with_y_valid hd.valid h4') ho.H ho.R hf.P hf.x h3 hd.H hd.R hg.P hg.x hY hx hP hH).bind ?_
  rintro ⟨o1, x1, P1⟩ ⟨d1, x2, P2⟩ ⟨_, _, _, _, r1, r2, r3, r4, r5, r6, f1, f2, r7, r8, r9, r10⟩
  exact Rel2.pure ⟨_, _, _, _, hf.of_frame (frame_xP r7 r9) r1 r2, hg.of_frame (frame_xP r8 r10) r3 r4,
    ho.of_frame ⟨f1.H, f1.z, f1.R, h4.trans f1.y, f1.S, f1.K, f1.tempSInv, f1.tempHP, f1.tempPHt, f1.tempKHP⟩,
    hd.of_frame ⟨f2.H, f2.z, f2.R, h4'.trans f2.y, f2.S, f2.K, f2.tempSInv, f2.tempHP, f2.tempPHt, f2.tempKHP⟩, r5, r6⟩

/-- A sensor that has nothing to do with the part. -/
theorem correct_other (hz : Spec.ZeroExact T) (bld : Build) {p : Fin k → Fin n} {f f' : RegularKalman n T}
    {o o' : RegularObservation n m T} (hn : 0 < n) (hm : 0 < m) {x A P Q H z R} {x' : Fin k → T} {P' : Matrix (Fin k) (Fin k) T}
    (hf : f.Reps x A P Q) (ho : o.Reps H z R) (hx : ∀ a, x' a = x (p a)) (hP : Spec.Block p p P P') (hH : ∀ b a, H b (p a) = 0)
    (h : f.correct bld o = .ok (f', o')) :
    ∃ X Pn, f'.Reps X A Pn Q ∧ o'.Reps H z R ∧ (∀ a, x' a = X (p a)) ∧ Spec.Block p p Pn P' := by
  obtain ⟨W, h1, h2⟩ := correct_any bld hn hm ho.valid ho.H ho.R ho.z hf.P hf.x h
  rcases kcorrect_cov bld hn hm hf.valid hf.valid ho.valid ho.valid (.refl _) (.refl _) (.refl _) with ⟨e, he, _⟩ | ⟨a, b, ha, _, k1, _, k2, _⟩
  · rw [h] at he; cases he
  rw [h] at ha; cases ha
  have hPH : ∀ a b, Spec.mulSeq P Hᵀ (p a) b = 0 := by
    intro a b
    refine dotFrom_zeros hz 0 fun i => ?_
    by_cases hi : ∃ c, i = p c
    · obtain ⟨c, rfl⟩ := hi
      rw [Matrix.transpose_apply, hH, hz.mul_zero]
    · rw [hP.rows a i (fun c hc => hi ⟨c, hc⟩), hz.zero_mul]
  have hHP : ∀ b a, Spec.mulSeq H P b (p a) = 0 := by
    intro b a
    refine dotFrom_zeros hz 0 fun i => ?_
    by_cases hi : ∃ c, i = p c
    · obtain ⟨c, rfl⟩ := hi
      rw [hH, hz.zero_mul]
    · rw [hP.cols i a (fun c hc => hi ⟨c, hc⟩), hz.mul_zero]
  have hK : ∀ a b, Spec.mulSeq (Spec.mulSeq P Hᵀ) W (p a) b = 0 := fun a b =>
    dotFrom_zeros hz 0 fun i => by rw [hPH, hz.zero_mul]
  refine ⟨_, _, hf.of_frame k1 h1 h2, ho.of_frame k2, fun a => ?_,
    hP.keepSub hz (fun a j => dotFrom_zeros hz 0 fun i => by rw [hK, hz.zero_mul]) fun i b =>
      dotFrom_zeros hz 0 fun j => by rw [hHP, hz.mul_zero]⟩
  rw [Pi.add_apply, hx]
  have : Spec.mulVecSeq (Spec.mulSeq (Spec.mulSeq P Hᵀ) W) (z - Spec.mulVecSeq H x) (p a) = 0 := by
    show Spec.dotFirst _ _ = 0
    rw [dotFirst_dotFrom hz]
    exact dotFrom_zeros hz 0 fun j => by rw [hK, hz.zero_mul]
  rw [this, hz.add_zero]

end Steps
end Minikalman
