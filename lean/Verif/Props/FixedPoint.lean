import Verif.Proofs.FixedPoint
import Verif.Proofs.Fixed
import Verif.Proofs.Builder
import Verif.Spec.Examples

/-!
# Property C58: which inputs make the scalar operations panic
-/

set_option linter.unusedSectionVars false

namespace Minikalman

variable {T : Type} {n m : Nat}

section AnyArith
variable [Zero T] [One T] [Add T] [Sub T] [Mul T] [Neg T] [MDT T]

/-- C58: the decomposition takes no root of a number `<= 0` and no reciprocal of anything but such a root. So it never
panics on a valid buffer, whatever the contents, with an element type for which these two operations are safe. -/
theorem C58_cholesky_never_panics [SafeRoots T] (bld : Build) {a : Mat m m T} (hm : 0 < m) (ha : a.Valid) :
    ∃ L b, a.choleskyDecomposeLower bld = .ok (L, b) := by
  obtain ⟨⟨L, b⟩, h, _⟩ := chol_total bld hm ha
  exact ⟨L, b, h⟩

/-- C58: after a decomposition that reported success the inversion never panics. -/
theorem C58_invert_after_success_never_panics [SafeRoots T] (bld : Build) {a L inverse : Mat m m T} (hm : 0 < m)
    (ha : a.Valid) (hv : inverse.Valid) (h : a.choleskyDecomposeLower bld = .ok (L, true)) :
    ∃ r, L.invertLCholesky inverse = .ok r := by
  obtain ⟨⟨L', b⟩, h', h1, h2⟩ := chol_total bld hm ha
  rw [h] at h'; cases h'
  obtain ⟨r, hr, _⟩ := invert_total hm (h1.le ha) hv (h2 rfl)
  exact ⟨r, hr⟩

/-- C58: if `correct` panics on valid buffers, then the decomposition of the innovation covariance had reported failure
(which `correct` ignores). -/
theorem C58_correct_panics_only_after_failed_cholesky [SafeRoots T] (bld : Build) {f : RegularKalman n T}
    {o : RegularObservation n m T} {H P R} (hn : 0 < n) (hm : 0 < m) (hf : f.Valid) (ho : o.Valid) (hP : f.P.Reps P)
    (hH : o.H.Reps H) (hR : o.R.Reps R) {e : Panic} (he : f.correct bld o = .error e) :
    ∃ S L : Mat m m T, S.Reps (Spec.innovCovSeq H P R) ∧ S.choleskyDecomposeLower bld = .ok (L, false) := by
  obtain ⟨S, hS, _, hinv⟩ := correct_split bld hn hm ho hf.x hP hH hR
  obtain ⟨⟨L, b⟩, h', h1, h2⟩ := chol_total bld hm hS.valid
  cases b with
  | false => exact ⟨S, L, hS, h'⟩
  | true =>
    obtain ⟨si, hsi, _⟩ := invert_total hm (h1.le hS.valid) ho.tempSInv (h2 rfl)
    obtain ⟨r, hr⟩ := (hinv L true h').2 si hsi
    unfold RegularKalman.correct at he
    rw [hr] at he
    cases he

/-- C58, the converse for the first measurement: if the first innovation variance is not positive and the element type
panics at the reciprocal of zero (as the fixed point types do), then `correct` panics. -/
theorem C58_nonpositive_variance_panics (bld : Build) {f : RegularKalman n T} {o : RegularObservation n m T} {H P R}
    {e : Panic} (hn : 0 < n) (hm : 0 < m) (hf : f.Valid) (ho : o.Valid) (hP : f.P.Reps P) (hH : o.H.Reps H)
    (hR : o.R.Reps R) (hmul : ∀ x : T, x * 0 = 0) (hrec : MDT.recip (0 : T) = .error e)
    (hle : MDT.le (Spec.innovCovSeq H P R ⟨0, hm⟩ ⟨0, hm⟩) 0 = true) : f.correct bld o = .error e := by
  obtain ⟨S, hS, _, hinv⟩ := correct_split bld hn hm ho hf.x hP hH hR
  have hcl : cl m S.data 0 0 = Spec.innovCovSeq H P R ⟨0, hm⟩ ⟨0, hm⟩ := by
    have := hS ⟨0, hm⟩ ⟨0, hm⟩
    unfold cl
    simp only at this
    rw [this]; rfl
  have hc := chol_first bld hm hS.valid (by rw [hcl]; exact hle)
  have hlen : (⟨S.data.set 0 (cl m S.data 0 0 * 0)⟩ : Mat m m T).Valid := by
    show m * m ≤ (S.data.set 0 _).length
    rw [List.length_set]; exact hS.valid
  have h0 : cl m (S.data.set 0 (cl m S.data 0 0 * 0)) 0 0 = 0 := by
    have := cl_set_self (t := S.data) hS.valid hm hm (cl m S.data 0 0 * 0)
    rw [Nat.zero_mul, Nat.zero_add] at this
    rw [this, hmul]
  have hi := invert_first (inverse := o.tempSInv) hm hlen (by rw [h0]; exact hrec)
  unfold RegularKalman.correct
  rw [(hinv _ _ hc).1 e hi]
  rfl

/-- A sum of products that are all zero. -/
theorem dotFrom_zero {k : Nat} (h0 : (0 : T) + 0 = 0) {v w : Fin k → T} (h : ∀ i, v i * w i = 0) :
    Spec.dotFrom (0 : T) v w = 0 := by
  unfold Spec.dotFrom
  induction k with
  | zero => rfl
  | succ k ih =>
    rw [Fin.foldl_succ_last, ih (v := fun i => v i.castSucc) (w := fun i => w i.castSucc) fun i => h _, h, h0]

/-- C58: a freshly built observation (all buffers zero, so `H = 0` and `R = 0`) makes `correct` of any filter panic if the
reciprocal of zero panics: the measurement noise must be set before the first correction. -/
theorem C58_unset_observation_panics [Inhabited T] (hdef : (default : T) = 0) (bld : Build) {f : RegularKalman n T}
    {o : RegularObservation n m T} {e : Panic} (hn : 0 < n) (hm : 0 < m) (hf : f.Valid)
    (ho : buildRegularObservation bld = .ok o) (hmul : ∀ x : T, x * 0 = 0) (hmul' : ∀ x : T, 0 * x = 0)
    (hadd : (0 : T) + 0 = 0) (hle : MDT.le (0 : T) 0 = true) (hrec : MDT.recip (0 : T) = .error e) :
    f.correct bld o = .error e := by
  obtain ⟨o', h1, h2⟩ := buildRegularObservation_filled (n := n) (m := m) (T := T) bld
  rw [ho] at h1; cases h1
  have hv := h2.valid
  have hz : ∀ {R C : Nat} {a : Mat R C T}, a.Filled default → a.Reps (fun _ _ => (0 : T)) := by
    intro R C a ha i j
    rw [ha.2 i j, hdef]
  refine C58_nonpositive_variance_panics bld hn hm hf hv hf.P.reps (hz h2.H) (hz h2.R) hmul hrec ?_
  unfold Spec.innovCovSeq Spec.mulSeq
  rw [dotFrom_zero hadd, hadd, hle]
  intro i
  rw [dotFrom_zero hadd fun j => hmul' _, hmul']

end AnyArith

/-! ## The fixed point type -/

/-- C58: the fixed point types (`I16F16` is `FixedPoint 16`, `I32F32` is `FixedPoint 32`) have safe roots and reciprocals of
roots, for all of their values. -/
theorem C58_fixed_point_safe_roots {b : Nat} (hb : 1 ≤ b) : SafeRoots (FixedPoint b) := FixedPoint.safeRoots hb

/-- C58: a freshly built fixed point filter and observation of any dimensions panic at the first `correct`. -/
theorem C58_fixed_point_fresh_filter_panics {b : Nat} (bld : Build) {f : RegularKalman n (FixedPoint b)}
    {o : RegularObservation n m (FixedPoint b)} (hn : 0 < n) (hm : 0 < m) (hf : f.Valid)
    (ho : buildRegularObservation bld = .ok o) :
    f.correct bld o = .error .arithmetic := by
  have hz : (0 : BitVec (2 * b)).toInt = 0 := by simp
  have hm0 : ∀ x : FixedPoint b, x * 0 = 0 := by
    intro x
    show (⟨BitVec.ofInt _ (x.bits.toInt * (0 : BitVec (2 * b)).toInt / 2 ^ b)⟩ : FixedPoint b) = ⟨0⟩
    simp
  have h0m : ∀ x : FixedPoint b, 0 * x = 0 := by
    intro x
    show (⟨BitVec.ofInt _ ((0 : BitVec (2 * b)).toInt * x.bits.toInt / 2 ^ b)⟩ : FixedPoint b) = ⟨0⟩
    simp
  refine C58_unset_observation_panics rfl bld hn hm hf ho hm0 h0m ?_ ?_ ?_
  · show (⟨0 + 0⟩ : FixedPoint b) = ⟨0⟩
    simp
  · show decide ((0 : BitVec (2 * b)).toInt ≤ (0 : BitVec (2 * b)).toInt) = true
    simp
  · show (if (0 : BitVec (2 * b)).toInt = 0 then _ else _) = _
    rw [if_pos hz]

/-- A fixed point number from its bits. -/
def fx (b : BitVec 32) : I16F16 := ⟨b⟩

/-- Fixed point filter with state (1, 2), unit covariance; observation of the first state with variance 3: the corrected
state is (2, 2), the corrected variance 3/4. -/
example :
    let f : RegularKalman 2 I16F16 := ⟨⟨[fx 65536, fx 131072]⟩, ⟨[fx 65536, 0, 0, fx 65536]⟩, ⟨[fx 65536, 0, 0, fx 65536]⟩,
      ⟨[0, 0, 0, 0]⟩, ⟨[0, 0]⟩, ⟨[0, 0, 0, 0]⟩⟩
    let o : RegularObservation 2 1 I16F16 := ⟨⟨[fx 65536, 0]⟩, ⟨[fx 327680]⟩, ⟨[fx 196608]⟩, ⟨[0]⟩, ⟨[0]⟩, ⟨[0, 0]⟩, ⟨[0]⟩,
      ⟨[0, 0]⟩, ⟨[0, 0]⟩, ⟨[0, 0, 0, 0]⟩⟩
    f.Valid ∧ o.Valid ∧
    (f.correct ⟨false, false⟩ o).map (fun r => (r.1.x.data, r.1.P.data)) =
      .ok ([fx 131072, fx 131072], [fx 49152, 0, 0, fx 65536]) := by
  refine ⟨⟨?_, ?_, ?_, ?_, ?_, ?_⟩, ⟨?_, ?_, ?_, ?_, ?_, ?_, ?_, ?_, ?_, ?_⟩, ?_⟩
  all_goals decide +kernel

/-- The decomposition of a fixed point matrix that is not positive definite. -/
example : (⟨[fx 65536, fx 131072, fx 131072, fx 65536]⟩ : Mat 2 2 I16F16).choleskyDecomposeLower ⟨true, false⟩ =
    .ok (⟨[fx 65536, fx 131072, fx 131072, fx (-196608)]⟩, false) := by decide +kernel

end Minikalman
