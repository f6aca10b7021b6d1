import Verif.Proofs.ForeverFixed
import Verif.Props.Checked
import Verif.Props.Fixed

/-!
# One state and one measurement in builds with overflow checks

The kernels for matrices with one cell, and a criterion: if the results of the watched computation are clean, no operation panics.
-/

namespace Minikalman
namespace Chk
variable {T : Type} (o : Ops T)

/-! ## The kernels for matrices with one cell -/

theorem mult1 (a b c : T) (as bs cs : List T) : mult o (⟨a :: as⟩ : Mat 1 1 T) (⟨b :: bs⟩ : Mat 1 1 T) (⟨c :: cs⟩ : Mat 1 1 T) =
    (o.mul a b >>= fun p => o.add o.zero p >>= fun t => .ok ⟨t :: cs⟩) := by
  simp [mult, forDown, forUp, forCount, rd, wr, pure, Except.pure, bind, Except.bind]
  cases o.mul a b with
  | error e => rfl
  | ok p =>
    simp
    cases o.add o.zero p <;> rfl

theorem multTransb1 (a b c : T) (as bs cs : List T) : multTransb o (⟨a :: as⟩ : Mat 1 1 T) (⟨b :: bs⟩ : Mat 1 1 T) (⟨c :: cs⟩ : Mat 1 1 T) =
    (o.mul a b >>= fun p => o.add o.zero p >>= fun t => .ok ⟨t :: cs⟩) := by
  simp [multTransb, forUp, forCount, rd, wr, pure, Except.pure, bind, Except.bind]
  cases o.mul a b with
  | error e => rfl
  | ok p =>
    simp
    cases o.add o.zero p <;> rfl

theorem multRowvector1 (a b c : T) (as bs cs : List T) :
    multRowvector o (⟨a :: as⟩ : Mat 1 1 T) (⟨b :: bs⟩ : Mat 1 1 T) (⟨c :: cs⟩ : Mat 1 1 T) =
    (o.mul a b >>= fun p => .ok ⟨p :: cs⟩) := by
  simp [multRowvector, forUp, forCount, rd, wr, pure, Except.pure, bind, Except.bind]
  cases o.mul a b <;> rfl

theorem multaddRowvector1 (a b c : T) (as bs cs : List T) :
    multaddRowvector o (⟨a :: as⟩ : Mat 1 1 T) (⟨b :: bs⟩ : Mat 1 1 T) (⟨c :: cs⟩ : Mat 1 1 T) =
    (o.mul a b >>= fun p => o.add c p >>= fun t => .ok ⟨t :: cs⟩) := by
  simp [multaddRowvector, forUp, forCount, rd, wr, pure, Except.pure, bind, Except.bind]
  cases o.mul a b with
  | error e => rfl
  | ok p =>
    simp
    cases o.add c p <;> rfl

theorem addInplaceB1 (a b : T) (as bs : List T) : addInplaceB o (⟨a :: as⟩ : Mat 1 1 T) (⟨b :: bs⟩ : Mat 1 1 T) =
    (o.add b a >>= fun t => .ok ⟨t :: bs⟩) := by
  simp [addInplaceB, Mat.len, forDown, rd, wr, pure, Except.pure, bind, Except.bind]
  cases o.add b a <;> rfl

theorem addInplaceA1 (a b : T) (as bs : List T) : addInplaceA o (⟨a :: as⟩ : Mat 1 1 T) (⟨b :: bs⟩ : Mat 1 1 T) =
    (o.add a b >>= fun t => .ok ⟨t :: as⟩) := by
  simp [addInplaceA, Mat.len, forDown, rd, wr, pure, Except.pure, bind, Except.bind]
  cases o.add a b <;> rfl

theorem subInplaceB1 (a b : T) (as bs : List T) : subInplaceB o (⟨a :: as⟩ : Mat 1 1 T) (⟨b :: bs⟩ : Mat 1 1 T) =
    (o.sub a b >>= fun t => .ok ⟨t :: bs⟩) := by
  simp [subInplaceB, Mat.len, forDown, rd, wr, pure, Except.pure, bind, Except.bind]
  cases o.sub a b <;> rfl

theorem subInplaceA1 (a b : T) (as bs : List T) : subInplaceA o (⟨a :: as⟩ : Mat 1 1 T) (⟨b :: bs⟩ : Mat 1 1 T) =
    (o.sub a b >>= fun t => .ok ⟨t :: as⟩) := by
  simp [subInplaceA, Mat.len, forDown, rd, wr, pure, Except.pure, bind, Except.bind]
  cases o.sub a b <;> rfl

theorem chol1 (bld : Build) (a : T) (as : List T) : choleskyDecomposeLower o bld (⟨a :: as⟩ : Mat 1 1 T) =
    (o.mul a o.zero >>= fun v => o.le a o.zero >>= fun s => if s then .ok (⟨v :: as⟩, false) else
      o.squareRoot a >>= fun l => o.recip l >>= fun _ => .ok (⟨l :: as⟩, true)) := by
  simp [choleskyDecomposeLower, debugAssert, forUp, forCount, forUpR, forCountR, rd, wr, pure, Except.pure, bind, Except.bind]
  cases o.mul a o.zero with
  | error e => rfl
  | ok p =>
    simp
    cases o.le a o.zero with
    | error e => rfl
    | ok s =>
      cases s with
      | true => rfl
      | false =>
        simp
        cases o.squareRoot a with
        | error e => rfl
        | ok l =>
          simp
          cases o.recip l <;> rfl

theorem invert1 (l c : T) (ls cs : List T) : invertLCholesky o (⟨l :: ls⟩ : Mat 1 1 T) (⟨c :: cs⟩ : Mat 1 1 T) =
    (o.recip l >>= fun d => o.add o.one o.sumStart >>= fun s => o.mul s d >>= fun v => o.add v o.sumStart >>= fun t => o.mul t d >>= fun r =>
      .ok ⟨r :: cs⟩) := by
  simp [invertLCholesky, sumMap, usub, forUp, forCount, forDown, rd, wr, pure, Except.pure, bind, Except.bind]
  cases o.recip l with
  | error e => rfl
  | ok d =>
    simp
    cases o.add o.one o.sumStart with
    | error e => rfl
    | ok s =>
      simp
      cases o.mul s d with
      | error e => rfl
      | ok v =>
        simp
        cases o.add v o.sumStart with
        | error e => rfl
        | ok t =>
          simp
          cases o.mul t d <;> rfl

theorem copyTo1 (a b : T) (as bs : List T) : (⟨a :: as⟩ : Mat 1 1 T).copyTo (⟨b :: bs⟩ : Mat 1 1 T) = .ok ⟨a :: bs⟩ := by
  simp [Mat.copyTo, usub, Mat.len, forDown, rd, wr, pure, Except.pure, bind, Except.bind]

end Chk

section Debug
variable {f : Nat}

/-! ## Operations that do not panic -/

theorem checked_inRange {z : Int} (r : FixedPoint f) (h : InRange f z) : FixedPoint.checked z r = .ok r := if_pos h

theorem dbg_add {a b : Watched f} (h : (a + b).clean = true) : (FixedPoint.debugOps f).add a.num b.num = .ok (a + b).num :=
  checked_inRange _ (Watched.add_clean.1 h).2.2

theorem dbg_sub {a b : Watched f} (h : (a - b).clean = true) : (FixedPoint.debugOps f).sub a.num b.num = .ok (a - b).num :=
  checked_inRange _ (Watched.sub_clean.1 h).2.2

theorem dbg_mul {a b : Watched f} (h : (a * b).clean = true) : (FixedPoint.debugOps f).mul a.num b.num = .ok (a * b).num :=
  checked_inRange _ (Watched.mul_clean.1 h).2.2

theorem recip_clean {a d : Watched f} (h : MDT.recip a = .ok d) (hd : d.clean = true) :
    a.clean = true ∧ (FixedPoint.debugOps f).recip a.num = .ok d.num := by
  show _ ∧ (MDT.recip a.num >>= fun r => FixedPoint.checked (Int.tdiv (2 ^ (2 * f)) a.num.bits.toInt) r) = _
  change (MDT.recip a.num).map _ = _ at h
  cases hr : MDT.recip a.num with
  | error e => rw [hr] at h; cases h
  | ok r =>
    rw [hr] at h
    obtain rfl := Except.ok.inj h
    simp only [Bool.and_eq_true, decide_eq_true_eq] at hd
    exact ⟨hd.1, checked_inRange _ hd.2⟩

theorem sqrt_clean {a d : Watched f} (h : MDT.squareRoot a = .ok d) (hd : d.clean = true) :
    a.clean = true ∧ (FixedPoint.debugOps f).squareRoot a.num = .ok d.num := by
  show _ ∧ (MDT.squareRoot a.num >>= fun r => FixedPoint.checked (Nat.sqrt (a.num.bits.toInt.toNat * 2 ^ f)) r) = _
  change (MDT.squareRoot a.num).map _ = _ at h
  cases hr : MDT.squareRoot a.num with
  | error e => rw [hr] at h; cases h
  | ok r =>
    rw [hr] at h
    obtain rfl := Except.ok.inj h
    simp only [Bool.and_eq_true, decide_eq_true_eq] at hd
    exact ⟨hd.1, checked_inRange _ hd.2⟩

theorem add_parts {a b : Watched f} (h : (a + b).clean = true) : a.clean = true ∧ b.clean = true :=
  ⟨(Watched.add_clean.1 h).1, (Watched.add_clean.1 h).2.1⟩

theorem sub_parts {a b : Watched f} (h : (a - b).clean = true) : a.clean = true ∧ b.clean = true :=
  ⟨(Watched.sub_clean.1 h).1, (Watched.sub_clean.1 h).2.1⟩

theorem mul_parts {a b : Watched f} (h : (a * b).clean = true) : a.clean = true ∧ b.clean = true :=
  ⟨(Watched.mul_clean.1 h).1, (Watched.mul_clean.1 h).2.1⟩

theorem mul_zero_inRange (a : FixedPoint f) : (FixedPoint.debugOps f).mul a 0 = .ok (a * 0) := by
  refine checked_inRange _ ?_
  have : (0 : FixedPoint f).bits.toInt = 0 := BitVec.toInt_zero
  rw [this, mul_zero, Int.zero_ediv]
  exact ⟨by have : (0 : Int) < 2 ^ (2 * f) := by positivity
            omega, by have : (0 : Int) < 2 ^ (2 * f) := by positivity
                      omega⟩

theorem head_of {T : Type} {R C : Nat} {m : Mat R C T} {v : T} (h : m.data[0]? = some v) : ∃ l, m = ⟨v :: l⟩ := by
  obtain ⟨d⟩ := m
  cases d with
  | nil => cases h
  | cons a l =>
    obtain rfl : a = v := by simpa using h
    exact ⟨l, rfl⟩

theorem head_valid {T : Type} {m : Mat 1 1 T} (h : m.Valid) : ∃ v l, m = ⟨v :: l⟩ := by
  obtain ⟨d⟩ := m
  cases d with
  | nil => exact absurd h (by show ¬ (1 * 1 ≤ 0); decide)
  | cons a l => exact ⟨a, l, rfl⟩

/-- A correction of one state by one measurement does not panic in a build with overflow checks, if the watched results are clean. -/
theorem debug_correct (bld : Build) {k : RegularKalman 1 (Watched f)} {b : RegularObservation 1 1 (Watched f)} {x A P Q H z R}
    (hf : k.Reps x A P Q) (ho : b.Reps H z R) {S sq d : Watched f} (hS : S = 0 + (0 + H 0 0 * P 0 0) * H 0 0 + R 0 0)
    (hle : MDT.le S 0 = false) (hsq : MDT.squareRoot S = .ok sq) (hd : MDT.recip sq = .ok d)
    (hx : (x 0 + (0 + (0 + P 0 0 * H 0 0) * scalarInverse d) * (z 0 - H 0 0 * x 0)).clean = true)
    (hP : (P 0 0 - (0 + (0 + (0 + P 0 0 * H 0 0) * scalarInverse d) * (0 + H 0 0 * P 0 0))).clean = true) :
    ∃ r, Chk.correct (FixedPoint.debugOps f) bld (k.mapCells Watched.num) (b.mapCells Watched.num) = .ok r := by
  obtain ⟨kx, kA, kP, kQ, k5, k6⟩ := k
  obtain ⟨bH, bz, bR, by', bS, bK, bSI, bHP, bPH, bKHP⟩ := b
  obtain ⟨l1, rfl⟩ := head_of (hf.x 0)
  obtain ⟨l2, rfl⟩ := head_of (hf.P 0 0)
  obtain ⟨l3, rfl⟩ := head_of (ho.H 0 0)
  obtain ⟨l4, rfl⟩ := head_of (ho.z 0)
  obtain ⟨l5, rfl⟩ := head_of (ho.R 0 0)
  obtain ⟨v6, l6, rfl⟩ := head_valid ho.y
  obtain ⟨v7, l7, rfl⟩ := head_valid ho.S
  obtain ⟨v8, l8, rfl⟩ := head_valid ho.K
  obtain ⟨v9, l9, rfl⟩ := head_valid ho.tempSInv
  obtain ⟨v10, l10, rfl⟩ := head_valid ho.tempHP
  obtain ⟨v11, l11, rfl⟩ := head_valid ho.tempPHt
  obtain ⟨v12, l12, rfl⟩ := head_valid ho.tempKHP
  generalize x 0 = x, P 0 0 = p, H 0 0 = h, z 0 = z, R 0 0 = r at *
  -- the operations in the order of the code
  have c1 := (add_parts hx).2
  have c2 := (mul_parts c1).1
  have c3 := (mul_parts c1).2
  have c4 := (sub_parts c3).2
  have c5 := (add_parts c2).2
  have c6 := (mul_parts c5).1
  have c7 : (scalarInverse d).clean = true := (mul_parts c5).2
  have e0 : (MDT.isum [] : Watched f) = 0 := rfl
  have hinv : scalarInverse d = ((1 + 0) * d + 0) * d := rfl
  rw [hinv] at c7 c5 c2 c1 hx hP
  have c8 := (mul_parts c7).1
  have c9 := (add_parts c8).1
  have c10 := (mul_parts c9).1
  obtain ⟨c11, hd'⟩ := recip_clean hd (mul_parts c9).2
  obtain ⟨c12, hsq'⟩ := sqrt_clean hsq c11
  rw [hS] at c12 hle hsq'
  have c13 := (add_parts c12).1
  have c14 := (add_parts c13).2
  have c15 := (mul_parts c14).1
  have c16 := (add_parts c15).2
  have c17 := (add_parts c6).2
  have c18 := (sub_parts hP).2
  have c19 := (add_parts c18).2
  have z0 : (FixedPoint.debugOps f).zero = (0 : Watched f).num := rfl
  have z1 : (FixedPoint.debugOps f).one = (1 : Watched f).num := rfl
  have z2 : (FixedPoint.debugOps f).sumStart = (0 : Watched f).num := rfl
  have hle' : (FixedPoint.debugOps f).le (0 + (0 + h * p) * h + r).num (0 : Watched f).num = .ok false := congrArg Except.ok hle
  have hm0 : (FixedPoint.debugOps f).mul (0 + (0 + h * p) * h + r).num (0 : Watched f).num = .ok ((0 + (0 + h * p) * h + r).num * 0) :=
    mul_zero_inRange _
  simp only [RegularKalman.mapCells, RegularObservation.mapCells, Mat.mapCells, List.map_cons, Chk.correct, Chk.updateWithInnovation,
    Chk.multRowvector1, Chk.subInplaceB1, Chk.mult1, Chk.multTransb1, Chk.addInplaceA1, Chk.chol1, Chk.invert1, Chk.multaddRowvector1,
    Chk.subInplaceA1, z0, z1, z2, dbg_mul c4, dbg_sub c3, dbg_mul c16, dbg_add c15, dbg_mul c14, dbg_add c13, dbg_add c12, hm0, hle',
    hsq', hd', dbg_add c10, dbg_mul c9, dbg_add c8, dbg_mul c7, dbg_mul c17, dbg_add c6, dbg_mul c5, dbg_add c2, dbg_mul c1, dbg_add hx,
    dbg_mul c19, dbg_add c18, dbg_sub hP, res_bind_ok, Bool.false_eq_true, if_false]
  exact ⟨_, rfl⟩

/-- The same for a prediction. -/
theorem debug_predict {k : RegularKalman 1 (Watched f)} {x A P Q} (hf : k.Reps x A P Q)
    (hx : (A 0 0 * x 0).clean = true) (hP : (0 + (0 + A 0 0 * P 0 0) * A 0 0 + Q 0 0).clean = true) :
    ∃ r, Chk.predict (FixedPoint.debugOps f) (k.mapCells Watched.num) = .ok r := by
  obtain ⟨kx, kA, kP, kQ, k5, k6⟩ := k
  obtain ⟨l1, rfl⟩ := head_of (hf.x 0)
  obtain ⟨l2, rfl⟩ := head_of (hf.P 0 0)
  obtain ⟨l3, rfl⟩ := head_of (hf.A 0 0)
  obtain ⟨l4, rfl⟩ := head_of (hf.Q 0 0)
  obtain ⟨v5, l5, rfl⟩ := head_valid hf.predictedX
  obtain ⟨v6, l6, rfl⟩ := head_valid hf.tempP
  generalize x 0 = x, P 0 0 = p, A 0 0 = a, Q 0 0 = q at *
  have c1 := (add_parts hP).1
  have c2 := (add_parts c1).2
  have c3 := (mul_parts c2).1
  have c4 := (add_parts c3).2
  have z0 : (FixedPoint.debugOps f).zero = (0 : Watched f).num := rfl
  have hpure : ∀ {α : Type} (a : α), (pure a : Res α) = .ok a := fun _ => rfl
  simp only [hpure, RegularKalman.mapCells, Mat.mapCells, List.map_cons, Chk.predict, Chk.predictX, Chk.predictP, Chk.multRowvector1, Chk.mult1,
    Chk.multTransb1, Chk.addInplaceB1, Chk.copyTo1, z0, dbg_mul hx, dbg_mul c4, dbg_add c3, dbg_mul c2, dbg_add c1, dbg_add hP, res_bind_ok]
  exact ⟨_, rfl⟩

/-! ## Histories -/

open FixedPoint in
theorem forever_correct_debug (bld : Build) {X q B : ℝ} {N c : Nat} (hl : Spec.LastingFixed f X q B N) (hcN : c ≤ N)
    {k : RegularKalman 1 (Watched f)} {o : RegularObservation 1 1 (Watched f)} {x A P Q z R} (hf : k.Reps x A P Q)
    (ho : o.Reps (Spec.direct 0) z R) (hx : (x 0).clean = true) (hxX : |(x 0).num.val| ≤ X) (hp : (P 0 0).clean = true)
    (hp0 : 0 ≤ (P 0 0).num.val) (hp1 : (P 0 0).num.val ≤ B + c * q)
    (hz : (z 0).clean = true) (hzX : |(z 0).num.val| ≤ X) (hRc : (R 0 0).clean = true) (hR : Spec.BalancedFixed f N q B (R 0 0).num.val) :
    ∃ r, Chk.correct (FixedPoint.debugOps f) bld (k.mapCells Watched.num) (o.mapCells Watched.num) = .ok r := by
  have h2 := hl.bits
  have hpB := hp1.trans (hl.bound hcN)
  have d0 : (Spec.direct (T := Watched f) (0 : Fin 1)) 0 0 = 1 := rfl
  have c2 : Spec.mulSeq (Spec.direct 0) P 0 0 = P 0 0 := by
    rw [mulSeq_one, d0, one_mul_clean h2 hp, zero_add_clean hp]
  have c3 : Spec.mulSeq (Spec.mulSeq (Spec.direct 0) P) (Spec.direct 0).transpose 0 0 = P 0 0 := by
    rw [mulSeq_one, Matrix.transpose_apply, d0, c2, mul_one_clean h2 hp, zero_add_clean hp]
  have hr0 : 0 < (R 0 0).num.val := Real.sqrt_pos.1 (res_pos.trans hR.root)
  have hle : MDT.le (Spec.mulSeq (Spec.mulSeq (Spec.direct 0) P) (Spec.direct 0).transpose 0 0 + R 0 0) 0 = false := by
    rw [c3, Bool.eq_false_iff]
    intro hc
    obtain ⟨_, e⟩ := add_fits (by omega) hp hRc (by
      rw [abs_of_nonneg (by linarith)]
      linarith [hR.fits])
    have h3 : (P 0 0 + R 0 0).num.val ≤ (0 : FixedPoint f).val := FixedPoint.le_iff.1 (show MDT.le (P 0 0 + R 0 0).num 0 = true from hc)
    rw [e, val_zero] at h3
    linarith
  have := safeRoots_watched (f := f) (by omega)
  obtain ⟨k', o', sq, d, k1, k2, k3, _, k5, k6⟩ := scalar_correct_full bld Nat.one_pos hf ho hle
  obtain ⟨k'', o'', x', P', g1, g2, g3, g4, _, g6, _⟩ := forever_correct_fixed bld hl hcN hf ho hx hxX hp hp0 hp1 hz hzX hRc hR
  rw [k1] at g1
  cases g1
  have e1 := congrFun (k5.unique g2) 0
  have e2 := congrFun (congrFun (k6.unique g3) 0) 0
  rw [← e1] at g4
  rw [← e2] at g6
  have m1 : Spec.mulSeq (Spec.mulSeq (Spec.direct 0) P) (Spec.direct 0).transpose 0 0 + R 0 0 =
      0 + (0 + Spec.direct (0 : Fin 1) 0 0 * P 0 0) * Spec.direct (0 : Fin 1) 0 0 + R 0 0 := by
    rw [mulSeq_one, mulSeq_one]
    rfl
  have m2 : scalarGain P (Spec.direct 0) d 0 = 0 + (0 + P 0 0 * Spec.direct (0 : Fin 1) 0 0) * scalarInverse d := by
    unfold scalarGain
    rw [mulSeq_one]
    rfl
  have m3 : Spec.mulVecSeq (Spec.direct (0 : Fin 1)) x 0 = Spec.direct (0 : Fin 1) 0 0 * x 0 := rfl
  have m4 : Spec.mulSeq (Spec.direct 0) P 0 0 = 0 + Spec.direct (0 : Fin 1) 0 0 * P 0 0 := mulSeq_one _ _ _ _
  refine debug_correct bld hf ho m1 hle k2 k3 ?_ ?_
  · rw [← m2, ← m3]; exact g4
  · rw [← m2, ← m4]; exact g6

/-- No call panics in a build with overflow checks. -/
theorem forever_step_debug (bld : Build) {X Z q B : ℝ} {N c : Nat} (hl : Spec.LastingFixed f X q B N) (hZ : Z ≤ X) (hcN : c ≤ N) {w : World 1 (Watched f)}
    (hw : w.RunsFixed X Z q B N c) {op : Op (Watched f)} {ops : List (Op (Watched f))} (hop : op.WellFormed w) (hpc : Spec.Paced N c (op :: ops))
    (ht : TameWatched X Z B op) :
    ∃ r, Chk.step (FixedPoint.debugOps f) bld (w.mapCells Watched.num) (op.mapCells Watched.num) = .ok r := by
  obtain ⟨⟨x, A, P, Q, hk, ha, ha1, hq, hqv, hx, hxX, hp, hp0, hp1⟩, hobs⟩ := hw
  cases op with
  | predict =>
    obtain ⟨hc, hpc⟩ : c < N ∧ Spec.Paced N (c + 1) ops := hpc
    have hb := hl.bound (c := c + 1) hc
    push_cast at hb
    have hlim : (P 0 0).num.val + (Q 0 0).num.val < FixedPoint.lim f := by
      have := hl.variance
      rw [hqv]
      linarith
    obtain ⟨v1, v2, v3⟩ := FixedPoint.predict_grows hl.bits ha ha1 hq (hqv ▸ hl.noise) hp hp0 hlim
    have hX0 := (abs_nonneg _).trans hxX
    obtain ⟨s1, _, _, s4, _⟩ := FixedPoint.mul_shrinks (by have := hl.bits; omega) ha hx ha1 (lt_of_le_of_lt hxX (by linarith [hl.state]))
    obtain ⟨r, hr⟩ := debug_predict hk s1 v1
    have hr' : Chk.predict (FixedPoint.debugOps f) (w.mapCells Watched.num).kf = .ok r := hr
    exact ⟨_, by simp only [Chk.step, Op.mapCells, hr', res_bind_ok]; rfl⟩
  | correct i =>
    have hi : i < w.obs.length := hop
    obtain ⟨o, z, R, e, ho, hzf, hzX, hRc, hR⟩ := hobs _ (List.getElem_mem hi)
    have hg : (w.mapCells Watched.num).obs[i]? = some ⟨1, o.mapCells Watched.num⟩ := by
      show (w.obs.map _)[i]? = _
      rw [List.getElem?_map, List.getElem?_eq_getElem hi, e]
      rfl
    obtain ⟨r, hr⟩ := forever_correct_debug bld hl hcN hk ho hx hxX hp hp0 hp1 hzf (hzX.trans hZ) hRc hR
    have hr' : Chk.correct (FixedPoint.debugOps f) bld (w.mapCells Watched.num).kf (o.mapCells Watched.num) = .ok r := hr
    exact ⟨_, by simp only [Chk.step, Op.mapCells, hg, hr', res_bind_ok]; rfl⟩
  | setZ i v =>
    cases hg : w.obs[i]? with
    | none =>
      have : (w.obs[i]?.map fun o => o.2.z.data.length) = some v.length := hop
      rw [hg] at this
      cases this
    | some s =>
      have hlen : (v.map Watched.num).length = (s.2.z.mapCells Watched.num).data.length := by
        have : (w.obs[i]?.map fun o => o.2.z.data.length) = some v.length := hop
        rw [hg] at this
        simp only [Mat.mapCells, List.length_map]
        exact (Option.some.inj this).symm
      have hg' : (w.mapCells Watched.num).obs[i]? = some ⟨s.1, s.2.mapCells Watched.num⟩ := by
        show (w.obs.map _)[i]? = _
        rw [List.getElem?_map, hg]
        rfl
      refine ⟨{ w.mapCells Watched.num with
        obs := (w.mapCells Watched.num).obs.set i ⟨s.1, { s.2.mapCells Watched.num with z := ⟨v.map Watched.num⟩ }⟩ }, ?_⟩
      · unfold Chk.step
        dsimp only [Op.mapCells]
        unfold World.withObs
        simp only [hg', RegularObservation.mapCells, copy_ok _ _ hlen, res_bind_ok]
        rfl
  | setX v =>
    have hlen : (v.map Watched.num).length = (w.mapCells Watched.num).kf.x.data.length := by
      show _ = (w.kf.x.data.map _).length
      rw [List.length_map, List.length_map]
      exact hop
    exact ⟨_, by simp only [Chk.step, Op.mapCells, copy_ok _ _ hlen, res_bind_ok]; rfl⟩
  | setA v =>
    have hlen : (v.map Watched.num).length = (w.mapCells Watched.num).kf.A.data.length := by
      show _ = (w.kf.A.data.map _).length
      rw [List.length_map, List.length_map]
      exact hop
    exact ⟨_, by simp only [Chk.step, Op.mapCells, copy_ok _ _ hlen, res_bind_ok]; rfl⟩
  | setP v =>
    have hlen : (v.map Watched.num).length = (w.mapCells Watched.num).kf.P.data.length := by
      show _ = (w.kf.P.data.map _).length
      rw [List.length_map, List.length_map]
      exact hop
    exact ⟨_, by simp only [Chk.step, Op.mapCells, copy_ok _ _ hlen, res_bind_ok]; rfl⟩
  | predictTuned _ => exact ht.elim
  | control _ => exact ht.elim
  | setQ _ => exact ht.elim
  | setU _ _ => exact ht.elim
  | setB _ _ => exact ht.elim
  | setQc _ _ => exact ht.elim
  | setH _ _ => exact ht.elim
  | setR _ _ => exact ht.elim

theorem forever_run_debug (bld : Build) {X Z q B : ℝ} {N c : Nat} (hl : Spec.LastingFixed f X q B N) (hZ : Z ≤ X) (hcN : c ≤ N) {w : World 1 (Watched f)} (hv : w.Valid)
    (hw : w.RunsFixed X Z q B N c) {ops : List (Op (Watched f))} (hop : ∀ op ∈ ops, op.WellFormed w) (hpc : Spec.Paced N c ops)
    (ht : ∀ op ∈ ops, TameWatched X Z B op) :
    ∃ r, Chk.run (FixedPoint.debugOps f) bld (w.mapCells Watched.num) (ops.map (Op.mapCells Watched.num)) = .ok r := by
  induction ops generalizing w c with
  | nil => exact ⟨_, rfl⟩
  | cons op ops ih =>
    obtain ⟨w1, c', h1, k1, k2, k3, _⟩ := forever_step_fixed bld hl hZ hcN hw (hop op List.mem_cons_self) hpc (ht op List.mem_cons_self)
    obtain ⟨hv1, hs1⟩ := step_keeps hv (hop op List.mem_cons_self) h1
    obtain ⟨r1, j1⟩ := forever_step_debug bld hl hZ hcN hw (hop op List.mem_cons_self) hpc (ht op List.mem_cons_self)
    obtain ⟨r2, j2⟩ := ih k1 hv1 k3 (fun o ho => Op.WellFormed.congr hs1 (hop o (List.mem_cons_of_mem _ ho))) k2
      (fun o ho => ht o (List.mem_cons_of_mem _ ho))
    have e1 : Chk.run (FixedPoint.debugOps f) bld (w.mapCells Watched.num) [op.mapCells Watched.num] = .ok r1 := by
      simp only [Chk.run, j1, res_bind_ok]
    have e2 := C93_results_agree e1
    have e3 : (w.mapCells Watched.num).run bld ([op].map (Op.mapCells Watched.num)) = .ok (w1.mapCells Watched.num) := by
      rw [C86_homomorphism Watched.scalarRel]
      simp only [World.run, h1, res_bind_ok]
      rfl
    rw [List.map_singleton, e2] at e3
    cases e3
    refine ⟨r2, ?_⟩
    rw [List.map_cons]
    simp only [Chk.run, j1, res_bind_ok]
    exact j2

end Debug
end Minikalman
