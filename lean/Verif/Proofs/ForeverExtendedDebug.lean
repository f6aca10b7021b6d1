import Verif.Proofs.ForeverDebug
import Verif.Proofs.ForeverExtended

/-!
# An extended filter with one state in builds with overflow checks
-/

namespace Minikalman
variable {f : Nat} {σ : Type}

theorem debug_xcorrect (bld : Build) {k : ExtendedKalman 1 (FixedPoint f)} {o : ExtendedObservation 1 1 (FixedPoint f)} {x p h z r : Watched f}
    {b : Watched f} {g : σ → Mat 1 1 (FixedPoint f) → Mat 1 1 (FixedPoint f) → Res (σ × Mat 1 1 (FixedPoint f))} {st st' : σ} {out'}
    (hkx : k.x.data[0]? = some x.num) (hkP : k.P.data[0]? = some p.num) (hH : o.H.data[0]? = some h.num) (hz : o.z.data[0]? = some z.num)
    (hR : o.R.data[0]? = some r.num) (hv : o.asRegular.Valid) (hg : g st k.x o.y = .ok (st', out')) (hb : out'.data[0]? = some b.num)
    {sq d : Watched f} (hle : MDT.le (0 + (0 + h * p) * h + r) 0 = false) (hsq : MDT.squareRoot (0 + (0 + h * p) * h + r) = .ok sq)
    (hd : MDT.recip sq = .ok d) (hx : (x + (0 + (0 + p * h) * scalarInverse d) * (z - b)).clean = true)
    (hP : (p - (0 + (0 + (0 + p * h) * scalarInverse d) * (0 + h * p))).clean = true) :
    ∃ r, Chk.correctNonlinear (FixedPoint.debugOps f) bld k o g st = .ok r := by
  obtain ⟨kx, kA, kP, kQ, k5, k6⟩ := k
  obtain ⟨bH, bz, bR, by', bS, bK, bSI, bHP, bPH, bKHP⟩ := o
  obtain ⟨l1, rfl⟩ := head_of hkx
  obtain ⟨l2, rfl⟩ := head_of hkP
  obtain ⟨l3, rfl⟩ := head_of hH
  obtain ⟨l4, rfl⟩ := head_of hz
  obtain ⟨l5, rfl⟩ := head_of hR
  obtain ⟨l6, rfl⟩ := head_of hb
  obtain ⟨v7, l7, rfl⟩ := head_valid hv.S
  obtain ⟨v8, l8, rfl⟩ := head_valid hv.K
  obtain ⟨v9, l9, rfl⟩ := head_valid hv.tempSInv
  obtain ⟨v10, l10, rfl⟩ := head_valid hv.tempHP
  obtain ⟨v11, l11, rfl⟩ := head_valid hv.tempPHt
  obtain ⟨v12, l12, rfl⟩ := head_valid hv.tempKHP
  have c1 := (add_parts hx).2
  have c2 := (mul_parts c1).1
  have c3 := (mul_parts c1).2
  have c5 := (add_parts c2).2
  have c6 := (mul_parts c5).1
  have c7 : (scalarInverse d).clean = true := (mul_parts c5).2
  have hinv : scalarInverse d = ((1 + 0) * d + 0) * d := rfl
  rw [hinv] at c7 c5 c2 c1 hx hP
  have c8 := (mul_parts c7).1
  have c9 := (add_parts c8).1
  have c10 := (mul_parts c9).1
  obtain ⟨c11, hd'⟩ := recip_clean hd (mul_parts c9).2
  obtain ⟨c12, hsq'⟩ := sqrt_clean hsq c11
  have c13 := (add_parts c12).1
  have c14 := (add_parts c13).2
  have c15 := (mul_parts c14).1
  have c16 := (add_parts c15).2
  have c17 := (add_parts c6).2
  have c18 := (sub_parts hP).2
  have c19 := (add_parts c18).2
  have z0 : (FixedPoint.debugOps f).zero = (0 : Watched f).num := rfl
  have z1 : (FixedPoint.debugOps f).one = (1 : Watched f).num := rfl
  have z2 : (FixedPoint.debugOps f).sumStart = (0 : Watched f).num := rfl
  have hle' : (FixedPoint.debugOps f).le (0 + (0 + h * p) * h + r).num (0 : Watched f).num = .ok false := congrArg Except.ok hle
  have hm0 : (FixedPoint.debugOps f).mul (0 + (0 + h * p) * h + r).num (0 : Watched f).num = .ok ((0 + (0 + h * p) * h + r).num * 0) :=
    mul_zero_inRange _
  simp only [Chk.correctNonlinear, Chk.xupdateWithInnovation, hg,
    Chk.subInplaceB1, Chk.mult1, Chk.multTransb1, Chk.addInplaceA1, Chk.chol1, Chk.invert1, Chk.multaddRowvector1,
    Chk.subInplaceA1, z0, z1, z2, dbg_sub c3, dbg_mul c16, dbg_add c15, dbg_mul c14, dbg_add c13, dbg_add c12, hm0, hle',
    hsq', hd', dbg_add c10, dbg_mul c9, dbg_add c8, dbg_mul c7, dbg_mul c17, dbg_add c6, dbg_mul c5, dbg_add c2, dbg_mul c1, dbg_add hx,
    dbg_mul c19, dbg_add c18, dbg_sub hP, res_bind_ok, Bool.false_eq_true, if_false]
  exact ⟨_, rfl⟩

theorem debug_xpredict {k : ExtendedKalman 1 (FixedPoint f)} {a p q : Watched f} {b : FixedPoint f}
    {g : σ → Mat 1 1 (FixedPoint f) → Mat 1 1 (FixedPoint f) → Res (σ × Mat 1 1 (FixedPoint f))} {st st' : σ} {out'}
    (hkA : k.A.data[0]? = some a.num) (hkP : k.P.data[0]? = some p.num) (hkQ : k.Q.data[0]? = some q.num) (hv : k.asRegular.Valid)
    (hg : g st k.x k.predictedX = .ok (st', out')) (hb : out'.data[0]? = some b) (hP : (0 + (0 + a * p) * a + q).clean = true) :
    ∃ r, Chk.predictNonlinear (FixedPoint.debugOps f) k g st = .ok r := by
  obtain ⟨kx, kA, kP, kQ, k5, k6⟩ := k
  obtain ⟨l2, rfl⟩ := head_of hkP
  obtain ⟨l3, rfl⟩ := head_of hkA
  obtain ⟨l4, rfl⟩ := head_of hkQ
  obtain ⟨l5, rfl⟩ := head_of hb
  obtain ⟨v1, l1, rfl⟩ := head_valid hv.x
  obtain ⟨v6, l6, rfl⟩ := head_valid hv.tempP
  have c1 := (add_parts hP).1
  have c2 := (add_parts c1).2
  have c3 := (mul_parts c2).1
  have c4 := (add_parts c3).2
  have z0 : (FixedPoint.debugOps f).zero = (0 : Watched f).num := rfl
  have hpure : ∀ {α : Type} (a : α), (pure a : Res α) = .ok a := fun _ => rfl
  simp only [hpure, Chk.predictNonlinear, Chk.predictXNonlinear, hg, Chk.mult1,
    Chk.multTransb1, Chk.addInplaceB1, Chk.copyTo1, z0, dbg_mul c4, dbg_add c3, dbg_mul c2, dbg_add c1, dbg_add hP, res_bind_ok]
  exact ⟨_, rfl⟩

theorem related_get {w : XWorld 1 (Watched f) σ} {u : XWorld 1 (FixedPoint f) σ} (h : w.Related Eq (fun a b => a.num = b) u) {i : Nat} {s}
    (hi : w.obs[i]? = some s) : ∃ t, u.obs[i]? = some t ∧ XObsRelated (fun (a : Watched f) b => a.num = b) s t := by
  have h := h.obs
  revert i
  generalize w.obs = l, u.obs = l' at *
  induction h with
  | nil => intro i hi; cases hi
  | cons h1 _ ih =>
    intro i hi
    cases i with
    | zero => cases hi; exact ⟨_, rfl, h1⟩
    | succ i => exact ih hi

theorem related_head {R C : Nat} {a : Mat R C (Watched f)} {b : Mat R C (FixedPoint f)} (h : a.Related (fun a b => a.num = b) b) {v}
    (hv : a.data[0]? = some v) : b.data[0]? = some v.num := by
  obtain rfl := Param.mat_fun.1 h
  show (a.data.map _)[0]? = _
  rw [List.getElem?_map, hv]
  rfl

theorem related_length {R C : Nat} {a : Mat R C (Watched f)} {b : Mat R C (FixedPoint f)} (h : a.Related (fun a b => a.num = b) b) :
    b.data.length = a.data.length := by
  obtain rfl := Param.mat_fun.1 h
  exact List.length_map _

theorem related_mat_valid {R C : Nat} {a : Mat R C (Watched f)} {b : Mat R C (FixedPoint f)} (h : a.Related (fun a b => a.num = b) b)
    (hv : a.Valid) : b.Valid := by
  show _ ≤ b.data.length
  rw [related_length h]
  exact hv

end Minikalman
