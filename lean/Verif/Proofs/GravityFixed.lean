import Verif.Model.Examples
import Verif.Proofs.FixedRange
import Verif.Proofs.ParametricBuild
import Verif.Proofs.Radar
import Verif.Spec.History
import Mathlib.Data.Fin.VecNotation

/-! # `examples/gravity_fixed.rs`: helper lemmas

The gains of a filter do not depend on the measurements; so the run of the program is a linear recursion with fixed gains and
small errors. -/

set_option linter.unusedSectionVars false

namespace Minikalman
namespace Examples

open Matrix

section Track
variable {T : Type} [Zero T] [One T] [Add T] [Sub T] [Mul T] [Neg T] [MDT T]

/-- The gains of `k` rounds of `predict` and `correct` and the covariance at the end. -/
def gainsOf (bld : Build) : Nat → RegularKalman 3 T → RegularObservation 3 1 T → Res (List (List T) × List T)
  | 0, f, _ => .ok ([], f.P.data)
  | k + 1, f, o => do
    let f ← f.predict
    let (f, o) ← f.correct bld o
    let (ks, p) ← gainsOf bld k f o
    pure (o.K.data :: ks, p)

/-- One round, given the gain and the measurement. -/
def track (A : Matrix (Fin 3) (Fin 3) T) (H : Matrix (Fin 1) (Fin 3) T) (x : Fin 3 → T) (kz : List T × T × T) : Fin 3 → T :=
  let xp := Spec.mulVecSeq A x
  xp + Spec.mulVecSeq (Spec.matOf kz.1 : Matrix (Fin 3) (Fin 1) T) ((fun _ => kz.2.1 + kz.2.2) - Spec.mulVecSeq H xp)

theorem matOf_reps {R C : Nat} {m : Mat R C T} {M : Matrix (Fin R) (Fin C) T} (h : m.Reps M) : Spec.matOf m.data = M := by
  funext i j
  unfold Spec.matOf
  rw [h i j]; rfl

theorem loop_track (bld : Build) {A : Matrix (Fin 3) (Fin 3) T} {H : Matrix (Fin 1) (Fin 3) T} {ks p} (data : List (T × T))
    {f g : RegularKalman 3 T} {o q : RegularObservation 3 1 T} {X : Fin 3 → T}
    (hf : f.Valid) (hg : g.Valid) (ho : o.Valid) (hq : q.Valid) (hA : f.A.Reps A) (hA' : g.A.Reps A) (hH : o.H.Reps H)
    (hP : f.P.Agree g.P) (hQ : f.Q.Agree g.Q) (hHq : o.H.Agree q.H) (hR : o.R.Agree q.R) (hX : g.x.RepsV X)
    (h : gainsOf bld data.length f o = .ok (ks, p)) :
    ∃ g' q', gravityLoop bld g q data = .ok (g', q') ∧ g'.x.RepsV ((ks.zip data).foldl (track A H) X) ∧
      g'.P.Reps (Spec.matOf p) := by
  induction data generalizing f g o q X ks p with
  | nil =>
    cases h
    refine ⟨g, q, rfl, hX, ?_⟩
    have := hP.reps hf.P.reps
    rwa [matOf_reps hf.P.reps]
  | cons d data ih =>
    obtain ⟨f1, a1, a2, a3, a4⟩ := predict_any (by decide) hf hf.x.repsV hA hf.P.reps hf.Q.reps
    obtain ⟨g1, b1, b2, b3, b4⟩ := predict_any (by decide) hg hX hA' (hP.reps hf.P.reps) (hQ.reps hf.Q.reps)
    obtain ⟨z, c1, c2, c3⟩ := indexSet_reps hq.z.repsV 0 (d.1 + d.2)
    have hz : z.Valid := by
      have := hq.z
      unfold Mat.Valid at this ⊢
      rw [c3]; exact this
    have hqz : ({ q with z := z } : RegularObservation 3 1 T).Valid :=
      ⟨hq.H, hz, hq.R, hq.y, hq.S, hq.K, hq.tempSInv, hq.tempHP, hq.tempPHt, hq.tempKHP⟩
    have hrel := correct_rel bld (o := o) (o' := { q with z := z }) (x := f1.x) (x' := g1.x) (P := f1.P) (P' := g1.P)
      (by decide) (by decide) ho hqz a3.valid hHq hR (a3.agree b3) hH a2 ho.z.repsV b2 c2
    simp only [List.length_cons, gainsOf, a1, res_bind_ok, RegularKalman.correct] at h
    rcases hrel with ⟨e, he, _⟩ | ⟨⟨o', x', P'⟩, ⟨q', y', P''⟩, h1, h2, r1, r2, r3, r4, r5, r6, r7, _, _, _, _, _, _, _, K, k1, k2, k3, k4⟩
    · rw [he] at h; cases h
    rw [h1] at h
    simp only [res_bind_ok] at h
    obtain ⟨fo, h5, h6⟩ := bind_ok h
    cases h5
    obtain ⟨⟨ks', p'⟩, h3, h4⟩ := bind_ok h6
    cases h4
    have hf1 := a4.valid hf
    have hg1 := b4.valid hg
    obtain ⟨g', q'', i1, i2, i3⟩ := ih (f := { f1 with x := x', P := P' }) (g := { g1 with x := y', P := P'' }) (o := o')
      (q := q') ⟨k3.valid, hf1.A, r5.valid a3.valid, hf1.Q, hf1.predictedX, hf1.tempP⟩
      ⟨k4.valid, hg1.A, r6.valid b3.valid, hg1.Q, hg1.predictedX, hg1.tempP⟩ (r1.valid ho) (r2.valid hqz)
      (a4.A ▸ hA) (b4.A ▸ hA') (r1.H ▸ hH) r7 (a4.Q ▸ b4.Q ▸ hQ) (r1.H ▸ r2.H ▸ hHq) (r1.R ▸ r2.R ▸ hR) k4 h3
    refine ⟨g', q'', ?_, ?_, i3⟩
    · simp only [gravityLoop, b1, res_bind_ok, RegularKalman.correct]
      change q.z.indexSet 0 (d.1 + d.2) = _ at c1
      rw [c1]
      simp only [res_bind_ok, h2]
      exact i1
    · simp only [List.zip_cons_cons, List.foldl_cons]
      convert i2 using 2
      unfold track
      simp only
      rw [matOf_reps k1]
      congr 3
      funext i
      fin_cases i
      simp

end Track

/-! ## Errors -/

open FixedPoint

theorem watched_mulVec {f R C : Nat} (hf : 2 ≤ f) {A : Matrix (Fin R) (Fin C) (Watched f)} {x : Fin C → Watched f} {i}
    (hA : ∀ k, (A i k).clean = true) (hx : ∀ k, (x k).clean = true)
    (h : (∑ k, |(A i k).num.val| * |(x k).num.val|) + C * (1 / 2 ^ f) < 2 ^ f / 2) :
    (Spec.mulVecSeq A x i).clean = true ∧
      |(Spec.mulVecSeq A x i).num.val - ∑ k, (A i k).num.val * (x k).num.val| ≤ C * (1 / 2 ^ f) := by
  have hc : (Spec.mulVecSeq A x i).clean = true := Watched.dotFirst_fits (by omega) hA hx h
  refine ⟨hc, ?_⟩
  have := ((Watched.rounded hf).mulVecSeq_bound hc).2
  simp only [Rounded.γ, Rounded.δ, Watched.rounded, add_zero, one_pow, sub_self, zero_mul, zero_add, mul_one] at this
  exact this

theorem watched_sub {f : Nat} (hf : 1 ≤ f) {a b : Watched f} (ha : a.clean = true) (hb : b.clean = true)
    (h : |a.num.val - b.num.val| < 2 ^ f / 2) : (a - b).clean = true ∧ (a - b).num.val = a.num.val - b.num.val := by
  have h3 : InRange f (a.num.bits.toInt - b.num.bits.toInt) := by
    refine FixedPoint.inRange_exact hf ?_
    unfold FixedPoint.val at h
    push_cast
    rwa [sub_div]
  exact ⟨Watched.sub_clean.2 ⟨ha, hb, h3⟩, FixedPoint.val_sub h3⟩

/-- The values of the constant matrices of the program. -/
structure Consts (A : Matrix (Fin 3) (Fin 3) (Watched 16)) (H : Matrix (Fin 1) (Fin 3) (Watched 16)) : Prop where
  cleanA : ∀ i j, (A i j).clean = true
  cleanH : ∀ i j, (H i j).clean = true
  row0 : (A 0 0).num.val = 1 ∧ (A 0 1).num.val = 1 ∧ (A 0 2).num.val = 1 / 2
  row1 : (A 1 0).num.val = 0 ∧ (A 1 1).num.val = 1 ∧ (A 1 2).num.val = 1
  row2 : (A 2 0).num.val = 0 ∧ (A 2 1).num.val = 0 ∧ (A 2 2).num.val = 1
  rowH : (H 0 0).num.val = 1 ∧ (H 0 1).num.val = 0 ∧ (H 0 2).num.val = 0

theorem track_step {A H} (hc : Consts A H) {x : Fin 3 → Watched 16} {K : List (Watched 16)} {m e : Watched 16}
    (hx : ∀ i, (x i).clean = true) (hxb : ∀ i, |(x i).num.val| ≤ 1000)
    (hK : ∀ i, ((Spec.matOf K : Matrix (Fin 3) (Fin 1) _) i 0).clean = true)
    (hKb : ∀ i, |((Spec.matOf K : Matrix (Fin 3) (Fin 1) _) i 0).num.val| ≤ 1)
    (hm : m.clean = true) (he : e.clean = true) (hmb : |m.num.val| ≤ 1000) (heb : |e.num.val| ≤ 4) :
    (∀ i, (track A H x (K, m, e) i).clean = true) ∧ ∃ (e1 : Fin 3 → ℝ) (e2 : ℝ) (e3 : Fin 3 → ℝ),
      (∀ i, |e1 i| ≤ 3 / 2 ^ 16) ∧ |e2| ≤ 3 / 2 ^ 16 ∧ (∀ i, |e3 i| ≤ 1 / 2 ^ 16) ∧
      ∀ i, (track A H x (K, m, e) i).num.val =
        (![(x 0).num.val + (x 1).num.val + (x 2).num.val / 2, (x 1).num.val + (x 2).num.val, (x 2).num.val] i + e1 i) +
        ((Spec.matOf K : Matrix (Fin 3) (Fin 1) _) i 0).num.val *
          (m.num.val + e.num.val - ((x 0).num.val + (x 1).num.val + (x 2).num.val / 2 + e1 0) - e2) + e3 i := by
  obtain ⟨a00, a01, a02⟩ := hc.row0
  obtain ⟨a10, a11, a12⟩ := hc.row1
  obtain ⟨a20, a21, a22⟩ := hc.row2
  obtain ⟨h00, h01, h02⟩ := hc.rowH
  have b0 := hxb 0
  have b1 := hxb 1
  have b2 := hxb 2
  have hp : ∀ i, (Spec.mulVecSeq A x i).clean = true ∧
      |(Spec.mulVecSeq A x i).num.val - ![(x 0).num.val + (x 1).num.val + (x 2).num.val / 2, (x 1).num.val + (x 2).num.val,
        (x 2).num.val] i| ≤ 3 / 2 ^ 16 := by
    intro i
    obtain ⟨w1, w2⟩ := watched_mulVec (f := 16) (by decide) (A := A) (x := x) (i := i) (hc.cleanA i) hx (by
      fin_cases i <;> simp only [Fin.sum_univ_three, Fin.zero_eta, Fin.mk_one, Fin.reduceFinMk, a00, a01, a02, a10, a11, a12,
        a20, a21, a22] <;> norm_num [abs_of_pos] <;> linarith)
    refine ⟨w1, ?_⟩
    have e : ∑ k, (A i k).num.val * (x k).num.val = ![(x 0).num.val + (x 1).num.val + (x 2).num.val / 2,
        (x 1).num.val + (x 2).num.val, (x 2).num.val] i := by
      fin_cases i <;> simp [Fin.sum_univ_three, a00, a01, a02, a10, a11, a12, a20, a21, a22]
      ring
    rw [e] at w2
    refine w2.trans (le_of_eq ?_)
    norm_num
  generalize hxp : Spec.mulVecSeq A x = xp at hp
  have bp : ∀ i, |(xp i).num.val| ≤ 2501 := by
    intro i
    have := (hp i).2
    have h2 : |(![(x 0).num.val + (x 1).num.val + (x 2).num.val / 2, (x 1).num.val + (x 2).num.val, (x 2).num.val] : Fin 3 → ℝ) i|
        ≤ 2500 := by
      rw [abs_le] at b0 b1 b2 ⊢
      fin_cases i <;> simp <;> constructor <;> linarith
    have := FixedPoint.abs_le_of_err this h2
    norm_num at this ⊢
    linarith
  obtain ⟨y1, y2⟩ := watched_mulVec (f := 16) (by decide) (A := H) (x := xp) (i := 0) (hc.cleanH 0) (fun k => (hp k).1) (by
      have := bp 0
      simp only [Fin.sum_univ_three, h00, h01, h02]
      norm_num
      linarith)
  rw [show ∑ k, (H 0 k).num.val * (xp k).num.val = (xp 0).num.val by simp [Fin.sum_univ_three, h00, h01, h02]] at y2
  generalize hh : Spec.mulVecSeq H xp 0 = h at y1 y2
  have y2' : |h.num.val - (xp 0).num.val| ≤ 3 / 2 ^ 16 := y2.trans (le_of_eq (by norm_num))
  have bh : |h.num.val| ≤ 2502 := by
    have := FixedPoint.abs_le_of_err y2' (bp 0)
    norm_num at this ⊢
    linarith
  obtain ⟨z1, z2⟩ := Watched.add_fits (f := 16) (by decide) hm he (by
    have := abs_add_le m.num.val e.num.val
    norm_num at this ⊢; linarith)
  have bz : |(m + e).num.val| ≤ 1004 := by
    rw [z2]; have := abs_add_le m.num.val e.num.val
    linarith
  obtain ⟨v1, v2⟩ := watched_sub (f := 16) (by decide) z1 y1 (by
    have := abs_sub (m + e).num.val h.num.val
    norm_num at this ⊢; linarith)
  have bv : |(m + e - h).num.val| ≤ 3506 := by
    rw [v2]; have := abs_sub (m + e).num.val h.num.val
    linarith
  have hy : ((fun _ => m + e) - Spec.mulVecSeq H xp : Fin 1 → Watched 16) = fun _ => m + e - h := by
    funext j; fin_cases j; rw [← hh]; rfl
  have hk : ∀ i, (Spec.mulVecSeq (Spec.matOf K : Matrix (Fin 3) (Fin 1) _) (fun _ => m + e - h) i).clean = true ∧
      |(Spec.mulVecSeq (Spec.matOf K : Matrix (Fin 3) (Fin 1) _) (fun _ => m + e - h) i).num.val -
        ((Spec.matOf K : Matrix (Fin 3) (Fin 1) _) i 0).num.val * (m + e - h).num.val| ≤ 1 / 2 ^ 16 := by
    intro i
    have bm : |((Spec.matOf K : Matrix (Fin 3) (Fin 1) _) i 0).num.val| * |(m + e - h).num.val| ≤ 1 * 3506 :=
      mul_le_mul (hKb i) bv (abs_nonneg _) zero_le_one
    obtain ⟨w1, w2⟩ := watched_mulVec (f := 16) (by decide) (A := (Spec.matOf K : Matrix (Fin 3) (Fin 1) _))
      (x := fun _ => m + e - h) (i := i) (fun k => by rw [Subsingleton.elim k 0]; exact hK i) (fun _ => v1) (by
        rw [Fin.sum_univ_one]
        norm_num at bm ⊢
        linarith)
    rw [Fin.sum_univ_one] at w2
    exact ⟨w1, w2.trans (le_of_eq (by norm_num))⟩
  have bk : ∀ i, |(Spec.mulVecSeq (Spec.matOf K : Matrix (Fin 3) (Fin 1) _) (fun _ => m + e - h) i).num.val| ≤ 3507 := by
    intro i
    have bm : |((Spec.matOf K : Matrix (Fin 3) (Fin 1) _) i 0).num.val * (m + e - h).num.val| ≤ 1 * 3506 := by
      rw [abs_mul]; exact mul_le_mul (hKb i) bv (abs_nonneg _) zero_le_one
    have := FixedPoint.abs_le_of_err (hk i).2 bm
    norm_num at this ⊢
    linarith
  have hr : ∀ i, (xp i + Spec.mulVecSeq (Spec.matOf K : Matrix (Fin 3) (Fin 1) _) (fun _ => m + e - h) i).clean = true ∧ _ :=
    fun i => Watched.add_fits (f := 16) (by decide) (hp i).1 (hk i).1 (by
      have := abs_add_le (xp i).num.val (Spec.mulVecSeq (Spec.matOf K : Matrix (Fin 3) (Fin 1) _) (fun _ => m + e - h) i).num.val
      have := bp i
      have := bk i
      norm_num
      linarith)
  have ht : track A H x (K, m, e) = xp + Spec.mulVecSeq (Spec.matOf K : Matrix (Fin 3) (Fin 1) _) (fun _ => m + e - h) := by
    unfold track
    simp only
    rw [hxp, hy]
  rw [ht]
  refine ⟨fun i => (hr i).1, fun i => (xp i).num.val - ![(x 0).num.val + (x 1).num.val + (x 2).num.val / 2,
    (x 1).num.val + (x 2).num.val, (x 2).num.val] i, h.num.val - (xp 0).num.val,
    fun i => (Spec.mulVecSeq (Spec.matOf K : Matrix (Fin 3) (Fin 1) _) (fun _ => m + e - h) i).num.val -
        ((Spec.matOf K : Matrix (Fin 3) (Fin 1) _) i 0).num.val * (m + e - h).num.val, fun i => (hp i).2, y2', fun i => (hk i).2,
    fun i => ?_⟩
  show (xp i + Spec.mulVecSeq (Spec.matOf K : Matrix (Fin 3) (Fin 1) _) (fun _ => m + e - h) i).num.val = _
  rw [(hr i).2, v2, z2]
  simp only [Matrix.cons_val_zero]
  ring

/-- A linear functional of the state. -/
abbrev Functional := ℚ × ℚ × ℚ

/-- The value of a functional at a state. -/
noncomputable def Functional.at (l : Functional) (x : Fin 3 → Watched 16) : ℝ :=
  l.1 * (x 0).num.val + l.2.1 * (x 1).num.val + l.2.2 * (x 2).num.val

/-- The rational value of a number. -/
def ratOf (w : Watched 16) : ℚ := (w.num.bits.toInt : ℚ) / 2 ^ 16

theorem ratOf_val (w : Watched 16) : ((ratOf w : ℚ) : ℝ) = w.num.val := by
  unfold ratOf FixedPoint.val
  push_cast; rfl

/-- The `i`-th entry of the gain. -/
def kOf (K : List (Watched 16)) (i : Fin 3) : ℚ := ratOf ((Spec.matOf K : Matrix (Fin 3) (Fin 1) _) i 0)

/-- Coefficient of the measurement in the functional of the corrected state. -/
def coef (l : Functional) (K : List (Watched 16)) : ℚ := l.1 * kOf K 0 + l.2.1 * kOf K 1 + l.2.2 * kOf K 2

/-- The functional, pulled back to the state before the round. -/
def pull (l : Functional) (K : List (Watched 16)) : Functional :=
  let a := l.1 - coef l K
  (a, a + l.2.1, a / 2 + l.2.1 + l.2.2)

/-- Bound for the rounding errors of a round. -/
def fuzz (l : Functional) (K : List (Watched 16)) : ℚ :=
  (3 * (|l.1 - coef l K| + |l.2.1| + |l.2.2|) + 3 * |coef l K| + (|l.1| + |l.2.1| + |l.2.2|)) / 2 ^ 16

theorem track_functional {A H} (hc : Consts A H) {x : Fin 3 → Watched 16} {K : List (Watched 16)} {m e : Watched 16}
    (hx : ∀ i, (x i).clean = true) (hxb : ∀ i, |(x i).num.val| ≤ 1000)
    (hK : ∀ i, ((Spec.matOf K : Matrix (Fin 3) (Fin 1) _) i 0).clean = true) (hKb : ∀ i, |kOf K i| ≤ 1)
    (hm : m.clean = true) (he : e.clean = true) (hmb : |ratOf m| ≤ 1000) (heb : |e.num.val| ≤ 4) :
    (∀ i, (track A H x (K, m, e) i).clean = true) ∧ ∀ l : Functional,
      |l.at (track A H x (K, m, e)) - ((pull l K).at x + coef l K * ratOf m + coef l K * e.num.val)| ≤ fuzz l K := by
  have hKr : ∀ i, ((Spec.matOf K : Matrix (Fin 3) (Fin 1) _) i 0).num.val = (kOf K i : ℝ) := fun i => (ratOf_val _).symm
  obtain ⟨h1, e1, e2, e3, g1, g2, g3, g4⟩ := track_step hc hx hxb hK
    (fun i => by rw [hKr]; exact_mod_cast hKb i) hm he (by rw [← ratOf_val]; exact_mod_cast hmb) heb
  refine ⟨h1, fun l => ?_⟩
  have k0 := g4 0
  have k1 := g4 1
  have k2 := g4 2
  rw [hKr] at k0 k1 k2
  simp only [Matrix.cons_val_zero, Matrix.cons_val_one, Matrix.cons_val] at k0 k1 k2
  have key : l.at (track A H x (K, m, e)) - ((pull l K).at x + coef l K * ratOf m + coef l K * e.num.val) =
      ((l.1 - coef l K : ℚ) : ℝ) * e1 0 + (l.2.1 * e1 1 + (l.2.2 * e1 2 + (coef l K * -e2 +
        (l.1 * e3 0 + (l.2.1 * e3 1 + l.2.2 * e3 2))))) := by
    unfold Functional.at pull
    rw [k0, k1, k2, ratOf_val]
    simp only [coef]
    push_cast
    ring
  rw [key]
  have ab : ∀ (a b d r : ℝ), |b| ≤ d → ∀ t s, |r| ≤ s → |a| * d ≤ t → |a * b + r| ≤ t + s := by
    intro a b d r hb t s hr ht
    have := abs_add_le (a * b) r
    rw [abs_mul] at this
    have := mul_le_mul_of_nonneg_left hb (abs_nonneg a)
    linarith
  have last : |(l.2.2 : ℝ) * e3 2| ≤ |(l.2.2 : ℝ)| * (1 / 2 ^ 16) := by
    rw [abs_mul]; exact mul_le_mul_of_nonneg_left (g3 2) (abs_nonneg _)
  have all := ab ((l.1 - coef l K : ℚ) : ℝ) _ _ _ (g1 0) _ _ (ab (l.2.1 : ℝ) _ _ _ (g1 1) _ _ (ab (l.2.2 : ℝ) _ _ _ (g1 2) _ _
    (ab (coef l K : ℝ) _ _ _ (show |-e2| ≤ 3 / 2 ^ 16 by rw [abs_neg]; exact g2) _ _ (ab (l.1 : ℝ) _ _ _ (g3 0) _ _ (ab (l.2.1 : ℝ) _ _ _ (g3 1) _ _
      last le_rfl) le_rfl) le_rfl) le_rfl) le_rfl) le_rfl
  refine all.trans (le_of_eq ?_)
  unfold fuzz
  push_cast
  ring

/-- Bounds for a functional of the state after a history (latest round first) from the state `(0, 0, 6)`: its value without
measurement and rounding errors, the possible effect of the rounding errors, and of measurement errors of at most 1. -/
def bounds (l : Functional) : List (List (Watched 16) × Watched 16) → ℚ × ℚ × ℚ
  | [] => (l.2.2 * 6, 0, 0)
  | (K, m) :: h =>
    let b := bounds (pull l K) h
    (b.1 + coef l K * ratOf m, b.2.1 + fuzz l K, b.2.2 + |coef l K|)

/-- The functional is at most 1000 in magnitude. -/
def small (h : List (List (Watched 16) × Watched 16)) (l : Functional) : Bool :=
  let b := bounds l h
  decide (|b.1| + b.2.1 + 4 * b.2.2 ≤ 1000)

/-- Gains and measurements of the history are fine, and the state remains small. -/
def fine : List (List (Watched 16) × Watched 16) → Bool
  | [] => true
  | (K, m) :: h => fine h && ([0, 1, 2].all fun i : Fin 3 =>
      ((Spec.matOf K : Matrix (Fin 3) (Fin 1) _) i 0).clean && decide (|kOf K i| ≤ 1)) &&
    m.clean && decide (|ratOf m| ≤ 1000) &&
    ([(1, 0, 0), (0, 1, 0), (0, 0, 1)] : List Functional).all (small h)

theorem track_bounds {A H} (hc : Consts A H) {x : Fin 3 → Watched 16} (hx : ∀ i, (x i).clean = true)
    (hx0 : (x 0).num.val = 0 ∧ (x 1).num.val = 0 ∧ (x 2).num.val = 6) (h : List (List (Watched 16) × Watched 16))
    (errs : List (Watched 16)) (hl : errs.length = h.length) (he : ∀ e ∈ errs, e.clean = true ∧ |e.num.val| ≤ 4)
    (hf : fine h = true) :
    (∀ i, (((h.zip errs).foldr (fun d x => track A H x (d.1.1, d.1.2, d.2)) x) i).clean = true) ∧
    ∀ l, |l.at ((h.zip errs).foldr (fun d x => track A H x (d.1.1, d.1.2, d.2)) x) - (bounds l h).1| ≤
      (bounds l h).2.1 + 4 * (bounds l h).2.2 := by
  induction h generalizing errs with
  | nil =>
    refine ⟨hx, fun l => ?_⟩
    simp [Functional.at, bounds, hx0]
  | cons d h ih =>
    obtain ⟨K, m⟩ := d
    cases errs with
    | nil => cases hl
    | cons e errs =>
      simp only [fine, Bool.and_eq_true, List.all_cons, List.all_nil, decide_eq_true_eq, and_true] at hf
      obtain ⟨⟨⟨⟨f1, ⟨f2, f2'⟩, ⟨f3, f3'⟩, f4, f4'⟩, f5⟩, f6⟩, f7, f8, f9⟩ := hf
      obtain ⟨i1, i2⟩ := ih errs (by simpa using hl) (fun e he' => he e (List.mem_cons_of_mem _ he')) f1
      simp only [List.zip_cons_cons, List.foldr_cons]
      generalize (h.zip errs).foldr (fun d x => track A H x (d.1.1, d.1.2, d.2)) x = y at i1 i2 ⊢
      obtain ⟨e1, e2⟩ := he e List.mem_cons_self
      have hs : ∀ i, |(y i).num.val| ≤ 1000 := by
        have key : ∀ l, small h l = true → |l.at y| ≤ 1000 := by
          intro l hl
          have b1 := i2 l
          have b2 : |(bounds l h).1| + (bounds l h).2.1 + 4 * (bounds l h).2.2 ≤ 1000 := of_decide_eq_true hl
          have b3 : |((bounds l h).1 : ℝ)| + (bounds l h).2.1 + 4 * (bounds l h).2.2 ≤ 1000 := by exact_mod_cast b2
          have := FixedPoint.abs_le_of_err b1 le_rfl
          linarith
        intro i
        fin_cases i
        · simpa [Functional.at] using key _ f7
        · simpa [Functional.at] using key _ f8
        · simpa [Functional.at] using key _ f9
      obtain ⟨g1, g2⟩ := track_functional hc i1 hs (K := K) (m := m) (e := e)
        (fun i => by fin_cases i <;> assumption) (fun i => by fin_cases i <;> assumption) f5 e1 f6 e2
      refine ⟨g1, fun l => ?_⟩
      have a1 := g2 l
      have a2 := i2 (pull l K)
      simp only [bounds]
      have a3 : |(coef l K : ℝ) * e.num.val| ≤ |(coef l K : ℝ)| * 4 := by
        rw [abs_mul]; exact mul_le_mul_of_nonneg_left e2 (abs_nonneg _)
      push_cast
      rw [abs_le] at a1 a2 a3 ⊢
      constructor <;> linarith [a1.1, a1.2, a2.1, a2.2, a3.1, a3.2]

/-! ## The program over related types -/

section Related
variable {T T' : Type} [Zero T] [One T] [Add T] [Sub T] [Mul T] [Neg T] [MDT T] [Inhabited T]
variable [Zero T'] [One T'] [Add T'] [Sub T'] [Mul T'] [Neg T'] [MDT T'] [Inhabited T'] {r : T → T' → Prop} (hr : ScalarRel r)
include hr

theorem setAt_rel {R C : Nat} {m : Mat R C T} {m' : Mat R C T'} (h : m.Related r m') (i j : Nat) {a b} (hab : r a b) :
    Rel2 (m.setAt i j a) (m'.setAt i j b) (Mat.Related r) := by
  unfold Mat.setAt
  exact Rel2.bind (Param.rel2_wr h _ hab) fun _ _ h => Rel2.pure h

theorem indexSet_rel {R C : Nat} {m : Mat R C T} {m' : Mat R C T'} (h : m.Related r m') (i : Nat) {a b} (hab : r a b) :
    Rel2 (m.indexSet i a) (m'.indexSet i b) (Mat.Related r) := by
  unfold Mat.indexSet
  exact Rel2.bind (Param.rel2_wr h _ hab) fun _ _ h => Rel2.pure h

theorem gravityFilter_rel {half tenth six : T} {half' tenth' six' : T'} (h1 : r half half') (h2 : r tenth tenth')
    (h3 : r six six') {f : RegularKalman 3 T} {g : RegularKalman 3 T'} (h : f.Related r g) :
    Rel2 (gravityFilter half tenth six f) (gravityFilter half' tenth' six' g) (RegularKalman.Related r) := by
  unfold gravityFilter
  refine Rel2.bind (P := Mat.Related r) ?_ fun _ _ hx => Rel2.bind (P := Mat.Related r) ?_ fun _ _ hA =>
    Rel2.bind (P := Mat.Related r) ?_ fun _ _ hP => Rel2.pure ⟨hx, hA, hP, h.Q, h.predictedX, h.tempP⟩
  · exact Rel2.bind (indexSet_rel hr h.x 0 hr.zero) fun _ _ h => Rel2.bind (indexSet_rel hr h 1 hr.zero) fun _ _ h =>
      indexSet_rel hr h 2 h3
  · exact Rel2.bind (setAt_rel hr h.A 0 0 hr.one) fun _ _ h => Rel2.bind (setAt_rel hr h 0 1 hr.one) fun _ _ h =>
      Rel2.bind (setAt_rel hr h 0 2 (hr.mul (hr.mul h1 hr.one) hr.one)) fun _ _ h =>
      Rel2.bind (setAt_rel hr h 1 0 hr.zero) fun _ _ h => Rel2.bind (setAt_rel hr h 1 1 hr.one) fun _ _ h =>
      Rel2.bind (setAt_rel hr h 1 2 hr.one) fun _ _ h => Rel2.bind (setAt_rel hr h 2 0 hr.zero) fun _ _ h =>
      Rel2.bind (setAt_rel hr h 2 1 hr.zero) fun _ _ h => setAt_rel hr h 2 2 hr.one
  · exact Rel2.bind (setAt_rel hr h.P 0 0 h2) fun _ _ h => Rel2.bind (setAt_rel hr h 0 1 hr.zero) fun _ _ h =>
      Rel2.bind (setAt_rel hr h 0 2 hr.zero) fun _ _ h => Rel2.bind (setAt_rel hr h 1 1 hr.one) fun _ _ h =>
      Rel2.bind (setAt_rel hr h 1 2 hr.zero) fun _ _ h => setAt_rel hr h 2 2 hr.one

theorem gravityObservation_rel {half : T} {half' : T'} (h1 : r half half') {o : RegularObservation 3 1 T}
    {p : RegularObservation 3 1 T'} (h : o.Related r p) :
    Rel2 (gravityObservation half o) (gravityObservation half' p) (RegularObservation.Related r) := by
  unfold gravityObservation
  refine Rel2.bind (P := Mat.Related r) ?_ fun _ _ hH => Rel2.bind (setAt_rel hr h.R 0 0 h1) fun _ _ hR =>
    Rel2.pure ⟨hH, h.z, hR, h.y, h.S, h.K, h.tempSInv, h.tempHP, h.tempPHt, h.tempKHP⟩
  exact Rel2.bind (setAt_rel hr h.H 0 0 hr.one) fun _ _ h => Rel2.bind (setAt_rel hr h 0 1 hr.zero) fun _ _ h =>
    setAt_rel hr h 0 2 hr.zero

theorem gravityLoop_rel (bld : Build) {f : RegularKalman 3 T} {g : RegularKalman 3 T'} {o : RegularObservation 3 1 T}
    {p : RegularObservation 3 1 T'} (h : f.Related r g) (ho : o.Related r p) {data : List (T × T)} {data' : List (T' × T')}
    (hd : List.Forall₂ (fun a b => r a.1 b.1 ∧ r a.2 b.2) data data') :
    Rel2 (gravityLoop bld f o data) (gravityLoop bld g p data') (fun a b => a.1.Related r b.1 ∧ a.2.Related r b.2) := by
  induction hd generalizing f g o p with
  | nil => exact Rel2.ok ⟨h, ho⟩
  | cons hab _ ih =>
    obtain ⟨m, e⟩ := ‹T × T›
    unfold gravityLoop
    refine Rel2.bind (Param.predict_rel hr h) fun _ _ h => Rel2.bind (indexSet_rel hr ho.z 0 (hr.add hab.1 hab.2)) fun _ _ hz =>
      Rel2.bind (Param.kcorrect_rel hr bld h ⟨ho.H, hz, ho.R, ho.y, ho.S, ho.K, ho.tempSInv, ho.tempHP, ho.tempPHt, ho.tempKHP⟩)
        fun _ _ h => ih h.1 h.2

end Related
end Examples
end Minikalman
