import Verif.Model.Examples
import Verif.Proofs.Riccati
import Verif.Props.Steps

/-! # The gravity programs: helper lemmas

The gains of the programs do not depend on the data; they are computed here over ℚ, together with the coefficients with
which the data enter the estimate. -/

set_option linter.unusedSectionVars false

namespace Minikalman
namespace Examples

open Matrix

/-- A symmetric 3×3 matrix over ℚ. -/
structure Sym3 where
  a : ℚ
  b : ℚ
  c : ℚ
  d : ℚ
  e : ℚ
  f : ℚ

def Sym3.mat (s : Sym3) : Matrix (Fin 3) (Fin 3) ℝ :=
  !![(s.a : ℝ), (s.b : ℝ), (s.c : ℝ); (s.b : ℝ), (s.d : ℝ), (s.e : ℝ); (s.c : ℝ), (s.e : ℝ), (s.f : ℝ)]

noncomputable def mA : Matrix (Fin 3) (Fin 3) ℝ := !![1, 1, 1 / 2; 0, 1, 1; 0, 0, 1]
def mH : Matrix (Fin 1) (Fin 3) ℝ := !![1, 0, 0]
noncomputable def mR : Matrix (Fin 1) (Fin 1) ℝ := !![1 / 2]
def mB : Matrix (Fin 3) (Fin 1) ℝ := !![0; 0; 1]
def mQc : Matrix (Fin 1) (Fin 1) ℝ := !![1]

/-- Prediction: `l • (A P Aᵀ)`, plus `q` for the acceleration. -/
def Sym3.pred (s : Sym3) (q l : ℚ) : Sym3 :=
  let r0 := s.a + s.b + s.c / 2
  let r1 := s.b + s.d + s.e / 2
  let r2 := s.c + s.e + s.f / 2
  ⟨l * (r0 + r1 + r2 / 2), l * (r1 + r2), l * r2, l * (s.d + 2 * s.e + s.f), l * (s.e + s.f), l * s.f + q⟩

def Sym3.corr (s : Sym3) : Sym3 :=
  let i := 1 / (s.a + 1 / 2)
  let k0 := s.a * i
  let k1 := s.b * i
  let k2 := s.c * i
  ⟨s.a - k0 * s.a, s.b - k0 * s.b, s.c - k0 * s.c, s.d - k1 * s.b, s.e - k1 * s.c, s.f - k2 * s.c⟩

/-- What prediction and correction with the gain `(k0, k1, k2)` do to a state. -/
def moved (k0 k1 k2 : ℚ) (t : ℚ × ℚ × ℚ) : ℚ × ℚ × ℚ :=
  let u := t.1 + t.2.1 + t.2.2 / 2
  let v := t.2.1 + t.2.2
  (u - k0 * u, v - k1 * u, t.2.2 - k2 * u)

/-- The coefficients of the data (newest first) in the estimate after `n` more iterations. -/
def coeffs (q l : ℚ) : Nat → Sym3 → List (ℚ × ℚ × ℚ) → List (ℚ × ℚ × ℚ)
  | 0, _, L => L
  | n + 1, s, L =>
    let p := s.pred q l
    let i := 1 / (p.a + 1 / 2)
    let k0 := p.a * i
    let k1 := p.b * i
    let k2 := p.c * i
    coeffs q l n p.corr ((k0, k1, k2) :: L.map (moved k0 k1 k2))

def tri (t : ℚ × ℚ × ℚ) : Fin 3 → ℝ := ![(t.1 : ℝ), (t.2.1 : ℝ), (t.2.2 : ℝ)]

/-- The estimate for coefficients and data. -/
def val : List (ℚ × ℚ × ℚ) → List ℝ → Fin 3 → ℝ
  | c :: L, d :: D => d • tri c + val L D
  | _, _ => 0

theorem pred_mat (s : Sym3) (q l : ℚ) :
    (s.pred q l).mat = (l : ℝ) • (mA * s.mat * mAᵀ) + mB * ((q : ℝ) • mQc) * mBᵀ := by
  ext i j
  fin_cases i <;> fin_cases j <;>
    simp [Sym3.pred, Sym3.mat, mA, mB, mQc, Fin.sum_univ_three, Matrix.vecMul, dotProduct] <;> (try left) <;> ring

theorem innov_mat (s : Sym3) : mH * s.mat * mHᵀ + mR = !![(s.a : ℝ) + 1 / 2] := by
  ext i j
  fin_cases i; fin_cases j
  simp [mH, mR, Sym3.mat, Matrix.vecMul, dotProduct, Fin.sum_univ_three]

theorem inv_one (a : ℝ) : (!![a] : Matrix (Fin 1) (Fin 1) ℝ)⁻¹ = !![a⁻¹] := by
  ext i j
  fin_cases i; fin_cases j
  simp [Matrix.inv_subsingleton]

theorem gain_mat (s : Sym3) : s.mat * mHᵀ * (mH * s.mat * mHᵀ + mR)⁻¹ =
    !![((s.a * (1 / (s.a + 1 / 2)) : ℚ) : ℝ); ((s.b * (1 / (s.a + 1 / 2)) : ℚ) : ℝ); ((s.c * (1 / (s.a + 1 / 2)) : ℚ) : ℝ)] := by
  rw [innov_mat, inv_one]
  ext i j
  fin_cases i <;> fin_cases j <;>
    simp [mH, Sym3.mat, Matrix.vecMul, dotProduct, Fin.sum_univ_three, Matrix.mul_apply]

theorem corr_mat (s : Sym3) :
    s.mat - s.mat * mHᵀ * (mH * s.mat * mHᵀ + mR)⁻¹ * mH * s.mat = s.corr.mat := by
  rw [gain_mat]
  ext i j
  fin_cases i <;> fin_cases j <;>
    simp [mH, Sym3.mat, Sym3.corr] <;> ring

theorem mH_mulVec (w : Fin 3 → ℝ) : mH *ᵥ w = ![w 0] := by
  ext i
  fin_cases i
  simp [mH, Matrix.mulVec, dotProduct, Fin.sum_univ_three]

theorem moved_val (k0 k1 k2 : ℚ) (L : List (ℚ × ℚ × ℚ)) (D : List ℝ) :
    val (L.map (moved k0 k1 k2)) D = mA *ᵥ val L D - (!![(k0 : ℝ); (k1 : ℝ); (k2 : ℝ)] : Matrix (Fin 3) (Fin 1) ℝ) *ᵥ
      (mH *ᵥ (mA *ᵥ val L D)) := by
  induction L generalizing D with
  | nil => simp [val]
  | cons t L ih =>
    cases D with
    | nil => simp [val]
    | cons d D =>
      simp only [List.map_cons, val, ih, Matrix.mulVec_add, Matrix.mulVec_smul]
      have : tri (moved k0 k1 k2 t) = mA *ᵥ tri t - (!![(k0 : ℝ); (k1 : ℝ); (k2 : ℝ)] : Matrix (Fin 3) (Fin 1) ℝ) *ᵥ
          (mH *ᵥ (mA *ᵥ tri t)) := by
        ext i
        fin_cases i <;> simp [tri, moved, mA, mH, dotProduct, Fin.sum_univ_three] <;> ring
      rw [this, smul_sub]
      abel

/-! ## Bounds -/

/-- Bounds for the third component of `val L D`, where the data `D` differ from `M` by at most `δ`. -/
def low (δ : ℚ) : List (ℚ × ℚ × ℚ) → List ℚ → ℚ
  | c :: L, m :: M => c.2.2 * m - |c.2.2| * δ + low δ L M
  | _, _ => 0

def high (δ : ℚ) : List (ℚ × ℚ × ℚ) → List ℚ → ℚ
  | c :: L, m :: M => c.2.2 * m + |c.2.2| * δ + high δ L M
  | _, _ => 0

theorem val_bounds {δ : ℚ} {L : List (ℚ × ℚ × ℚ)} {D : List ℝ} {M : List ℚ}
    (h : List.Forall₂ (fun (d : ℝ) (m : ℚ) => |d - m| ≤ δ) D M) :
    (low δ L M : ℝ) ≤ val L D 2 ∧ val L D 2 ≤ (high δ L M : ℝ) := by
  induction h generalizing L with
  | nil => cases L <;> simp [low, high, val]
  | @cons d m D M hd _ ih =>
    cases L with
    | nil => simp [low, high, val]
    | cons c L =>
      obtain ⟨i1, i2⟩ := ih (L := L)
      have e : val (c :: L) (d :: D) 2 = d * (c.2.2 : ℝ) + val L D 2 := by simp [val, tri]
      have e1 : (c.2.2 : ℝ) * (d - m) ≤ |(c.2.2 : ℝ)| * δ :=
        (le_abs_self _).trans ((abs_mul _ _).trans_le (mul_le_mul_of_nonneg_left hd (abs_nonneg _)))
      have e2 : -((c.2.2 : ℝ) * (d - m)) ≤ |(c.2.2 : ℝ)| * δ :=
        (neg_le_abs _).trans ((abs_mul _ _).trans_le (mul_le_mul_of_nonneg_left hd (abs_nonneg _)))
      rw [e]
      simp only [low, high]
      push_cast
      constructor <;> linarith

/-! ## The programs -/

/-- The data the loop sees, newest first. -/
def seen (data : List (ℝ × ℝ)) (D : List ℝ) : List ℝ := (data.map fun d => d.1 + d.2).reverse ++ D

theorem seen_cons (d : ℝ × ℝ) (data : List (ℝ × ℝ)) (D : List ℝ) :
    seen (d :: data) D = seen data ((d.1 + d.2) :: D) := by
  simp [seen]

theorem set_z {o : RegularObservation 3 1 ℝ} {z : Fin 1 → ℝ} (ho : o.Reps mH z mR) (v : ℝ) :
    ∃ z', o.z.indexSet 0 v = .ok z' ∧ ({ o with z := z' } : RegularObservation 3 1 ℝ).Reps mH ![v] mR := by
  obtain ⟨hH, hz, hR, h1, h2, h3, h4, h5, h6, h7⟩ := ho
  have h0 := hz 0
  cases hd : o.z.data with
  | nil => rw [hd] at h0; cases h0
  | cons a t =>
    refine ⟨⟨v :: t⟩, ?_, hH, ?_, hR, h1, h2, h3, h4, h5, h6, h7⟩
    · unfold Mat.indexSet wr; rw [hd]; rfl
    · intro i; fin_cases i; rfl

theorem mR_pd : mR.PosDef := by
  rw [show mR = Matrix.diagonal fun _ => 1 / 2 by ext i j; fin_cases i; fin_cases j; rfl]
  exact Matrix.PosDef.diagonal fun _ => by norm_num

theorem mQc_psd : mQc.PosSemidef := by
  rw [show mQc = Matrix.diagonal fun _ => 1 by ext i j; fin_cases i; fin_cases j; rfl]
  exact Matrix.PosSemidef.diagonal fun _ => by simp

theorem corr_psd {s : Sym3} (hs : s.mat.PosSemidef) : s.corr.mat.PosSemidef := by
  rw [← corr_mat]
  have h := corrP_psd (H := mH) hs mR_pd.posSemidef (pd_det (innovCov_pd hs mR_pd))
  exact h

theorem pred_psd {s : Sym3} (hs : s.mat.PosSemidef) {q l : ℚ} (hq : 0 ≤ q) (hl : 0 ≤ l) :
    (s.pred q l).mat.PosSemidef := by
  rw [pred_mat]
  exact ((psd_congr hs mA).smul (Rat.cast_nonneg.2 hl)).add (psd_congr (mQc_psd.smul (Rat.cast_nonneg.2 hq)) mB)

section
variable [MDT ℝ] [ExactReal]

/-- A correction with the measurement `v`. -/
theorem corrected (bld : Build) {f : RegularKalman 3 ℝ} {o : RegularObservation 3 1 ℝ} {X : Fin 3 → ℝ} {A Q} {z} {s : Sym3}
    (hs : s.mat.PosSemidef) (hf : f.Reps (mA *ᵥ X) A s.mat Q) (ho : o.Reps mH z mR) (v : ℝ) :
    ∃ z' f' o', o.z.indexSet 0 v = .ok z' ∧ f.correct bld { o with z := z' } = .ok (f', o') ∧
      f'.Reps (mA *ᵥ X + !![((s.a * (1 / (s.a + 1 / 2)) : ℚ) : ℝ); ((s.b * (1 / (s.a + 1 / 2)) : ℚ) : ℝ);
        ((s.c * (1 / (s.a + 1 / 2)) : ℚ) : ℝ)] *ᵥ (![v] - mH *ᵥ (mA *ᵥ X))) A s.corr.mat Q ∧ o'.Reps mH ![v] mR := by
  obtain ⟨z', h1, h2⟩ := set_z ho v
  obtain ⟨f', o', h3, h4, _, h5, _⟩ := C24_correct bld (by decide) (by decide) hf h2 rfl (innovCov_pd hs mR_pd) rfl
  refine ⟨z', f', o', h1, h3, ?_, h5⟩
  rw [corr_mat, gain_mat] at h4
  exact h4

theorem val_step (k0 k1 k2 : ℚ) (L : List (ℚ × ℚ × ℚ)) (D : List ℝ) (v : ℝ) :
    mA *ᵥ val L D + (!![(k0 : ℝ); (k1 : ℝ); (k2 : ℝ)] : Matrix (Fin 3) (Fin 1) ℝ) *ᵥ (![v] - mH *ᵥ (mA *ᵥ val L D)) =
      val ((k0, k1, k2) :: L.map (moved k0 k1 k2)) (v :: D) := by
  rw [val, moved_val, Matrix.mulVec_sub]
  have : (!![(k0 : ℝ); (k1 : ℝ); (k2 : ℝ)] : Matrix (Fin 3) (Fin 1) ℝ) *ᵥ ![v] = v • tri (k0, k1, k2) := by
    ext i
    fin_cases i <;> simp [tri]
  rw [this]
  abel

theorem gravityLoop_val (bld : Build) {f : RegularKalman 3 ℝ} {o : RegularObservation 3 1 ℝ} {s : Sym3} {L D z}
    (hs : s.mat.PosSemidef) (hf : f.Reps (val L D) mA s.mat 0) (ho : o.Reps mH z mR) (data : List (ℝ × ℝ)) :
    ∃ f' o' A P Q, gravityLoop bld f o data = .ok (f', o') ∧ f'.Reps (val (coeffs 0 1 data.length s L) (seen data D)) A P Q := by
  induction data generalizing f o s L D z with
  | nil => exact ⟨f, o, _, _, _, rfl, hf⟩
  | cons d data ih =>
    obtain ⟨f1, h1, h2, _⟩ := C21_predict (by decide) hf
    have hp := pred_psd hs (le_refl 0) zero_le_one
    rw [show mA * s.mat * mAᵀ + 0 = (s.pred 0 1).mat by rw [pred_mat]; simp] at h2
    obtain ⟨z', f', o', h3, h4, h5, h6⟩ := corrected bld hp h2 ho (d.1 + d.2)
    rw [val_step] at h5
    obtain ⟨f'', o'', A, P, Q, h7, h8⟩ := ih (corr_psd hp) h5 h6
    refine ⟨f'', o'', A, P, Q, ?_, ?_⟩
    · simp only [gravityLoop, h1, res_bind_ok, h3, h4, h7]
    · rw [seen_cons]; exact h8

theorem gravityTunedLoop_val (bld : Build) {lambda : ℝ} (l : ℚ) (hl0 : lambda ≠ 0) (hl : (lambda ^ 2)⁻¹ = l)
    {f : RegularKalman 3 ℝ} {o : RegularObservation 3 1 ℝ} {s : Sym3} {L D z}
    (hs : s.mat.PosSemidef) (hf : f.Reps (val L D) mA s.mat 0) (ho : o.Reps mH z mR) (data : List (ℝ × ℝ)) :
    ∃ f' o' A P Q, gravityTunedLoop bld lambda f o data = .ok (f', o') ∧
      f'.Reps (val (coeffs 0 l data.length s L) (seen data D)) A P Q := by
  have hl1 : 0 ≤ l := by
    have : (0 : ℝ) ≤ (lambda ^ 2)⁻¹ := by positivity
    rw [hl] at this
    exact_mod_cast this
  induction data generalizing f o s L D z with
  | nil => exact ⟨f, o, _, _, _, rfl, hf⟩
  | cons d data ih =>
    obtain ⟨f1, h1, h2, _⟩ := C22_predictTuned (by decide) lambda hl0 hf
    have hp := pred_psd hs (le_refl 0) hl1
    rw [show (lambda ^ 2)⁻¹ • (mA * s.mat * mAᵀ) + 0 = (s.pred 0 l).mat by rw [pred_mat, hl]; simp] at h2
    obtain ⟨z', f', o', h3, h4, h5, h6⟩ := corrected bld hp h2 ho (d.1 + d.2)
    rw [val_step] at h5
    obtain ⟨f'', o'', A, P, Q, h7, h8⟩ := ih (corr_psd hp) h5 h6
    refine ⟨f'', o'', A, P, Q, ?_, ?_⟩
    · simp only [gravityTunedLoop, h1, res_bind_ok, h3, h4, h7]
    · rw [seen_cons]; exact h8

/-- The data generated by `generate_values` from the true state `(s, v, g)`: the estimate is off by `val L D`, where `D`
holds the measurement errors. -/
theorem gravityControlLoop_val (bld : Build) {f : RegularKalman 3 ℝ} {c : Control 3 1 ℝ} {o : RegularObservation 3 1 ℝ}
    {p : Sym3} {L D z} {s v g : ℝ} (hs : p.mat.PosSemidef) (hf : f.Reps (![s, v, g] + val L D) mA p.mat 0)
    (hc : c.Reps mB ![0] mQc) (ho : o.Reps mH z mR) (errs : List ℝ) :
    ∃ f' c' o' A P Q s' v', gravityControlLoop bld f c o ((generateFrom (1 / 2) g errs.length s v).zip errs) =
      .ok (f', c', o') ∧
      f'.Reps (![s', v', g] + val (coeffs 1 1 errs.length p L) (errs.reverse ++ D)) A P Q := by
  induction errs generalizing f c o p L D z s v with
  | nil => exact ⟨f, c, o, _, _, _, _, _, rfl, hf⟩
  | cons e errs ih =>
    obtain ⟨f1, h1, h2, _⟩ := C21_predict (by decide) hf
    obtain ⟨f2, c2, h1', h2', _, _, hc'⟩ := C23_control h2 hc
    have hp := pred_psd hs zero_le_one zero_le_one
    rw [show mA * p.mat * mAᵀ + 0 + mB * mQc * mBᵀ = (p.pred 1 1).mat by rw [pred_mat]; simp,
      show mA *ᵥ (![s, v, g] + val L D) + mB *ᵥ ![0] = mA *ᵥ (![s, v, g] + val L D) by
        rw [show (![0] : Fin 1 → ℝ) = 0 by ext i; fin_cases i; rfl, Matrix.mulVec_zero, add_zero]] at h2'
    obtain ⟨z', f', o', h3, h4, h5, h6⟩ := corrected bld hp h2' ho (s + v * 1 + g * (1 / 2) * 1 * 1 + e)
    have hA : mA *ᵥ ![s, v, g] = ![s + v * 1 + g * (1 / 2) * 1 * 1, v + g * 1, g] := by
      ext i
      fin_cases i <;> simp [mA]
      ring
    have hH : ![s + v * 1 + g * (1 / 2) * 1 * 1 + e] - mH *ᵥ (mA *ᵥ (![s, v, g] + val L D)) =
        ![e] - mH *ᵥ (mA *ᵥ val L D) := by
      rw [Matrix.mulVec_add, Matrix.mulVec_add, hA]
      generalize mA *ᵥ val L D = w
      rw [mH_mulVec, mH_mulVec]
      ext i
      fin_cases i
      simp
    rw [hH, Matrix.mulVec_add, hA, add_assoc, val_step] at h5
    obtain ⟨f'', c'', o'', A, P, Q, s', v', h7, h8⟩ := ih (corr_psd hp) h5 hc' h6
    refine ⟨f'', c'', o'', A, P, Q, s', v', ?_, ?_⟩
    · simp only [List.length_cons, generateFrom, List.zip_cons_cons, gravityControlLoop, h1, res_bind_ok, h1', h3, h4, h7]
    · rw [List.reverse_cons, List.append_assoc]; exact h8

end

end Examples
end Minikalman
