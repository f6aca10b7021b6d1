import Verif.Proofs.Builds
import Verif.Proofs.FloatPrograms

/-! # The certificates of the example programs in floating point arithmetic: helper lemmas -/

set_option linter.unusedSectionVars false

namespace Minikalman

open Examples Cert

namespace Programs

/-- Filter and observation of the gravity tests. -/
def gravityStart {fmt : Format} : Res (RegularKalman 3 (Bin fmt) × RegularObservation 3 1 (Bin fmt)) := do
  let f ← gravityFilter (.lit (1 / 2)) (.lit (1 / 10)) (.lit 6) (staticKalman 0)
  let o ← gravityObservation (.lit (1 / 2)) (staticObservation 0)
  pure (f, o)

/-- The nominal run of a gravity test is fine. -/
def gravityCheck {fmt : Format} (t : Tol) (ops : List (Op (Bin fmt))) (lo hi : ℚ) : Bool :=
  match gravityStart with
  | .ok (f, o) => check Bin.rat t ⟨true, false⟩ (single f [] o) ops [-t.M, -t.M, lo] [t.M, t.M, hi]
  | .error _ => false

/-- Filter, control and observation of `examples/car_1d.rs`, after the first loop. -/
def carStart (bld : Build) : Res (RegularKalman 3 F32 × RegularKalman 3 F32 × Control 3 1 F32 × RegularObservation 3 1 F32) := do
  let f ← buildRegularKalman bld
  let c ← buildControl bld
  let o ← buildRegularObservation bld
  let f ← carFilter (.lit 0.5) (.lit (-5)) (.lit 0.3) f
  let c ← carControl c
  let o ← carObservation (.lit 0.1) o
  let f' ← carDrive 10 f
  pure (f, f', c, o)

end Programs

open Programs

section Gravity
variable {fmt : Format}

theorem gravityStart_ok : ∃ (f : RegularKalman 3 (Bin fmt)) (o : RegularObservation 3 1 (Bin fmt)),
    gravityFilter (.lit (1 / 2)) (.lit (1 / 10)) (.lit 6) (staticKalman 0) = .ok f ∧
    gravityObservation (.lit (1 / 2)) (staticObservation 0) = .ok o ∧
    gravityStart = .ok (f, o) ∧ (single f [] o).Valid ∧ o.z.data.length = 1 := by
  refine ⟨_, _, rfl, rfl, rfl, ⟨by decide, ?_, by simp [single], ?_⟩, rfl⟩
  · exact ⟨Nat.le_refl _, Nat.le_refl _, Nat.le_refl _, Nat.le_refl _, Nat.le_refl _, Nat.le_refl _⟩
  · intro o ho
    obtain rfl := List.mem_singleton.1 ho
    exact ⟨Nat.one_pos, Nat.le_refl _, Nat.le_refl _, Nat.le_refl _, Nat.le_refl _, Nat.le_refl _, Nat.le_refl _,
      Nat.le_refl _, Nat.le_refl _, Nat.le_refl _, Nat.le_refl _⟩

theorem data_wf {pre : Op (Bin fmt)} (hp : ∀ w : World 3 (Bin fmt), pre.WellFormed w) {f : RegularKalman 3 (Bin fmt)}
    {o : RegularObservation 3 1 (Bin fmt)} (hz : o.z.data.length = 1) (data : List (Bin fmt × Bin fmt)) :
    ∀ op ∈ data.flatMap (fun d => [pre, .setZ 0 [d.1 + d.2], .correct 0]), op.WellFormed (single f [] o) := by
  intro op h
  obtain ⟨d, _, h⟩ := List.mem_flatMap.1 h
  simp only [List.mem_cons, List.not_mem_nil, or_false] at h
  rcases h with rfl | rfl | rfl
  · exact hp _
  · simp [Op.WellFormed, single, hz]
  · simp [Op.WellFormed, single]

theorem gravity_run (N : Near (Bin fmt)) (hv : N.val = Bin.val) (hk : N.ok = Bin.Finite) (hr : N.rat = Bin.rat) {δ : ℚ}
    (hδ : 0 ≤ δ) (bld : Build) {pre : Op (Bin fmt)} (hp : ∀ w : World 3 (Bin fmt), pre.WellFormed w)
    (hp' : (∀ i v, pre ≠ .setZ i v) ∧ ∀ i v, pre ≠ .setU i v) {data data' : List (Bin fmt × Bin fmt)}
    (hd : List.Forall₂ (fun d d' => d'.1 = d.1 ∧ d'.2.Finite ∧ |d'.2.val - d.2.val| ≤ (δ : ℝ)) data data')
    {ε M : ℚ} (hNε : N.ε = ε) (hNM : N.M = M) (hs : dataSmall Bin.rat M δ data = true) {lo hi : ℚ} {ops : List (Op (Bin fmt))}
    (ho : ops = data.flatMap fun d => [pre, .setZ 0 [d.1 + d.2], .correct 0])
    (hc : gravityCheck ⟨ε, M, δ + 2 * ε, 0⟩ ops lo hi = true)
    {f : RegularKalman 3 (Bin fmt)} {o : RegularObservation 3 1 (Bin fmt)} (h3 : gravityStart = .ok (f, o))
    (h4 : (single f [] o).Valid) (h5 : o.z.data.length = 1) :
    ∃ v g, (single f [] o).run bld (data'.flatMap fun d => [pre, .setZ 0 [d.1 + d.2], .correct 0]) = .ok v ∧
      v.kf.x.index 2 = .ok g ∧ g.Finite ∧ (lo : ℝ) ≤ g.val ∧ g.val ≤ hi := by
  have hε := N.ε_nonneg
  subst hNε hNM ho
  unfold gravityCheck at hc
  rw [h3] at hc
  dsimp only at hc
  obtain ⟨v, x, h6, h7, h8⟩ := N.check_run (r := δ + 2 * N.ε) (s := 0) (by linarith) le_rfl ⟨true, false⟩ h4
    (data_close N hδ pre hp' (by unfold DataClose; rw [hv, hk]; exact hd) (by rw [hr]; exact hs))
    (data_wf hp h5 data) (data_wf hp h5 data') (by rw [hr]; exact hc)
  rw [run_build_eq _ bld (fun o ho => (h4.obs o ho).1)] at h6
  rw [hk, hv] at h8
  refine ⟨v, x 2, h6, ?_, h8 2⟩
  have := h7 2
  rw [Mat.index, rd_eq (by simpa using this)]

end Gravity

/-! ## `tests/gravity.rs` -/

theorem limit_ge (fmt : Format) : (2 : ℝ) ^ (fmt.top - 1) / 2 ^ fmt.frac ≤ fmt.limit := by
  unfold Format.limit
  have h : (1 : ℝ) / 2 ^ (fmt.prec + 1) ≤ 1 / 2 :=
    one_div_le_one_div_of_le (by norm_num) (by
      have := pow_le_pow_right₀ (a := (2 : ℝ)) (by norm_num) (show 1 ≤ fmt.prec + 1 by omega)
      linarith)
  refine div_le_div_of_nonneg_right ?_ (by positivity)
  obtain ⟨k, hk⟩ : ∃ k, fmt.top = k + 1 := ⟨fmt.top - 1, by have := fmt.one_lt; omega⟩
  rw [hk, Nat.add_sub_cancel, pow_succ]
  nlinarith [pow_pos (show (0 : ℝ) < 2 by norm_num) k]

/-- Single precision with numbers up to 4096. -/
noncomputable def near32 : Near F32 := Bin.near (.f32 true) (1 / 2 ^ 11) 4096 (by norm_num)
  (lt_of_lt_of_le (by
    show ((4096 : ℚ) : ℝ) < 2 ^ 276 / 2 ^ 149
    rw [lt_div_iff₀ (by positivity), show (2 : ℝ) ^ 276 = 2 ^ 127 * 2 ^ 149 by rw [← pow_add]]
    refine mul_lt_mul_of_pos_right ?_ (by positivity)
    norm_num) (limit_ge _)) (by simp [Format.f32]; norm_num)

/-- Single precision with numbers up to 128. -/
noncomputable def nearCar : Near F32 := Bin.near (.f32 true) (1 / 2 ^ 17 + 1 / 2 ^ 100) 128 (by norm_num)
  (lt_of_lt_of_le (by
    show ((128 : ℚ) : ℝ) < 2 ^ 276 / 2 ^ 149
    rw [lt_div_iff₀ (by positivity), show (2 : ℝ) ^ 276 = 2 ^ 127 * 2 ^ 149 by rw [← pow_add]]
    refine mul_lt_mul_of_pos_right ?_ (by positivity)
    norm_num) (limit_ge _)) (by simp [Format.f32]; norm_num)

/-- Double precision with numbers up to 4096. -/
noncomputable def near64 : Near F64 := Bin.near (.f64 true) (1 / 2 ^ 30) 4096 (by norm_num)
  (lt_of_lt_of_le (by
    show ((4096 : ℚ) : ℝ) < 2 ^ 2097 / 2 ^ 1074
    rw [lt_div_iff₀ (by positivity), show (2 : ℝ) ^ 2097 = 2 ^ 1023 * 2 ^ 1074 by rw [← pow_add]]
    refine mul_lt_mul_of_pos_right ?_ (by positivity)
    refine lt_of_lt_of_le ?_ (pow_le_pow_right₀ (by norm_num) (show 13 ≤ 1023 by norm_num))
    norm_num) (limit_ge _)) (by
    show ((4096 : ℚ) : ℝ) / 2 ^ 53 + 1 / 2 ^ 1075 ≤ ((1 / 2 ^ 30 : ℚ) : ℝ)
    have : (1 : ℝ) / 2 ^ 1075 ≤ 1 / 2 ^ 53 :=
      one_div_le_one_div_of_le (by positivity) (pow_le_pow_right₀ (by norm_num) (by norm_num))
    refine (add_le_add_right this _).trans ?_
    norm_num)


namespace Programs

theorem gravity_check : gravityCheck (fmt := .f32 true) ⟨1 / 2 ^ 11, 4096, 4 + 2 * (1 / 2 ^ 11), 0⟩
    (gravityOps ((realDistance.map .lit).zip (List.replicate 15 0))) 9.1 9.99 = true := by decide +kernel

theorem tuned_check : gravityCheck (fmt := .f64 true) ⟨1 / 2 ^ 30, 4096, 0.16 + 2 * (1 / 2 ^ 30), 0⟩
    (gravityTunedOps (.lit 0.5) ((realDistance.map .lit).zip (List.replicate 15 0))) 9.1 9.9999 = true := by decide +kernel

theorem tuned_errors_check : gravityCheck (fmt := .f64 true) ⟨1 / 2 ^ 30, 4096, 0.045 + 2 * (1 / 2 ^ 30), 0⟩
    (gravityTunedOps (.lit 0.5) ((realDistance.map .lit).zip (observationError.map .lit))) 9.1 9.99999 = true := by decide +kernel

theorem gravity_small : dataSmall Bin.rat 4096 4 (((realDistance.map .lit).zip (List.replicate 15 0)) : List (F32 × F32)) = true := by
  decide +kernel

theorem tuned_small : dataSmall Bin.rat 4096 0.16 (((realDistance.map .lit).zip (List.replicate 15 0)) : List (F64 × F64)) = true := by
  decide +kernel

theorem tuned_errors_small :
    dataSmall Bin.rat 4096 0.045 (((realDistance.map .lit).zip (observationError.map .lit)) : List (F64 × F64)) = true := by
  decide +kernel

/-- The nominal run of `examples/car_1d.rs`. -/
def carCheck : Bool :=
  match carStart ⟨true, false⟩ with
  | .ok (_, f, c, o) =>
    (match f.x.data.mapM Bin.rat with
      | some [p, v, a] => decide (|p - 10| ≤ 4 / 2 ^ 20) && decide (|v - 3| ≤ 4 / 2 ^ 22) && decide (|a - 5033165 / 2 ^ 24| ≤ 4 / 2 ^ 25)
      | _ => false) &&
    check Bin.rat ⟨1 / 2 ^ 17 + 1 / 2 ^ 100, 128, 0.012, 0⟩ ⟨true, false⟩ (single f [⟨1, c⟩] o)
      (brakeOps (.lit (-0.1333333)) 10 (carObservations.map .lit)) [35, -0.599999, -1.299999] [36.299999, 0, -1.030001]
  | .error _ => false

theorem car_check : carCheck = true := by decide +kernel

theorem carDrive_ok {T : Type} [Zero T] [One T] [Add T] [Sub T] [Mul T] [Neg T] [MDT T] (k : Nat) {f : RegularKalman 3 T}
    (hf : f.Valid) : ∃ f', carDrive k f = .ok f' ∧ f'.Valid := by
  induction k generalizing f with
  | zero => exact ⟨f, rfl, hf⟩
  | succ k ih =>
    obtain ⟨f1, h1, _, _, h4⟩ := predict_any (by decide) hf hf.x.repsV hf.A.reps hf.P.reps hf.Q.reps
    obtain ⟨f', h5, h6⟩ := ih (h4.valid hf)
    refine ⟨f', ?_, h6⟩
    simp only [carDrive, h1, res_bind_ok]
    exact h5

theorem carStart_ok (bld : Build) (obs : List F32) : ∃ (f f' : RegularKalman 3 F32) (c : Control 3 1 F32) (o : RegularObservation 3 1 F32),
    carStart bld = .ok (f, f', c, o) ∧ (single f' [⟨1, c⟩] o).Valid ∧ c.u.data.length = 1 ∧ o.z.data.length = 1 ∧
    carExample bld (.lit 0.5) (.lit 0.1) (.lit (-5)) (.lit 0.3) (.lit (-0.1333333)) obs =
      (do
        let r ← carBrake bld (.lit (-0.1333333)) 10 f' c o obs
        pure (f'.x, r.1.x)) := by
  have b1 : (buildRegularKalman bld : Res (RegularKalman 3 F32)) = .ok (staticKalman 0) := by
    rcases bld with ⟨_ | _, _ | _⟩ <;> rfl
  have b2 : (buildControl bld : Res (Control 3 1 F32)) = .ok (staticControl 0) := by
    rcases bld with ⟨_ | _, _ | _⟩ <;> rfl
  have b3 : (buildRegularObservation bld : Res (RegularObservation 3 1 F32)) = .ok (staticObservation 0) := by
    rcases bld with ⟨_ | _, _ | _⟩ <;> rfl
  obtain ⟨f, hf, vf⟩ : ∃ f : RegularKalman 3 F32, carFilter (.lit 0.5) (.lit (-5)) (.lit 0.3) (staticKalman 0) = .ok f ∧ f.Valid :=
    ⟨_, rfl, Nat.le_refl _, Nat.le_refl _, Nat.le_refl _, Nat.le_refl _, Nat.le_refl _, Nat.le_refl _⟩
  obtain ⟨c, hc, vc, uc⟩ : ∃ c : Control 3 1 F32, carControl (staticControl 0) = .ok c ∧ c.Valid ∧ c.u.data.length = 1 :=
    ⟨_, rfl, ⟨Nat.le_refl _, Nat.le_refl _, Nat.le_refl _, Nat.le_refl _⟩, rfl⟩
  obtain ⟨o, ho, vo, zo⟩ : ∃ o : RegularObservation 3 1 F32, carObservation (.lit 0.1) (staticObservation 0) = .ok o ∧ o.Valid ∧
      o.z.data.length = 1 :=
    ⟨_, rfl, ⟨Nat.le_refl _, Nat.le_refl _, Nat.le_refl _, Nat.le_refl _, Nat.le_refl _, Nat.le_refl _,
      Nat.le_refl _, Nat.le_refl _, Nat.le_refl _, Nat.le_refl _⟩, rfl⟩
  obtain ⟨f', hd, vf'⟩ := carDrive_ok 10 vf
  refine ⟨f, f', c, o, ?_, ⟨by decide, vf', ?_, ?_⟩, uc, zo, ?_⟩
  · simp only [carStart, b1, b2, b3, hf, hc, ho, hd, res_bind_ok]
    rfl
  · intro d hd
    obtain rfl := List.mem_singleton.1 hd
    exact vc
  · intro d hd
    obtain rfl := List.mem_singleton.1 hd
    exact ⟨Nat.one_pos, vo⟩
  · simp only [carExample, b1, b2, b3, hf, hc, ho, hd, res_bind_ok]

theorem brake_wf {f : RegularKalman 3 F32} {c : Control 3 1 F32} {o : RegularObservation 3 1 F32} (hu : c.u.data.length = 1)
    (hz : o.z.data.length = 1) (brake : F32) (t : Nat) (zs : List F32) :
    ∀ op ∈ brakeOps brake t zs, op.WellFormed (single f [⟨1, c⟩] o) := by
  induction zs generalizing t with
  | nil => intro op h; cases h
  | cons z zs ih =>
    intro op h
    simp only [brakeOps, List.cons_append, List.nil_append, List.mem_cons, List.mem_append] at h
    rcases h with rfl | rfl | rfl | h | h
    · simp [Op.WellFormed, single, hu]
    · trivial
    · simp [Op.WellFormed, single]
    · split at h
      · cases h
      · simp only [List.mem_cons, List.not_mem_nil, or_false] at h
        rcases h with rfl | rfl
        · simp [Op.WellFormed, single, hz]
        · simp [Op.WellFormed, single]
    · exact ih _ op h

end Programs
end Minikalman
