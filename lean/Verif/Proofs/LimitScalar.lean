import Verif.Proofs.LimitRun
import Verif.Proofs.Fixed
import Verif.Proofs.RoundingInv
import Verif.Proofs.FloatChecks

/-! # Element types that approximate the real numbers -/

set_option linter.unusedSectionVars false

namespace Minikalman
namespace Limit

open Filter Topology

variable {ι : Type} {F : Filter ι} {T : ι → Type}

section Rounded
variable [∀ k, Zero (T k)] [∀ k, One (T k)] [∀ k, Add (T k)] [∀ k, Sub (T k)] [∀ k, Mul (T k)] [∀ k, Neg (T k)]
variable [∀ k, MDT (T k)]

theorem tendsto_of_err {f g e : ι → ℝ} {x : ℝ} (hg : Tendsto g F (𝓝 x)) (he : Tendsto e F (𝓝 0))
    (h : ∀ᶠ k in F, |f k - g k| ≤ e k) : Tendsto f F (𝓝 x) := by
  have h1 : Tendsto (fun k => f k - g k) F (𝓝 0) := squeeze_zero_norm' (h.mono fun k hk => by rw [Real.norm_eq_abs]; exact hk) he
  have := h1.add hg
  simpa using this

theorem eventually_abs_lt {g : ι → ℝ} {x : ℝ} {M : ι → ℝ} (hg : Tendsto g F (𝓝 x)) (hM : Tendsto M F atTop) :
    ∀ᶠ k in F, |g k| < M k := by
  filter_upwards [hg.abs.eventually (gt_mem_nhds (show |x| < |x| + 1 by linarith)), hM.eventually_gt_atTop (|x| + 1)] with k h1 h2
  linarith

/-- A family of rounded arithmetics whose errors tend to zero and whose range tends to infinity. -/
theorem scalarLimit (ra : ∀ k, RoundedInverse (T k)) {M : ι → ℝ} (hu : Tendsto (fun k => (ra k).u) F (𝓝 0))
    (hη : Tendsto (fun k => (ra k).η) F (𝓝 0)) (hM : Tendsto M F atTop) (hr : ∀ᶠ k in F, (ra k).Ranged (M k)) :
    ScalarLimit F (Converges F (fun k => (ra k).fin) (fun k => (ra k).val)) := by
  have hadd : ∀ {a b : ∀ k, T k} {x y : ℝ}, Converges F (fun k => (ra k).fin) (fun k => (ra k).val) a x →
      Converges F (fun k => (ra k).fin) (fun k => (ra k).val) b y →
      Converges F (fun k => (ra k).fin) (fun k => (ra k).val) (fun k => a k + b k) (x + y) := by
    intro a b x y ha hb
    have hs := ha.2.add hb.2
    have hf : ∀ᶠ k in F, (ra k).fin (a k + b k) := by
      filter_upwards [ha.1, hb.1, eventually_abs_lt hs hM, hr] with k h1 h2 h3 h4
      exact h4.add _ _ h1 h2 h3
    refine ⟨hf, tendsto_of_err hs (e := fun k => (ra k).u * |(ra k).val (a k) + (ra k).val (b k)|) ?_ ?_⟩
    · simpa using hu.mul hs.abs
    · exact hf.mono fun k hk => ((ra k).add_err _ _ hk).2.2
  refine ⟨?_, ?_, hadd, ?_, ?_, ?_, ?_, ?_, ?_, ?_⟩
  · refine ⟨Eventually.of_forall fun k => (ra k).fin_zero, ?_⟩
    simp only [(ra _).val_zero]; exact tendsto_const_nhds
  · refine ⟨Eventually.of_forall fun k => (ra k).fin_one, ?_⟩
    simp only [(ra _).val_one]; exact tendsto_const_nhds
  · intro a b x y ha hb
    have hs := ha.2.sub hb.2
    have hf : ∀ᶠ k in F, (ra k).fin (a k - b k) := by
      filter_upwards [ha.1, hb.1, eventually_abs_lt hs hM, hr] with k h1 h2 h3 h4
      exact h4.sub _ _ h1 h2 h3
    refine ⟨hf, tendsto_of_err hs (e := fun k => (ra k).u * |(ra k).val (a k) - (ra k).val (b k)|) ?_ ?_⟩
    · simpa using hu.mul hs.abs
    · exact hf.mono fun k hk => ((ra k).sub_err _ _ hk).2.2
  · intro a b x y ha hb
    have hs := ha.2.mul hb.2
    have hf : ∀ᶠ k in F, (ra k).fin (a k * b k) := by
      filter_upwards [ha.1, hb.1, eventually_abs_lt hs hM, hr] with k h1 h2 h3 h4
      exact h4.mul _ _ h1 h2 h3
    refine ⟨hf, tendsto_of_err hs (e := fun k => (ra k).u * |(ra k).val (a k) * (ra k).val (b k)| + (ra k).η) ?_ ?_⟩
    · simpa using (hu.mul hs.abs).add hη
    · exact hf.mono fun k hk => ((ra k).mul_err _ _ hk).2.2
  · intro a x ha
    have hf : ∀ᶠ k in F, (ra k).fin (-a k) := by
      filter_upwards [ha.1, eventually_abs_lt ha.2 hM, hr] with k h1 h2 h3
      exact h3.neg _ h1 h2
    refine ⟨hf, (ha.2.neg).congr' (hf.mono fun k hk => ((ra k).neg_err _ hk).2.symm)⟩
  · intro s t h
    have hz : ∀ k, ∃ z, (ra k).fin z ∧ (ra k).val z = 0 ∧ ∀ l : List (T k), MDT.isum l = l.foldl (· + ·) z := fun k => (ra k).isum_eq
    choose z z1 z2 z3 using hz
    simp only [z3]
    have key : ∀ (t : List ℝ) (s : ∀ k, List (T k)) (z : ∀ k, T k) (x : ℝ),
        Converges F (fun k => (ra k).fin) (fun k => (ra k).val) z x →
        ListTends (Converges F (fun k => (ra k).fin) (fun k => (ra k).val)) s t →
        Converges F (fun k => (ra k).fin) (fun k => (ra k).val) (fun k => (s k).foldl (· + ·) (z k)) (x + t.sum) := by
      intro t
      induction t with
      | nil =>
        intro s z x hz hs
        simp only [ListTends.nil_inv hs, List.foldl_nil, List.sum_nil, add_zero]
        exact hz
      | cons y t ih =>
        intro s z x hz hs
        obtain ⟨a, s', e, h1, h2⟩ := ListTends.cons_inv hs
        simp only [e, List.foldl_cons, List.sum_cons, ← add_assoc]
        exact ih s' (fun k => z k + a k) (x + y) (hadd hz h1) h2
    have := key t s z 0 ⟨Eventually.of_forall z1, by simp only [z2]; exact tendsto_const_nhds⟩ h
    rwa [zero_add] at this
  · intro a x ha hx
    have hi := ha.2.inv₀ hx
    have h0 : ∀ᶠ k in F, (ra k).val (a k) ≠ 0 := ha.2.eventually_ne hx
    have hd : ∀ᶠ k in F, ∃ d, MDT.recip (a k) = .ok d ∧ (ra k).fin d := by
      filter_upwards [ha.1, h0, eventually_abs_lt hi hM, hr] with k h1 h2 h3 h4
      exact h4.recip _ h1 h2 h3
    classical
    have hd' : ∀ k, ∃ d, (∃ d, MDT.recip (a k) = .ok d ∧ (ra k).fin d) → MDT.recip (a k) = .ok d ∧ (ra k).fin d := by
      intro k
      by_cases h : ∃ d, MDT.recip (a k) = .ok d ∧ (ra k).fin d
      · exact ⟨h.choose, fun _ => h.choose_spec⟩
      · exact ⟨0, fun h' => absurd h' h⟩
    choose d hd' using hd'
    have he : ∀ᶠ k in F, MDT.recip (a k) = .ok (d k) ∧ (ra k).fin (d k) := hd.mono fun k hk => hd' k hk
    refine ⟨d, he.mono fun k hk => hk.1, he.mono fun k hk => hk.2,
      tendsto_of_err hi (e := fun k => (ra k).u * |((ra k).val (a k))⁻¹| + (ra k).η) ?_ ?_⟩
    · simpa using (hu.mul hi.abs).add hη
    · filter_upwards [he, ha.1] with k h1 h2
      exact ((ra k).recip_err _ _ h1.1 h2 h1.2).2
  · intro a x ha hx
    have hi := ha.2.sqrt
    have h0 : ∀ᶠ k in F, 0 < (ra k).val (a k) := ha.2.eventually_const_lt hx
    have hd : ∀ᶠ k in F, ∃ d, MDT.squareRoot (a k) = .ok d ∧ (ra k).fin d := by
      filter_upwards [ha.1, h0, eventually_abs_lt hi hM, hr] with k h1 h2 h3 h4
      exact h4.sqrt _ h1 h2 (lt_of_abs_lt h3)
    classical
    have hd' : ∀ k, ∃ d, (∃ d, MDT.squareRoot (a k) = .ok d ∧ (ra k).fin d) → MDT.squareRoot (a k) = .ok d ∧ (ra k).fin d := by
      intro k
      by_cases h : ∃ d, MDT.squareRoot (a k) = .ok d ∧ (ra k).fin d
      · exact ⟨h.choose, fun _ => h.choose_spec⟩
      · exact ⟨0, fun h' => absurd h' h⟩
    choose d hd' using hd'
    have he : ∀ᶠ k in F, MDT.squareRoot (a k) = .ok (d k) ∧ (ra k).fin (d k) := hd.mono fun k hk => hd' k hk
    refine ⟨d, he.mono fun k hk => hk.1, he.mono fun k hk => hk.2,
      tendsto_of_err hi (e := fun k => (ra k).u * √((ra k).val (a k)) + (ra k).η) ?_ ?_⟩
    · simpa using (hu.mul hi).add hη
    · filter_upwards [he] with k h1
      exact ((ra k).sqrt_err _ _ h1.1 h1.2).2
  · intro a x ha hx
    filter_upwards [ha.1, ha.2.eventually_const_lt hx, hr] with k h1 h2 h3
    exact h3.pos _ h1 h2

end Rounded

/-! ## Floating point numbers -/

section Float
variable {fmt : Format}

theorem finite_of_small {x : ℝ} {r : Bin fmt} (h : RoundsTo x r) (hx : |x| < fmt.limit) : r.Finite := by
  have := abs_lt.1 hx
  rcases h with h | h | h
  · exact h.2.1
  · linarith [h.1]
  · linarith [h.1]

theorem bin_ranged (fmt : Format) : (Bin.roundedInverse fmt).Ranged fmt.limit where
  add a b ha hb h := finite_of_small (Bin.add_rounds ha hb) h
  sub a b ha hb h := finite_of_small (Bin.sub_rounds ha hb) h
  mul a b ha hb h := finite_of_small (Bin.mul_rounds ha hb) h
  neg a ha _ := Bin.neg_finite.2 ha
  recip a ha h0 h := ⟨a.recip, rfl, finite_of_small (Bin.recip_rounds ha h0) h⟩
  sqrt a ha h0 h := ⟨a.sqrt, rfl, finite_of_small (Bin.sqrt_rounds ha h0.le) (by rwa [abs_of_nonneg (Real.sqrt_nonneg _)])⟩
  pos a ha h0 := by
    have h1 : ¬ (a.le 0 = true) := by
      rw [Bin.le_iff ha (show (0 : Bin fmt).Finite from trivial), Bin.zero_val]
      exact not_le.2 h0
    exact Bool.eq_false_iff.2 h1

theorem two_pow_tendsto {g : ℕ → ℕ} (h : ∀ k, k ≤ g k) : Tendsto (fun k => (2 : ℝ) ^ g k) atTop atTop :=
  tendsto_atTop_mono (fun k => pow_le_pow_right₀ one_le_two (h k)) (tendsto_pow_atTop_atTop_of_one_lt one_lt_two)

theorem inv_two_pow_tendsto {g : ℕ → ℕ} (h : ∀ k, k ≤ g k) : Tendsto (fun k => 1 / (2 : ℝ) ^ g k) atTop (𝓝 0) := by
  simp only [one_div]
  exact (two_pow_tendsto h).inv_tendsto_atTop

/-- Formats with more and more bits. -/
theorem float_limit {g : ℕ → Format} (h : ∀ k, (g k).AtLeast k) :
    ScalarLimit atTop (Converges atTop (fun k (a : Bin (g k)) => a.Finite) (fun _ => Bin.val)) := by
  refine scalarLimit (fun k => Bin.roundedInverse (g k)) (M := fun k => (g k).limit) ?_ ?_ ?_ (Eventually.of_forall fun k => bin_ranged _)
  · exact inv_two_pow_tendsto fun k => (h k).1
  · exact inv_two_pow_tendsto fun k => Nat.le_succ_of_le (h k).2.1
  · have h2 : Tendsto (fun k : ℕ => (2 : ℝ) ^ k / 2) atTop atTop :=
      (tendsto_pow_atTop_atTop_of_one_lt one_lt_two).atTop_div_const two_pos
    refine tendsto_atTop_mono (fun k => le_trans ?_ (limit_ge (g k))) h2
    have h3 := (h k).2.2
    have h4 := (g k).one_lt
    obtain ⟨d, hd⟩ : ∃ d, (g k).top = (g k).frac + d := ⟨_, (Nat.add_sub_cancel' h4.le).symm⟩
    have e : (2 : ℝ) ^ ((g k).top - 1) / 2 ^ (g k).frac = 2 ^ d / 2 := by
      obtain ⟨e, rfl⟩ : ∃ e, d = e + 1 := ⟨d - 1, by omega⟩
      rw [hd, ← Nat.add_assoc, Nat.add_sub_cancel, pow_add, pow_succ]
      field_simp
    rw [e]
    exact div_le_div_of_nonneg_right (pow_le_pow_right₀ one_le_two (by omega)) two_pos.le

end Float

/-! ## Fixed point numbers -/

section Fixed
variable {f : Nat}

theorem tdiv_abs_le (u v : Int) : |((Int.tdiv u v : Int) : ℝ)| ≤ |(u : ℝ) / v| := by
  have e : ∀ z : Int, |(z : ℝ)| = (z.natAbs : ℝ) := fun z => by rw [← Int.cast_abs, Int.abs_eq_natAbs, Int.cast_natCast]
  rw [abs_div, e, e, e, Int.natAbs_tdiv]
  exact Nat.cast_div_le

theorem watched_ranged (hf : 2 ≤ f) : (Watched.rounded hf).Ranged ((2 : ℝ) ^ f / 2) where
  add a b ha hb h := (Watched.add_fits (by omega) ha hb h).1
  sub a b ha hb h := by
    refine Watched.sub_clean.2 ⟨ha, hb, FixedPoint.inRange_exact (by omega) ?_⟩
    push_cast
    rw [sub_div]
    exact h
  mul a b ha hb h := (Watched.mul_fits (by omega) ha hb h).1
  neg a ha h := by
    refine Watched.neg_clean.2 ⟨ha, ?_⟩
    refine FixedPoint.inRange_exact (by omega) ?_
    push_cast
    rw [neg_div, abs_neg]
    exact h
  recip a ha h0 h := by
    have hp : (0 : ℝ) < 2 ^ f := by positivity
    have h1 : a.num.bits.toInt ≠ 0 := by
      intro hc
      apply h0
      show a.num.val = 0
      simp [FixedPoint.val, hc]
    have h2 : InRange f (Int.tdiv (2 ^ (2 * f)) a.num.bits.toInt) := by
      refine FixedPoint.inRange_exact (by omega) (lt_of_le_of_lt ?_ h)
      rw [abs_div]
      refine le_trans (div_le_div_of_nonneg_right (tdiv_abs_le _ _) (abs_nonneg _)) ?_
      rw [← abs_div]
      refine le_of_eq (congrArg abs ?_)
      show _ = (a.num.val)⁻¹
      have h1' : (a.num.bits.toInt : ℝ) ≠ 0 := by exact_mod_cast h1
      unfold FixedPoint.val
      push_cast
      generalize (a.num.bits.toInt : ℝ) = v at h1' ⊢
      rw [two_mul, pow_add]; field_simp
    refine ⟨⟨⟨BitVec.ofInt _ (Int.tdiv (2 ^ (2 * f)) a.num.bits.toInt)⟩, a.clean && decide (InRange f (Int.tdiv (2 ^ (2 * f)) a.num.bits.toInt))⟩, ?_, ?_⟩
    · show (MDT.recip a.num).map _ = _
      simp only [MDT.recip, if_neg h1]
      rfl
    · show (a.clean && decide _) = true
      rw [Bool.and_eq_true]
      exact ⟨ha, decide_eq_true h2⟩
  sqrt a ha h0 h := by
    have hp : (0 : ℝ) < 2 ^ f := by positivity
    have h1 : ¬ a.num.bits.toInt < 0 := by
      intro hc
      have h2 : (a.num.bits.toInt : ℝ) < 0 := by exact_mod_cast hc
      have h3 : a.num.val < 0 := div_neg_of_neg_of_pos h2 hp
      exact absurd h0 (not_lt.2 h3.le)
    refine ⟨⟨⟨BitVec.ofNat _ (Nat.sqrt (a.num.bits.toInt.toNat * 2 ^ f))⟩,
      a.clean && decide (InRange f (Nat.sqrt (a.num.bits.toInt.toNat * 2 ^ f)))⟩, ?_, ?_⟩
    · show (MDT.squareRoot a.num).map _ = _
      simp only [MDT.squareRoot, if_neg h1]
      rfl
    · show (a.clean && decide _) = true
      rw [Bool.and_eq_true]
      exact ⟨ha, decide_eq_true (FixedPoint.sqrt_inRange (by omega))⟩
  pos a ha h0 := by
    have h1 : ¬ (MDT.le a.num 0 = true) := by
      rw [FixedPoint.le_iff, FixedPoint.val_zero]; exact not_le.2 h0
    exact Bool.eq_false_iff.2 h1

/-- Clean numbers of growing sizes. -/
theorem watched_limit {g : ℕ → ℕ} (h : ∀ k, k ≤ g k ∧ 2 ≤ g k) :
    ScalarLimit atTop (Converges atTop (fun k (a : Watched (g k)) => a.clean = true) (fun _ a => a.num.val)) := by
  refine scalarLimit (fun k => Watched.rounded (h k).2) (M := fun k => (2 : ℝ) ^ g k / 2) tendsto_const_nhds ?_ ?_
    (Eventually.of_forall fun k => watched_ranged _)
  · exact inv_two_pow_tendsto fun k => (h k).1
  · exact (two_pow_tendsto fun k => (h k).1).atTop_div_const two_pos

/-- Fixed point numbers of growing sizes. -/
theorem fixed_limit {g : ℕ → ℕ} (h : ∀ k, k ≤ g k ∧ 2 ≤ g k) :
    ScalarLimit atTop (Converges atTop (fun k (_ : FixedPoint (g k)) => True) (fun _ a => a.val)) := by
  obtain ⟨limW, hlimW⟩ : ∃ l : (∀ k, Watched (g k)) → ℝ → Prop,
      l = Converges atTop (fun k (a : Watched (g k)) => a.clean = true) (fun _ a => a.num.val) := ⟨_, rfl⟩
  obtain ⟨limF, hlimF⟩ : ∃ l : (∀ k, FixedPoint (g k)) → ℝ → Prop,
      l = Converges atTop (fun k (_ : FixedPoint (g k)) => True) (fun _ a => a.val) := ⟨_, rfl⟩
  have hw := watched_limit h
  rw [← hlimW] at hw
  rw [← hlimF]
  have up : ∀ (a : ∀ k, FixedPoint (g k)) {x : ℝ}, limF a x → limW (fun k => Watched.fresh (a k)) x := by
    intro a x h; subst hlimW; subst hlimF; exact ⟨Eventually.of_forall fun _ => rfl, h.2⟩
  have down : ∀ {a : ∀ k, Watched (g k)} {x : ℝ} {b : ∀ k, FixedPoint (g k)}, limW a x → (∀ k, (a k).num = b k) → limF b x := by
    intro a x b h e
    obtain rfl : (fun k => (a k).num) = b := funext e
    subst hlimW; subst hlimF; exact ⟨Eventually.of_forall fun _ => trivial, h.2⟩
  clear hlimW hlimF
  refine ⟨down hw.zero fun _ => rfl, down hw.one fun _ => rfl, fun ha hb => down (hw.add (up _ ha) (up _ hb)) fun _ => rfl,
    fun ha hb => down (hw.sub (up _ ha) (up _ hb)) fun _ => rfl,
    fun ha hb => down (hw.mul (up _ ha) (up _ hb)) fun _ => rfl, fun ha => down (hw.neg (up _ ha)) fun _ => rfl, ?_, ?_, ?_,
    fun ha hx => hw.pos (up _ ha) hx⟩
  · intro s t hs
    have h1 := hw.isum (ListTends.map hs (r' := limW) (g := fun k a => Watched.fresh a) (g' := id) fun f x hf => up f hf)
    rw [List.map_id] at h1
    refine down h1 fun k => Watched.scalarRel.isum ?_
    rw [List.forall₂_map_left_iff]
    exact List.forall₂_same.2 fun _ _ => rfl
  · intro a x ha hx
    obtain ⟨d, h1, h2⟩ := hw.recip (up _ ha) hx
    refine ⟨fun k => (d k).num, h1.mono fun k hk => ?_, down h2 fun _ => rfl⟩
    obtain ⟨p, hp, e⟩ := Watched.map_ok hk
    have e' : p = (d k).num := congrArg Watched.num e
    exact hp.trans (congrArg Except.ok e')
  · intro a x ha hx
    obtain ⟨d, h1, h2⟩ := hw.squareRoot (up _ ha) hx
    refine ⟨fun k => (d k).num, h1.mono fun k hk => ?_, down h2 fun _ => rfl⟩
    obtain ⟨p, hp, e⟩ := Watched.map_ok hk
    have e' : p = (d k).num := congrArg Watched.num e
    exact hp.trans (congrArg Except.ok e')

end Fixed

/-! ## Exact arithmetic -/

section Real
variable [MDT ℝ] [ExactReal]

theorem real_limit : ScalarLimit (T := fun _ : ι => ℝ) F (Converges F (fun _ _ => True) (fun _ x => x)) := by
  have up : ∀ {a : ι → ℝ} {x : ℝ}, Tendsto a F (𝓝 x) → Converges (T := fun _ => ℝ) F (fun _ _ => True) (fun _ x => x) a x :=
    fun h => ⟨Eventually.of_forall fun _ => trivial, h⟩
  refine ⟨up tendsto_const_nhds, up tendsto_const_nhds, fun ha hb => up (ha.2.add hb.2), fun ha hb => up (ha.2.sub hb.2),
    fun ha hb => up (ha.2.mul hb.2), fun ha => up ha.2.neg, ?_, ?_, ?_, ?_⟩
  · intro s t hs
    simp only [ExactReal.isum_eq]
    refine up ?_
    induction t generalizing s with
    | nil => simp only [ListTends.nil_inv hs, List.sum_nil]; exact tendsto_const_nhds
    | cons y t ih =>
      obtain ⟨a, s', e', h1, h2⟩ := ListTends.cons_inv hs
      simp only [e', List.sum_cons]
      exact h1.2.add (ih h2)
  · intro a x ha hx
    refine ⟨fun k => (a k)⁻¹, ?_, up (ha.2.inv₀ hx)⟩
    filter_upwards [ha.2.eventually_ne hx] with k hk
    exact ExactReal.recip_eq _ hk
  · intro a x ha hx
    refine ⟨fun k => √(a k), ?_, up ha.2.sqrt⟩
    filter_upwards [ha.2.eventually_const_lt hx] with k hk
    exact ExactReal.sqrt_eq _ hk
  · intro a x ha hx
    filter_upwards [ha.2.eventually_const_lt hx] with k hk
    rw [Bool.eq_false_iff]
    intro hc
    exact absurd ((ExactReal.le_iff _ _).1 hc) (not_le.2 hk)

end Real
end Limit
end Minikalman
