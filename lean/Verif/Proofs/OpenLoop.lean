import Verif.Spec.OpenLoop
import Verif.Proofs.Fusion
import Verif.Proofs.History

/-!
# Stretches without measurements: proofs
-/

namespace Minikalman
namespace Spec

open Matrix

variable {n : Nat}

theorem openLoop_regular {ops : List (Op ℝ)} (h : ∀ op ∈ ops, op.OpenLoop) : ∀ {s : State n ℝ}, s.RegularRun ops := by
  induction ops with
  | nil => intro s; trivial
  | cons op ops ih =>
    intro s
    refine ⟨?_, fun s' _ => ih fun o ho => h o (List.mem_cons_of_mem _ ho)⟩
    have := h op (List.mem_cons_self ..)
    cases op <;> first | exact this | trivial

/-- Everything but state and covariance. -/
def EqualModel (s t : State n ℝ) : Prop := s.A = t.A ∧ s.Q = t.Q ∧ s.ctl = t.ctl ∧ s.obs = t.obs

/-- Does the transfer `f` turn `s` into `t`? -/
def Transfers (f : Transfer n) (s t : State n ℝ) : Prop := t.x = f.Φ *ᵥ s.x + f.d ∧ t.P = f.a • (f.Φ * s.P * f.Φᵀ) + f.V

theorem step_transfer {op : Op ℝ} (h : op.OpenLoop) {s s' : State n ℝ} (hs : s.step op = some s') :
    ∃ f : Transfer n, ∀ t, EqualModel s t → ∃ t', t.step op = some t' ∧ EqualModel s' t' ∧ Transfers f t t' := by
  have idt : ∀ t : State n ℝ, t.x = (1 : Matrix (Fin n) (Fin n) ℝ) *ᵥ t.x + 0 := fun t => by simp
  have idP : ∀ t : State n ℝ, t.P = (1 : ℝ) • ((1 : Matrix (Fin n) (Fin n) ℝ) * t.P * (1 : Matrix (Fin n) (Fin n) ℝ)ᵀ) + 0 :=
    fun t => by simp
  cases op with
  | predict =>
    cases hs
    refine ⟨⟨s.A, 0, 1, s.Q⟩, fun t ht => ⟨_, rfl, ⟨ht.1, ht.2.1, ht.2.2.1, ht.2.2.2⟩, ?_, ?_⟩⟩
    · simp [ht.1]
    · simp [predP, ht.1, ht.2.1]
  | predictTuned lambda =>
    cases hs
    refine ⟨⟨s.A, 0, 1 / lambda ^ 2, s.Q⟩, fun t ht => ⟨_, rfl, ⟨ht.1, ht.2.1, ht.2.2.1, ht.2.2.2⟩, ?_, ?_⟩⟩
    · simp [ht.1]
    · simp [predPTuned, ht.1, ht.2.1]
  | control i =>
    cases hc : s.ctl[i]? with
    | none => simp [State.step, hc] at hs
    | some c =>
      simp only [State.step, hc, Option.map_some, Option.some.injEq] at hs
      subst hs
      refine ⟨⟨1, c.2.B *ᵥ c.2.u, 1, c.2.B * c.2.Q * c.2.Bᵀ⟩, fun t ht => ?_⟩
      have hc' : t.ctl[i]? = some c := by rw [← ht.2.2.1]; exact hc
      refine ⟨_, congrArg (Option.map _) hc', ⟨ht.1, ht.2.1, ht.2.2.1, ht.2.2.2⟩, ?_, ?_⟩
      · simp [ctlX]
      · simp [ctlP]
  | correct i => exact h.elim
  | setX v => exact h.elim
  | setP v => exact h.elim
  | setA v =>
    cases hs
    exact ⟨⟨1, 0, 1, 0⟩, fun t ht => ⟨_, rfl, ⟨rfl, ht.2.1, ht.2.2.1, ht.2.2.2⟩, idt t, idP t⟩⟩
  | setQ v =>
    cases hs
    exact ⟨⟨1, 0, 1, 0⟩, fun t ht => ⟨_, rfl, ⟨ht.1, rfl, ht.2.2.1, ht.2.2.2⟩, idt t, idP t⟩⟩
  | setU i v =>
    cases hc : s.ctl[i]? with
    | none => simp [State.step, hc] at hs
    | some c =>
      simp only [State.step, hc, Option.map_some, Option.some.injEq] at hs
      subst hs
      refine ⟨⟨1, 0, 1, 0⟩, fun t ht => ?_⟩
      have hc' : t.ctl[i]? = some c := by rw [← ht.2.2.1]; exact hc
      exact ⟨_, congrArg (Option.map _) hc',
        ⟨ht.1, ht.2.1, by dsimp only; rw [ht.2.2.1], ht.2.2.2⟩, idt t, idP t⟩
  | setB i v =>
    cases hc : s.ctl[i]? with
    | none => simp [State.step, hc] at hs
    | some c =>
      simp only [State.step, hc, Option.map_some, Option.some.injEq] at hs
      subst hs
      refine ⟨⟨1, 0, 1, 0⟩, fun t ht => ?_⟩
      have hc' : t.ctl[i]? = some c := by rw [← ht.2.2.1]; exact hc
      exact ⟨_, congrArg (Option.map _) hc',
        ⟨ht.1, ht.2.1, by dsimp only; rw [ht.2.2.1], ht.2.2.2⟩, idt t, idP t⟩
  | setQc i v =>
    cases hc : s.ctl[i]? with
    | none => simp [State.step, hc] at hs
    | some c =>
      simp only [State.step, hc, Option.map_some, Option.some.injEq] at hs
      subst hs
      refine ⟨⟨1, 0, 1, 0⟩, fun t ht => ?_⟩
      have hc' : t.ctl[i]? = some c := by rw [← ht.2.2.1]; exact hc
      exact ⟨_, congrArg (Option.map _) hc',
        ⟨ht.1, ht.2.1, by dsimp only; rw [ht.2.2.1], ht.2.2.2⟩, idt t, idP t⟩
  | setZ i v =>
    cases hc : s.obs[i]? with
    | none => simp [State.step, hc] at hs
    | some c =>
      simp only [State.step, hc, Option.map_some, Option.some.injEq] at hs
      subst hs
      refine ⟨⟨1, 0, 1, 0⟩, fun t ht => ?_⟩
      have hc' : t.obs[i]? = some c := by rw [← ht.2.2.2]; exact hc
      exact ⟨_, congrArg (Option.map _) hc',
        ⟨ht.1, ht.2.1, ht.2.2.1, by dsimp only; rw [ht.2.2.2]⟩, idt t, idP t⟩
  | setH i v =>
    cases hc : s.obs[i]? with
    | none => simp [State.step, hc] at hs
    | some c =>
      simp only [State.step, hc, Option.map_some, Option.some.injEq] at hs
      subst hs
      refine ⟨⟨1, 0, 1, 0⟩, fun t ht => ?_⟩
      have hc' : t.obs[i]? = some c := by rw [← ht.2.2.2]; exact hc
      exact ⟨_, congrArg (Option.map _) hc',
        ⟨ht.1, ht.2.1, ht.2.2.1, by dsimp only; rw [ht.2.2.2]⟩, idt t, idP t⟩
  | setR i v =>
    cases hc : s.obs[i]? with
    | none => simp [State.step, hc] at hs
    | some c =>
      simp only [State.step, hc, Option.map_some, Option.some.injEq] at hs
      subst hs
      refine ⟨⟨1, 0, 1, 0⟩, fun t ht => ?_⟩
      have hc' : t.obs[i]? = some c := by rw [← ht.2.2.2]; exact hc
      exact ⟨_, congrArg (Option.map _) hc',
        ⟨ht.1, ht.2.1, ht.2.2.1, by dsimp only; rw [ht.2.2.2]⟩, idt t, idP t⟩

/-- One after the other. -/
theorem transfers_trans {f g : Transfer n} {s t r : State n ℝ} (h : Transfers f s t) (h' : Transfers g t r) :
    Transfers ⟨g.Φ * f.Φ, g.Φ *ᵥ f.d + g.d, g.a * f.a, g.a • (g.Φ * f.V * g.Φᵀ) + g.V⟩ s r := by
  constructor
  · rw [h'.1, h.1]
    simp [Matrix.mulVec_add, Matrix.mulVec_mulVec, add_assoc]
  · rw [h'.2, h.2]
    simp [Matrix.mul_add, Matrix.add_mul, Matrix.transpose_mul, Matrix.mul_assoc, smul_smul, smul_add, add_assoc]

theorem run_transfer {ops : List (Op ℝ)} (h : ∀ op ∈ ops, op.OpenLoop) : ∀ {s s' : State n ℝ}, s.run ops = some s' →
    ∃ f : Transfer n, ∀ t, EqualModel s t → ∃ t', t.run ops = some t' ∧ EqualModel s' t' ∧ Transfers f t t' := by
  induction ops with
  | nil =>
    intro s s' hs
    cases hs
    exact ⟨⟨1, 0, 1, 0⟩, fun t ht => ⟨t, rfl, ht, by simp, by simp⟩⟩
  | cons op ops ih =>
    intro s s' hs
    obtain ⟨s1, h1, h2⟩ := Option.bind_eq_some_iff.1 hs
    obtain ⟨f, hf⟩ := step_transfer (h op (List.mem_cons_self ..)) h1
    obtain ⟨g, hg⟩ := ih (fun o ho => h o (List.mem_cons_of_mem _ ho)) h2
    refine ⟨⟨g.Φ * f.Φ, g.Φ *ᵥ f.d + g.d, g.a * f.a, g.a • (g.Φ * f.V * g.Φᵀ) + g.V⟩, fun t ht => ?_⟩
    obtain ⟨t1, k1, k2, k3⟩ := hf t ht
    obtain ⟨t2, l1, l2, l3⟩ := hg t1 k2
    exact ⟨t2, Option.bind_eq_some_iff.2 ⟨t1, k1, l1⟩, l2, transfers_trans k3 l3⟩

/-! ## Repetitions -/

theorem accumulated_succ (c : ℝ) (A Q : Matrix (Fin n) (Fin n) ℝ) (k : Nat) :
    accumulated c A Q (k + 1) = c • (A * accumulated c A Q k * Aᵀ) + Q := by
  unfold accumulated
  rw [Finset.sum_range_succ', Finset.mul_sum, Finset.sum_mul, Finset.smul_sum]
  congr 1
  · refine Finset.sum_congr rfl fun i _ => ?_
    rw [pow_succ', pow_succ', Matrix.transpose_mul, Matrix.mul_smul, Matrix.smul_mul, smul_smul]
    simp only [Matrix.mul_assoc]
  · simp

/-- `k` repetitions of calls that turn `x`, `P` into `A x + d`, `c (A P Aᵀ) + Q`, whatever `x`, `P` are. -/
theorem run_repeat {ops : List (Op ℝ)} {s : State n ℝ} {A Q : Matrix (Fin n) (Fin n) ℝ} {d : Fin n → ℝ} {c : ℝ}
    (h : ∀ x P, ({ s with x := x, P := P } : State n ℝ).run ops =
      some { s with x := A *ᵥ x + d, P := c • (A * P * Aᵀ) + Q }) (k : Nat) :
    s.run (List.replicate k ops).flatten = some { s with
      x := A ^ k *ᵥ s.x + (∑ i ∈ Finset.range k, A ^ i) *ᵥ d, P := c ^ k • (A ^ k * s.P * (A ^ k)ᵀ) + accumulated c A Q k } := by
  induction k with
  | zero => simp [State.run, accumulated]
  | succ k ih =>
    rw [List.replicate_succ', List.flatten_append, run_append, ih, Option.bind_some, List.flatten_singleton, h]
    congr 2
    · rw [Matrix.mulVec_add, Matrix.mulVec_mulVec, Matrix.mulVec_mulVec, ← pow_succ', Finset.mul_sum, Finset.sum_range_succ',
        Matrix.add_mulVec, add_assoc]
      simp [pow_succ']
    · rw [accumulated_succ, pow_succ', pow_succ', Matrix.transpose_mul, Matrix.mul_add, Matrix.add_mul, Matrix.mul_smul,
        Matrix.smul_mul, smul_add, smul_smul, add_assoc]
      simp only [Matrix.mul_assoc]

theorem flatten_singletons {α : Type} (a : α) (k : Nat) : (List.replicate k [a]).flatten = List.replicate k a := by
  induction k with
  | zero => rfl
  | succ k ih => rw [List.replicate_succ, List.flatten_cons, ih, List.replicate_succ]; rfl

theorem predict_repeat (s : State n ℝ) (k : Nat) :
    s.run (List.replicate k .predict) = some { s with
      x := s.A ^ k *ᵥ s.x, P := s.A ^ k * s.P * (s.A ^ k)ᵀ + accumulated 1 s.A s.Q k } := by
  have h := run_repeat (ops := [.predict]) (s := s) (A := s.A) (Q := s.Q) (d := 0) (c := 1)
    (fun x P => by simp [State.run, State.step, predP]) k
  rw [flatten_singletons] at h
  simpa using h

theorem predictTuned_repeat (s : State n ℝ) (lambda : ℝ) (k : Nat) :
    s.run (List.replicate k (.predictTuned lambda)) = some { s with
      x := s.A ^ k *ᵥ s.x,
      P := (1 / lambda ^ 2) ^ k • (s.A ^ k * s.P * (s.A ^ k)ᵀ) + accumulated (1 / lambda ^ 2) s.A s.Q k } := by
  have h := run_repeat (ops := [.predictTuned lambda]) (s := s) (A := s.A) (Q := s.Q) (d := 0) (c := 1 / lambda ^ 2)
    (fun x P => by simp [State.run, State.step, predPTuned]) k
  rw [flatten_singletons] at h
  simpa using h

theorem predictControl_repeat (s : State n ℝ) {i l : Nat} {c : Ctl n l ℝ} (hc : s.ctl[i]? = some ⟨l, c⟩) (k : Nat) :
    s.run (List.replicate k [.predict, .control i]).flatten = some { s with
      x := s.A ^ k *ᵥ s.x + (∑ j ∈ Finset.range k, s.A ^ j) *ᵥ (c.B *ᵥ c.u),
      P := s.A ^ k * s.P * (s.A ^ k)ᵀ + accumulated 1 s.A (s.Q + c.B * c.Q * c.Bᵀ) k } := by
  have h := run_repeat (ops := [.predict, .control i]) (s := s) (A := s.A) (Q := s.Q + c.B * c.Q * c.Bᵀ) (d := c.B *ᵥ c.u) (c := 1)
    (fun x P => by simp [State.run, State.step, predP, ctlX, ctlP, hc, add_assoc]) k
  simpa using h

/-- Unmeasured, the variance in the direction of a left eigenvector `v` of `A`. -/
theorem accumulated_direction {A Q : Matrix (Fin n) (Fin n) ℝ} {v : Fin n → ℝ} {μ : ℝ} (h : Aᵀ *ᵥ v = μ • v) (k : Nat) :
    ∀ P : Matrix (Fin n) (Fin n) ℝ, v ⬝ᵥ (A ^ k * P * (A ^ k)ᵀ + accumulated 1 A Q k) *ᵥ v =
      μ ^ (2 * k) * (v ⬝ᵥ P *ᵥ v) + (∑ i ∈ Finset.range k, μ ^ (2 * i)) * (v ⬝ᵥ Q *ᵥ v) := by
  have hk : ∀ i : Nat, (A ^ i)ᵀ *ᵥ v = μ ^ i • v := by
    intro i
    induction i with
    | zero => simp
    | succ i ih =>
      rw [pow_succ, Matrix.transpose_mul, ← Matrix.mulVec_mulVec, ih, Matrix.mulVec_smul, h, smul_smul, ← pow_succ]
  have hq : ∀ (i : Nat) (M : Matrix (Fin n) (Fin n) ℝ), v ⬝ᵥ (A ^ i * M * (A ^ i)ᵀ) *ᵥ v = μ ^ (2 * i) * (v ⬝ᵥ M *ᵥ v) := by
    intro i M
    rw [← Matrix.mulVec_mulVec, ← Matrix.mulVec_mulVec, hk, Matrix.mulVec_smul, Matrix.mulVec_smul, dotProduct_smul,
      Matrix.dotProduct_mulVec, ← Matrix.mulVec_transpose, hk, smul_dotProduct, smul_eq_mul, smul_eq_mul]
    ring
  intro P
  rw [Matrix.add_mulVec, dotProduct_add, hq]
  congr 1
  unfold accumulated
  rw [Matrix.sum_mulVec, dotProduct_sum, Finset.sum_mul]
  refine Finset.sum_congr rfl fun i _ => ?_
  rw [one_pow, one_smul, hq]

end Spec
end Minikalman
