import Verif.Proofs.Kernels

/-! # Square grids in a list: lemmas for the in-place factorisation and inversion -/

namespace Minikalman

variable {T : Type} {n : Nat}

/-- Cell `(r, c)` of an `n`-column grid stored in `t`. -/
def cl [Zero T] (n : Nat) (t : List T) (r c : Nat) : T := (t[r * n + c]?).getD 0

theorem getElem?_cl [Zero T] {t : List T} (h : n * n ≤ t.length) {r c : Nat} (hr : r < n) (hc : c < n) :
    t[r * n + c]? = some (cl n t r c) := by
  have : r * n + c < t.length := lt_of_lt_of_le (idx_lt hr hc) h
  simp [cl, List.getElem?_eq_getElem this]

theorem cl_set [Zero T] {t : List T} (h : n * n ≤ t.length) {r c r' c' : Nat} (hr : r < n) (hc : c < n)
    (hc' : c' < n) (v : T) :
    cl n (t.set (r * n + c) v) r' c' = if r = r' ∧ c = c' then v else cl n t r' c' := by
  have hlt : r * n + c < t.length := lt_of_lt_of_le (idx_lt hr hc) h
  unfold cl
  rw [List.getElem?_set]
  by_cases hh : r = r' ∧ c = c'
  · rw [if_pos hh, if_pos ((idx_inj hc hc').mpr hh), if_pos hlt]; rfl
  · rw [if_neg hh, if_neg (fun h => hh ((idx_inj hc hc').mp h))]

theorem cl_set_self [Zero T] {t : List T} (h : n * n ≤ t.length) {r c : Nat} (hr : r < n) (hc : c < n) (v : T) :
    cl n (t.set (r * n + c) v) r c = v := by rw [cl_set h hr hc hc, if_pos ⟨rfl, rfl⟩]

theorem cl_set_ne [Zero T] {t : List T} (h : n * n ≤ t.length) {r c r' c' : Nat} (hr : r < n) (hc : c < n)
    (hc' : c' < n) (hne : ¬ (r = r' ∧ c = c')) (v : T) :
    cl n (t.set (r * n + c) v) r' c' = cl n t r' c' := by rw [cl_set h hr hc hc', if_neg hne]

/-- Same length and same cells behind the grid. -/
def TailEq (n : Nat) (t0 t : List T) : Prop := t.length = t0.length ∧ ∀ k, n * n ≤ k → t[k]? = t0[k]?

theorem TailEq.refl (t : List T) : TailEq n t t := ⟨rfl, fun _ _ => rfl⟩

theorem TailEq.set {t0 t : List T} (h : TailEq n t0 t) {r c : Nat} (hr : r < n) (hc : c < n) (v : T) :
    TailEq n t0 (t.set (r * n + c) v) := by
  refine ⟨by simp [h.1], fun k hk => ?_⟩
  have := idx_lt hr hc
  rw [List.getElem?_set, if_neg (by omega), h.2 k hk]

theorem TailEq.le {t0 t : List T} (h : TailEq n t0 t) (h0 : n * n ≤ t0.length) : n * n ≤ t.length := by
  rw [h.1]; exact h0

/-- `init - f 0 - ... - f (k-1)` from left to right. -/
def subTo [Sub T] (init : T) (f : Nat → T) : Nat → T
  | 0 => init
  | k + 1 => subTo init f k - f k

theorem subTo_eq [AddCommGroup T] (init : T) (f : Nat → T) (k : Nat) :
    subTo init f k = init - ∑ i ∈ Finset.range k, f i := by
  induction k with
  | zero => simp [subTo]
  | succ k ih => rw [subTo, ih, Finset.sum_range_succ, sub_sub]

/-- The inner loop of the Cholesky decomposition. -/
theorem cholLoop [Sub T] [Mul T] {t : List T} {f g : Nat → T} {a0 b0 i : Nat} (init : T)
    (ha : ∀ k, k < i → t[a0 + k]? = some (f k)) (hb : ∀ k, k < i → t[b0 + k]? = some (g k)) :
    forUp a0 (a0 + i) (fun iEl (sum, jEl) => do
        let ti ← rd t iEl
        let tj ← rd t jEl
        pure (sum - ti * tj, jEl + 1)) (init, b0)
      = .ok (subTo init (fun k => f k * g k) i, b0 + i) := by
  have := forUp_eq (lo := a0) (hi := a0 + i) (s := (init, b0)) (body := fun iEl (sum, jEl) => do
        let ti ← rd t iEl
        let tj ← rd t jEl
        pure (sum - ti * tj, jEl + 1))
      (fun k => (subTo init (fun k => f k * g k) (k - a0), b0 + (k - a0))) (by omega) (by simp [subTo]) ?_
  · simpa using this
  intro k hk1 hk
  obtain ⟨k, rfl⟩ : ∃ j, k = a0 + j := ⟨k - a0, by omega⟩
  simp only [rd_eq (ha k (by omega)), show a0 + k - a0 = k by omega, rd_eq (hb k (by omega)), res_bind_ok,
    show a0 + k + 1 - a0 = k + 1 by omega]
  rfl

end Minikalman
