import Verif.Proofs.Buffers

/-! # Total correctness of the linear kernels, in any arithmetic -/

namespace Minikalman
namespace Mat

variable {T : Type} {R C U N : Nat}

/-! ## Copies -/

theorem copyTo_spec {a b : Mat R C T} (hpos : 0 < R * C) (ha : a.Valid) (hb : b.Valid) :
    Holds (a.copyTo b) (fun b' => (∀ k, k < R * C → b'.data[k]? = a.data[k]?) ∧ b.SameTail b') := by
  unfold copyTo
  simp only [len]
  rw [usub_eq (by omega : 1 ≤ R * C), res_bind_ok, show R * C - 1 + 1 = R * C by omega]
  refine Holds.bind (P := fun d => d.length = b.data.length ∧
      ∀ k, d[k]? = if k < R * C then a.data[k]? else b.data[k]?)
    ((forDown_inv (I := fun t d => d.length = b.data.length ∧
      ∀ k, d[k]? = if t ≤ k ∧ k < R * C then a.data[k]? else b.data[k]?) ?_ ?_).mono ?_) ?_
  · exact ⟨rfl, fun k => by rw [if_neg (by omega)]⟩
  · rintro t d ht ⟨hl, hd⟩
    have hta : t < a.data.length := lt_of_lt_of_le ht ha
    have htb : t < d.length := by rw [hl]; exact lt_of_lt_of_le ht hb
    refine Holds.rd (List.getElem?_eq_getElem hta) ?_
    rw [wr_eq htb]
    refine Holds.ok ⟨by simp [hl], fun k => ?_⟩
    rw [List.getElem?_set]
    by_cases h : t = k
    · subst h; simp [htb, ht, List.getElem?_eq_getElem hta]
    · rw [if_neg h, hd]
      congr 1
      apply propext
      omega
  · rintro d ⟨hl, hd⟩
    exact ⟨hl, fun k => by rw [hd]; simp⟩
  · rintro d ⟨hl, hd⟩
    refine Holds.pure ⟨fun k hk => by simp [hd, hk], hl, fun k hk => ?_⟩
    simp [hd, Nat.not_lt.mpr hk]

theorem columnCopyLoop_spec {src : List T} {stride : Nat} {v : Nat → T} (t s : Nat) (c0 dst : List T)
    (column : Nat) (hs : s = t * stride + column) (hv : ∀ r, r < t → src[r * stride + column]? = some (v r))
    (hlen : t ≤ c0.length) (M : Nat) (h : Upd c0 dst (fun k => t ≤ k ∧ k < M) v) (htM : t ≤ M) :
    Holds (columnCopyLoop src stride t s dst) (fun d => Upd c0 d (fun k => k < M) v) := by
  induction t generalizing s dst with
  | zero => exact Holds.ok (h.congr (by simp))
  | succ t ih =>
    unfold columnCopyLoop
    have hsub : s - stride = t * stride + column := by rw [hs, Nat.add_mul]; omega
    rw [usub_eq (by rw [hs, Nat.add_mul]; omega), res_bind_ok, hsub]
    refine Holds.rd (hv t (by omega)) ?_
    refine Holds.wr (by rw [h.length]; omega) ?_
    refine ih _ _ rfl (fun r hr => hv r (by omega)) (by omega) ?_ (by omega)
    exact h.set rfl (fun k => by omega)

theorem getColumnCopy_spec {m : Mat R C T} {v : Nat → T} {column : Nat} {dst : List T} (hR : 0 < R)
    (hv : ∀ r, r < R → m.data[r * C + column]? = some (v r)) (hdst : R ≤ dst.length) :
    Holds (m.getColumnCopy column dst) (fun d => Upd dst d (fun k => k < R) v) := by
  unfold getColumnCopy
  rw [usub_eq (by omega : 1 ≤ R), res_bind_ok]
  simp only []
  refine Holds.rd (hv (R - 1) (by omega)) ?_
  refine Holds.wr (by omega) ?_
  refine columnCopyLoop_spec (R - 1) _ dst _ column rfl (fun r hr => hv r (by omega)) (by omega) R ?_ (by omega)
  exact (Upd.refl dst v (W := fun _ => False) (fun _ h => h)).set rfl (fun k => by simp only [false_or]; omega)

theorem rowCopyLoop_spec {src : List T} {v : Nat → T} (t s off : Nat) (c0 dst : List T)
    (hs : s = off + t) (hv : ∀ r, r < t → src[off + r]? = some (v r))
    (hlen : t ≤ c0.length) (M : Nat) (h : Upd c0 dst (fun k => t ≤ k ∧ k < M) v) (htM : t ≤ M) :
    Holds (rowCopyLoop src t s dst) (fun d => Upd c0 d (fun k => k < M) v) := by
  induction t generalizing s dst with
  | zero => exact Holds.ok (h.congr (by simp))
  | succ t ih =>
    unfold rowCopyLoop
    have hsub : s - 1 = off + t := by omega
    rw [usub_eq (by omega), res_bind_ok, hsub]
    refine Holds.rd (hv t (by omega)) ?_
    refine Holds.wr (by rw [h.length]; omega) ?_
    refine ih _ _ rfl (fun r hr => hv r (by omega)) (by omega) ?_ (by omega)
    exact h.set rfl (fun k => by omega)

/-- What `get_row_copy` really does: it copies `C` consecutive cells starting at `row * (C - 1)`. -/
theorem getRowCopy_spec {m : Mat R C T} {v : Nat → T} {row : Nat} {dst : List T} (hC : 0 < C)
    (hv : ∀ c, c < C → m.data[row * (C - 1) + c]? = some (v c)) (hdst : C ≤ dst.length) :
    Holds (m.getRowCopy row dst) (fun d => Upd dst d (fun k => k < C) v) := by
  unfold getRowCopy
  rw [usub_eq (by omega : 1 ≤ C), res_bind_ok, res_bind_ok]
  simp only []
  have e : (row + 1) * (C - 1) = row * (C - 1) + (C - 1) := by ring
  rw [e]
  refine Holds.rd (hv (C - 1) (by omega)) ?_
  refine Holds.wr (by omega) ?_
  refine rowCopyLoop_spec (C - 1) _ (row * (C - 1)) dst _ rfl (fun r hr => hv r (by omega)) (by omega) C ?_ (by omega)
  exact (Upd.refl dst v (W := fun _ => False) (fun _ h => h)).set rfl (fun k => by simp only [false_or]; omega)

/-! ## Products -/

section Arith
variable [Zero T] [Add T] [Mul T]

omit [Zero T] in
/-- Inner product loop with running index `index_a`. -/
theorem dotLoop {adata bdata : List T} {f g : Nat → T} {a0 : Nat} {bi : Nat → Nat} {n : Nat} (init : T)
    (ha : ∀ k, k < n → adata[a0 + k]? = some (f k)) (hb : ∀ k, k < n → bdata[bi k]? = some (g k)) :
    forUp 0 n (fun k (total, indexA) => do
        let av ← rd adata indexA
        let bv ← rd bdata (bi k)
        pure (total + av * bv, indexA + 1)) (init, a0)
      = .ok (sumTo init (fun k => f k * g k) n, a0 + n) := by
  refine forUp_eq (fun k => (sumTo init (fun k => f k * g k) k, a0 + k)) (Nat.zero_le _) rfl ?_
  intro k _ hk
  simp only [rd_eq (ha k hk), rd_eq (hb k hk), res_bind_ok]
  rfl

omit [Zero T] in
/-- Inner product loop starting at one. -/
theorem dotLoop1 {adata bdata : List T} {f g : Nat → T} {a0 : Nat} {n : Nat} (init : T) (hn : 0 < n)
    (ha : ∀ k, k < n → adata[a0 + k]? = some (f k)) (hb : ∀ k, k < n → bdata[k]? = some (g k)) :
    forUp 1 n (fun j (total, indexA) => do
        let av ← rd adata indexA
        let bv ← rd bdata j
        pure (total + av * bv, indexA + 1)) (init, a0 + 1)
      = .ok (sumTo init (fun k => f (k + 1) * g (k + 1)) (n - 1), a0 + n) := by
  refine forUp_eq (fun k => (sumTo init (fun k => f (k + 1) * g (k + 1)) (k - 1), a0 + k)) hn rfl ?_
  intro k hk1 hk
  obtain ⟨k, rfl⟩ : ∃ j, k = j + 1 := ⟨k - 1, by omega⟩
  simp only [rd_eq (ha _ hk), rd_eq (hb _ hk), res_bind_ok]
  rfl

/-- The loop over the rows of `A` in `mult` and `mult_buffered` for a fixed column `j`. -/
theorem multColumn {a : Mat R C T} {bdata : List T} {bi : Nat → Nat} {g : Nat → T} {c0 c : List T}
    {j : Nat} (hj : j < U) (ha : a.Valid) (hb : ∀ k, k < C → bdata[bi k]? = some (g k))
    (hlen : R * U ≤ c0.length) (v : Nat → T)
    (hv : ∀ i, i < R → v (i * U + j) = sumTo 0 (fun k => a.cell i k * g k) C)
    (h : Upd c0 c (fun k => k < R * U ∧ j < k % U) v) :
    Holds (forUp 0 R (fun i (cdata, indexA) => do
      let (total, indexA) ← forUp 0 C (fun k (total, indexA) => do
        let av ← rd a.data indexA
        let bv ← rd bdata (bi k)
        pure (total + av * bv, indexA + 1)) ((0 : T), indexA)
      let cdata ← wr cdata (i * U + j) total
      pure (cdata, indexA)) (c, 0))
      (fun s => Upd c0 s.1 (fun k => k < R * U ∧ j ≤ k % U) v) := by
  refine (forUp_inv (I := fun i s => s.2 = i * C ∧
    Upd c0 s.1 (fun k => k < R * U ∧ (j < k % U ∨ (k % U = j ∧ k / U < i))) v) (Nat.zero_le _) ?_ ?_).mono ?_
  · exact ⟨by simp, h.congr (fun k => by simp)⟩
  · rintro i ⟨cd, ia⟩ _ hi ⟨hia, hcd⟩
    simp only at hia hcd
    subst hia
    simp only []
    rw [dotLoop (f := fun k => a.cell i k) (g := g) (0 : T) (fun k hk => Mat.getElem?_cell ha hi hk) hb]
    simp only [res_bind_ok]
    have hlt : i * U + j < R * U := idx_lt hi hj
    refine Holds.wr (by rw [hcd.length]; omega) ?_
    refine Holds.pure ⟨by ring, ?_⟩
    refine hcd.set (hv i hi).symm (fun k => ?_)
    have key : k = i * U + j ↔ k % U = j ∧ k / U = i := by
      constructor
      · rintro rfl; exact ⟨idx_mod hj, idx_div hj⟩
      · rintro ⟨rfl, rfl⟩; exact (idx_eta k).symm
    rw [key]
    constructor
    · rintro ⟨h1, h2 | ⟨h2, h3⟩⟩
      · exact Or.inl ⟨h1, Or.inl h2⟩
      · rcases Nat.lt_succ_iff_lt_or_eq.mp h3 with h4 | h4
        · exact Or.inl ⟨h1, Or.inr ⟨h2, h4⟩⟩
        · exact Or.inr ⟨h2, h4⟩
    · rintro (⟨h1, h2 | ⟨h2, h3⟩⟩ | ⟨h2, h3⟩)
      · exact ⟨h1, Or.inl h2⟩
      · exact ⟨h1, Or.inr ⟨h2, by omega⟩⟩
      · refine ⟨?_, Or.inr ⟨h2, by omega⟩⟩
        rw [key.mpr ⟨h2, h3⟩]; exact hlt
  · rintro ⟨cd, ia⟩ ⟨_, hcd⟩
    refine hcd.congr (fun k => ?_)
    constructor
    · rintro ⟨h1, h2⟩
      refine ⟨h1, ?_⟩
      rcases Nat.lt_or_eq_of_le h2 with h3 | h3
      · exact Or.inl h3
      · exact Or.inr ⟨h3.symm, idx_row_lt h1⟩
    · rintro ⟨h1, h2 | ⟨h2, _⟩⟩
      · exact ⟨h1, by omega⟩
      · exact ⟨h1, by omega⟩

/-- Values of `mult` in any arithmetic, in flat indices. -/
def multVal (a : Mat R C T) (b : Mat C U T) (k : Nat) : T :=
  sumTo 0 (fun l => a.cell (k / U) l * b.cell l (k % U)) C

theorem multVal_idx (a : Mat R C T) (b : Mat C U T) {i j : Nat} (hj : j < U) :
    multVal a b (i * U + j) = sumTo 0 (fun l => a.cell i l * b.cell l j) C := by
  unfold multVal; rw [idx_div hj, idx_mod hj]

theorem mult_upd {a : Mat R C T} {b : Mat C U T} {c : Mat R U T} (ha : a.Valid) (hb : b.Valid)
    (hc : c.Valid) :
    Holds (a.mult b c) (fun c' => Upd c.data c'.data (fun k => k < R * U) (multVal a b)) := by
  unfold mult
  refine Holds.bind (forDown_inv (I := fun j d => Upd c.data d (fun k => k < R * U ∧ j ≤ k % U) (multVal a b))
    ?_ ?_) ?_
  · refine Upd.refl _ _ (fun k => ?_)
    rintro ⟨h1, h2⟩
    have := idx_col_lt h1
    omega
  · intro j d hj hd
    refine Holds.bind (multColumn hj ha (fun k hk => Mat.getElem?_cell hb hk hj) hc (multVal a b)
      (fun i hi => multVal_idx a b hj) hd) ?_
    rintro ⟨s, _⟩ hs
    exact Holds.pure hs
  · intro d hd
    exact Holds.pure (hd.congr (fun k => by simp))

theorem mult_spec {a : Mat R C T} {b : Mat C U T} {c : Mat R U T} (ha : a.Valid) (hb : b.Valid)
    (hc : c.Valid) :
    Holds (a.mult b c) (fun c' =>
      c'.Reps (fun i j => sumTo 0 (fun l => a.cell i l * b.cell l j) C) ∧ c.SameTail c') := by
  refine (mult_upd ha hb hc).mono fun c' h => ?_
  obtain ⟨h1, h2⟩ := h.reps (fun k => Iff.rfl) hc
  exact ⟨fun i j => by have := h1 i j; dsimp only at this ⊢; rwa [multVal_idx a b j.2] at this, h2⟩

theorem multBuffered_upd (bld : Build) {a : Mat R C T} {b : Mat C U T} {c : Mat R U T} {aux : List T}
    (hC : 0 < C) (ha : a.Valid) (hb : b.Valid) (hc : c.Valid) (haux : C ≤ aux.length)
    (hass : debugAssert bld (aux.length == C) = .ok ()) :
    Holds (a.multBuffered bld b c aux)
      (fun r => Upd c.data r.1.data (fun k => k < R * U) (multVal a b) ∧ r.2.length = aux.length) := by
  unfold multBuffered
  simp only [hass, res_bind_ok]
  refine Holds.bind (forDown_inv (I := fun j s =>
    Upd c.data s.1 (fun k => k < R * U ∧ j ≤ k % U) (multVal a b) ∧ s.2.length = aux.length) ?_ ?_) ?_
  · refine ⟨Upd.refl _ _ (fun k => ?_), rfl⟩
    rintro ⟨h1, h2⟩
    have := idx_col_lt h1
    omega
  · rintro j ⟨d, aux'⟩ hj ⟨hd, hl⟩
    simp only at hd hl ⊢
    refine Holds.bind (getColumnCopy_spec hC (fun r hr => Mat.getElem?_cell hb hr hj) (by omega)) ?_
    intro aux'' h''
    refine Holds.bind (multColumn hj ha (bdata := aux'') (bi := fun k => k) (g := fun k => b.cell k j)
      (fun k hk => h''.new hk (by omega)) hc (multVal a b)
      (fun i hi => multVal_idx a b hj) hd) ?_
    rintro ⟨s, _⟩ hs
    exact Holds.pure ⟨hs, by rw [h''.length]; exact hl⟩
  · rintro ⟨d, aux'⟩ ⟨hd, hl⟩
    simp only at hl
    exact Holds.pure ⟨hd.congr (fun k => by simp), by simp only; omega⟩

/-- Value of a row of `mult_rowvector`. -/
def rowVal (a : Mat R C T) (x : Mat C 1 T) (i : Nat) : T :=
  sumTo (a.cell i 0 * x.cell 0 0) (fun k => a.cell i (k + 1) * x.cell (k + 1) 0) (C - 1)

omit [Add T] [Mul T] in
theorem getElem?_cellV {x : Mat C 1 T} (hx : x.Valid) {k : Nat} (hk : k < C) :
    x.data[k]? = some (x.cell k 0) := by
  have := Mat.getElem?_cell hx hk (Nat.zero_lt_one)
  simpa using this

theorem multRowvector_upd {a : Mat R C T} {x : Mat C 1 T} {c : Mat R 1 T} (hC : 0 < C) (ha : a.Valid)
    (hx : x.Valid) (hc : c.Valid) :
    Holds (a.multRowvector x c) (fun c' => Upd c.data c'.data (fun k => k < R) (rowVal a x)) := by
  unfold multRowvector
  rw [rd_eq (getElem?_cellV hx hC), res_bind_ok]
  refine Holds.bind (forUp_inv (I := fun i (s : List T × Nat) => s.2 = i * C ∧
    Upd c.data s.1 (fun k => k < i) (rowVal a x)) (Nat.zero_le _) ?_ ?_) ?_
  · exact ⟨by simp, Upd.refl _ _ (fun k => by simp)⟩
  · rintro i ⟨d, ia⟩ _ hi ⟨hia, hd⟩
    simp only at hia hd
    subst hia
    simp only []
    refine Holds.rd (Mat.getElem?_cell ha hi hC) ?_
    rw [dotLoop1 (f := fun k => a.cell i k) (g := fun k => x.cell k 0) _ hC
      (fun k hk => Mat.getElem?_cell ha hi hk) (fun k hk => getElem?_cellV hx hk)]
    simp only [res_bind_ok]
    refine Holds.wr (by rw [hd.length]; unfold Valid at hc; omega) ?_
    exact Holds.pure ⟨by ring, hd.set rfl (fun k => by omega)⟩
  · rintro ⟨d, _⟩ ⟨_, hd⟩
    exact Holds.pure hd

theorem multaddRowvector_upd {a : Mat R C T} {x : Mat C 1 T} {c : Mat R 1 T} (hC : 0 < C) (ha : a.Valid)
    (hx : x.Valid) (hc : c.Valid) :
    Holds (a.multaddRowvector x c)
      (fun c' => Upd c.data c'.data (fun k => k < R) (fun i => c.cell i 0 + rowVal a x i)) := by
  unfold multaddRowvector
  rw [rd_eq (getElem?_cellV hx hC), res_bind_ok]
  refine Holds.bind (forUp_inv (I := fun i (s : List T × Nat) => s.2 = i * C ∧
    Upd c.data s.1 (fun k => k < i) (fun i => c.cell i 0 + rowVal a x i)) (Nat.zero_le _) ?_ ?_) ?_
  · exact ⟨by simp, Upd.refl _ _ (fun k => by simp)⟩
  · rintro i ⟨d, ia⟩ _ hi ⟨hia, hd⟩
    simp only at hia hd
    subst hia
    simp only []
    refine Holds.rd (Mat.getElem?_cell ha hi hC) ?_
    rw [dotLoop1 (f := fun k => a.cell i k) (g := fun k => x.cell k 0) _ hC
      (fun k hk => Mat.getElem?_cell ha hi hk) (fun k hk => getElem?_cellV hx hk)]
    simp only [res_bind_ok]
    refine Holds.rd (v := c.cell i 0) (by rw [hd.old (by simp)]; exact getElem?_cellV hc hi) ?_
    refine Holds.wr (by rw [hd.length]; unfold Valid at hc; omega) ?_
    exact Holds.pure ⟨by ring, hd.set rfl (fun k => by omega)⟩
  · rintro ⟨d, _⟩ ⟨_, hd⟩
    exact Holds.pure hd

omit [Zero T] in
/-- Inner `while index_a < end` loop of the `transb` kernels. -/
theorem dotLoopT {adata bdata : List T} {f g : Nat → T} {a0 b0 : Nat} {n : Nat} (init : T)
    (ha : ∀ k, k < n → adata[a0 + k]? = some (f k)) (hb : ∀ k, k < n → bdata[b0 + k]? = some (g k)) :
    forUp a0 (a0 + n) (fun indexA (total, indexB) => do
        let av ← rd adata indexA
        let bv ← rd bdata indexB
        pure (total + av * bv, indexB + 1)) (init, b0)
      = .ok (sumTo init (fun k => f k * g k) n, b0 + n) := by
  rw [forUp_eq (fun k => (sumTo init (fun k => f k * g k) (k - a0), b0 + (k - a0))) (Nat.le_add_right _ _)
    (by simp [sumTo])]
  · simp
  · intro k hk1 hk
    obtain ⟨k, rfl⟩ : ∃ j, k = a0 + j := ⟨k - a0, by omega⟩
    simp only [Nat.add_sub_cancel_left, rd_eq (ha k (by omega)), rd_eq (hb k (by omega)), res_bind_ok]
    rw [show a0 + k + 1 - a0 = k + 1 by omega]
    rfl

/-- Values of `mult_transb` in flat indices. -/
def transbVal (a : Mat R C T) (b : Mat U C T) (k : Nat) : T :=
  sumTo 0 (fun l => a.cell (k / U) l * b.cell (k % U) l) C

theorem transbVal_idx (a : Mat R C T) (b : Mat U C T) {i j : Nat} (hj : j < U) :
    transbVal a b (i * U + j) = sumTo 0 (fun l => a.cell i l * b.cell j l) C := by
  unfold transbVal; rw [idx_div hj, idx_mod hj]

/-- Common shape of the three `transb` kernels: `store` writes the finished total to the cell `c_index`. -/
theorem transb_loops {a : Mat R C T} {b : Mat U C T} {c : Mat R U T} (ha : a.Valid) (hb : b.Valid)
    (v : Nat → T) (store : List T → Nat → T → Res (List T))
    (hstore : ∀ d k, k < R * U → Upd c.data d (fun i => i < k) v →
      store d k (transbVal a b k) = .ok (d.set k (v k))) :
    Holds (forUp 0 R (fun _ (s : List T × Nat × Nat) => do
        let (cdata, cIndex, _) ← forUp 0 U (fun _ (s' : List T × Nat × Nat) => do
          let (total, indexB) ← forUp s.2.2 (s.2.2 + C) (fun indexA (total, indexB) => do
            let av ← rd a.data indexA
            let bv ← rd b.data indexB
            pure (total + av * bv, indexB + 1)) ((0 : T), s'.2.2)
          let cdata ← store s'.1 s'.2.1 total
          pure (cdata, s'.2.1 + 1, indexB)) (s.1, s.2.1, 0)
        pure (cdata, cIndex, s.2.2 + C)) (c.data, 0, 0))
      (fun s => Upd c.data s.1 (fun k => k < R * U) v) := by
  refine (forUp_inv (I := fun i (s : List T × Nat × Nat) => s.2.1 = i * U ∧ s.2.2 = i * C ∧
    Upd c.data s.1 (fun k => k < i * U) v) (Nat.zero_le _) ?_ ?_).mono ?_
  · exact ⟨by simp, by simp, Upd.refl _ _ (fun k => by simp)⟩
  · rintro i ⟨d, ci, ai⟩ _ hi ⟨h1, h2, hd⟩
    simp only at h1 h2 hd
    subst h1 h2
    simp only []
    refine Holds.bind (forUp_inv (I := fun j (s : List T × Nat × Nat) => s.2.1 = i * U + j ∧ s.2.2 = j * C ∧
      Upd c.data s.1 (fun k => k < i * U + j) v) (Nat.zero_le _) ?_ ?_) ?_
    · exact ⟨by simp, by simp, hd⟩
    · rintro j ⟨d, ci, bi⟩ _ hj ⟨h1, h2, hd⟩
      simp only at h1 h2 hd
      subst h1 h2
      simp only []
      rw [dotLoopT (f := fun k => a.cell i k) (g := fun k => b.cell j k) (0 : T)
        (fun k hk => Mat.getElem?_cell ha hi hk) (fun k hk => Mat.getElem?_cell hb hj hk)]
      simp only [res_bind_ok]
      rw [← transbVal_idx a b hj, hstore d _ (idx_lt hi hj) hd]
      simp only [res_bind_ok]
      exact Holds.pure ⟨by ring, by ring, hd.set rfl (fun k => by omega)⟩
    · rintro ⟨d, ci, bi⟩ ⟨h1, h2, hd⟩
      simp only at h1 h2 hd ⊢
      exact Holds.pure ⟨by rw [h1]; ring, by ring, hd.congr (fun k => by
        rw [show (i + 1) * U = i * U + U by ring])⟩
  · rintro ⟨d, ci, ai⟩ ⟨_, _, hd⟩
    exact hd

theorem multTransb_upd {a : Mat R C T} {b : Mat U C T} {c : Mat R U T} (ha : a.Valid) (hb : b.Valid)
    (hc : c.Valid) :
    Holds (a.multTransb b c) (fun c' => Upd c.data c'.data (fun k => k < R * U) (transbVal a b)) := by
  unfold multTransb
  refine Holds.bind (transb_loops (c := c) ha hb (transbVal a b) (fun d k t => wr d k t) ?_) ?_
  · intro d k hk hd
    exact wr_eq (by rw [hd.length]; exact lt_of_lt_of_le hk hc) _
  · rintro ⟨d, _, _⟩ hd
    exact Holds.pure hd

omit [Add T] [Mul T] in
theorem cell_flat {c : Mat R U T} (k : Nat) : c.cell (k / U) (k % U) = (c.data[k]?).getD 0 := by
  unfold Mat.cell; rw [idx_eta]

theorem multaddTransb_upd {a : Mat R C T} {b : Mat U C T} {c : Mat R U T} (ha : a.Valid) (hb : b.Valid)
    (hc : c.Valid) :
    Holds (a.multaddTransb b c) (fun c' => Upd c.data c'.data (fun k => k < R * U)
      (fun k => (c.data[k]?).getD 0 + transbVal a b k)) := by
  unfold multaddTransb
  have key := transb_loops (c := c) ha hb (fun k => (c.data[k]?).getD 0 + transbVal a b k)
    (fun d k t => do
      let cv ← rd d k
      wr d k (cv + t))
  simp only [bind_assoc] at key
  refine Holds.bind (key ?_) ?_
  · intro d k hk hd
    have hk' : k < c.data.length := lt_of_lt_of_le hk hc
    have : d[k]? = some ((c.data[k]?).getD 0) := by
      rw [hd.old (by simp), List.getElem?_eq_getElem hk']; rfl
    simp only [rd_eq this, res_bind_ok]
    exact wr_eq (by rw [hd.length]; exact hk') _
  · rintro ⟨d, _, _⟩ hd
    exact Holds.pure hd

theorem multscaleTransb_upd {a : Mat R C T} {b : Mat U C T} {c : Mat R U T} (scale : T) (ha : a.Valid)
    (hb : b.Valid) (hc : c.Valid) :
    Holds (a.multscaleTransb b scale c) (fun c' => Upd c.data c'.data (fun k => k < R * U)
      (fun k => transbVal a b k * scale)) := by
  unfold multscaleTransb
  refine Holds.bind (transb_loops (c := c) ha hb (fun k => transbVal a b k * scale)
    (fun d k t => wr d k (t * scale)) ?_) ?_
  · intro d k hk hd
    exact wr_eq (by rw [hd.length]; exact lt_of_lt_of_le hk hc) _
  · rintro ⟨d, _, _⟩ hd
    exact Holds.pure hd

end Arith

/-! ## Element-wise operations -/

section Elementwise
variable [Zero T]

omit [Zero T] in
/-- A descending loop that overwrites every cell `k < count` with `v k`. -/
theorem fillDown {c0 : List T} {count : Nat} (v : Nat → T)
    (store : Nat → List T → Res (List T))
    (hstore : ∀ k d, k < count → d.length = c0.length → d[k]? = c0[k]? → store k d = .ok (d.set k (v k))) :
    Holds (forDown count store c0) (fun d => Upd c0 d (fun k => k < count) v) := by
  refine (forDown_inv (I := fun t d => Upd c0 d (fun k => t ≤ k ∧ k < count) v) ?_ ?_).mono ?_
  · exact Upd.refl _ _ (fun k => by omega)
  · intro k d hk hd
    rw [hstore k d hk hd.length (hd.old (by omega))]
    exact Holds.ok (hd.set rfl (fun i => by omega))
  · intro d hd
    exact hd.congr (fun k => by simp)

theorem getElem?_flat {a : Mat R C T} (ha : a.Valid) {k : Nat} (hk : k < R * C) :
    a.data[k]? = some ((a.data[k]?).getD 0) := by
  rw [List.getElem?_eq_getElem (lt_of_lt_of_le hk ha)]; rfl

theorem sub_upd [Sub T] {a b c : Mat R C T} (ha : a.Valid) (hb : b.Valid) (hc : c.Valid) :
    Holds (a.sub b c) (fun c' => Upd c.data c'.data (fun k => k < R * C)
      (fun k => (a.data[k]?).getD 0 - (b.data[k]?).getD 0)) := by
  unfold Mat.sub
  refine Holds.bind (fillDown (fun k => (a.data[k]?).getD 0 - (b.data[k]?).getD 0) _ ?_)
    (fun d hd => Holds.pure hd)
  intro k d hk hl _
  simp only [rd_eq (getElem?_flat ha hk), rd_eq (getElem?_flat hb hk), res_bind_ok]
  exact wr_eq (by rw [hl]; exact lt_of_lt_of_le hk hc) _

theorem addInplaceB_upd [Add T] {a b : Mat R C T} (ha : a.Valid) (hb : b.Valid) :
    Holds (a.addInplaceB b) (fun b' => Upd b.data b'.data (fun k => k < R * C)
      (fun k => (b.data[k]?).getD 0 + (a.data[k]?).getD 0)) := by
  unfold Mat.addInplaceB
  refine Holds.bind (fillDown (fun k => (b.data[k]?).getD 0 + (a.data[k]?).getD 0) _ ?_)
    (fun d hd => Holds.pure hd)
  intro k d hk hl hd
  simp only [rd_eq (hd.trans (getElem?_flat hb hk)), rd_eq (getElem?_flat ha hk), res_bind_ok]
  exact wr_eq (by rw [hl]; exact lt_of_lt_of_le hk hb) _

theorem subInplaceB_upd [Sub T] {a b : Mat R C T} (ha : a.Valid) (hb : b.Valid) :
    Holds (a.subInplaceB b) (fun b' => Upd b.data b'.data (fun k => k < R * C)
      (fun k => (a.data[k]?).getD 0 - (b.data[k]?).getD 0)) := by
  unfold Mat.subInplaceB
  refine Holds.bind (fillDown (fun k => (a.data[k]?).getD 0 - (b.data[k]?).getD 0) _ ?_)
    (fun d hd => Holds.pure hd)
  intro k d hk hl hd
  simp only [rd_eq (hd.trans (getElem?_flat hb hk)), rd_eq (getElem?_flat ha hk), res_bind_ok]
  exact wr_eq (by rw [hl]; exact lt_of_lt_of_le hk hb) _

theorem addInplaceA_upd [Add T] {a b : Mat R C T} (ha : a.Valid) (hb : b.Valid) :
    Holds (a.addInplaceA b) (fun a' => Upd a.data a'.data (fun k => k < R * C)
      (fun k => (a.data[k]?).getD 0 + (b.data[k]?).getD 0)) := by
  unfold Mat.addInplaceA
  refine Holds.bind (fillDown (fun k => (a.data[k]?).getD 0 + (b.data[k]?).getD 0) _ ?_)
    (fun d hd => Holds.pure hd)
  intro k d hk hl hd
  simp only [rd_eq (hd.trans (getElem?_flat ha hk)), rd_eq (getElem?_flat hb hk), res_bind_ok]
  exact wr_eq (by rw [hl]; exact lt_of_lt_of_le hk ha) _

theorem subInplaceA_upd [Sub T] {a b : Mat R C T} (ha : a.Valid) (hb : b.Valid) :
    Holds (a.subInplaceA b) (fun a' => Upd a.data a'.data (fun k => k < R * C)
      (fun k => (a.data[k]?).getD 0 - (b.data[k]?).getD 0)) := by
  unfold Mat.subInplaceA
  refine Holds.bind (fillDown (fun k => (a.data[k]?).getD 0 - (b.data[k]?).getD 0) _ ?_)
    (fun d hd => Holds.pure hd)
  intro k d hk hl hd
  simp only [rd_eq (hd.trans (getElem?_flat ha hk)), rd_eq (getElem?_flat hb hk), res_bind_ok]
  exact wr_eq (by rw [hl]; exact lt_of_lt_of_le hk ha) _

end Elementwise

/-! ## Special square matrices -/

theorem makeComatrix_upd {m : Mat N N T} (hm : m.Valid) (d o : T) :
    Holds (m.makeComatrix d o) (fun m' => Upd m.data m'.data (fun k => k < N * N)
      (fun k => if k / N = k % N then d else o)) := by
  unfold makeComatrix
  refine Holds.bind (forUp_inv (I := fun i s => Upd m.data s (fun k => k < i * N)
    (fun k => if k / N = k % N then d else o)) (Nat.zero_le _) ?_ ?_) (fun d hd => Holds.pure hd)
  · exact Upd.refl _ _ (fun k => by simp)
  · intro i s _ hi hs
    refine (forUp_inv (I := fun j s => Upd m.data s (fun k => k < i * N + j)
      (fun k => if k / N = k % N then d else o)) (Nat.zero_le _) hs ?_).mono ?_
    · intro j s _ hj hs
      rw [wr_eq (by rw [hs.length]; exact lt_of_lt_of_le (idx_lt hi hj) hm)]
      exact Holds.ok (hs.set (by rw [idx_div hj, idx_mod hj]) (fun k => by omega))
    · intro s hs
      exact hs.congr (fun k => by rw [show (i + 1) * N = i * N + N by ring])

theorem setDiagonalToScalar_upd {m : Mat N N T} (hm : m.Valid) (v : T) :
    Holds (m.setDiagonalToScalar v) (fun m' => Upd m.data m'.data (fun k => k < N * N ∧ k / N = k % N)
      (fun _ => v)) := by
  unfold setDiagonalToScalar
  refine Holds.bind ((forUp_inv (I := fun i s => Upd m.data s (fun k => k < N * N ∧ k / N = k % N ∧ k / N < i)
    (fun _ => v)) (Nat.zero_le _) ?_ ?_).mono (Q := fun s => Upd m.data s (fun k => k < N * N ∧ k / N = k % N)
    (fun _ => v)) ?_) (fun d hd => Holds.pure hd)
  · exact Upd.refl _ _ (fun k => by simp)
  · intro i s _ hi hs
    rw [wr_eq (by rw [hs.length]; exact lt_of_lt_of_le (idx_lt hi hi) hm)]
    refine Holds.ok (hs.set rfl (fun k => ?_))
    have key : k = i * N + i ↔ k % N = i ∧ k / N = i := by
      constructor
      · rintro rfl; exact ⟨idx_mod hi, idx_div hi⟩
      · rintro ⟨h1, h2⟩
        have := idx_eta (C := N) k
        rw [h1, h2] at this; exact this.symm
    have hlt := idx_lt hi hi
    constructor
    · rintro ⟨h1, h2, h3⟩
      rcases Nat.lt_succ_iff_lt_or_eq.mp h3 with h4 | h4
      · exact Or.inl ⟨h1, h2, h4⟩
      · exact Or.inr (key.mpr ⟨by omega, h4⟩)
    · rintro (⟨h1, h2, h3⟩ | h)
      · exact ⟨h1, h2, by omega⟩
      · obtain ⟨h1, h2⟩ := key.mp h
        exact ⟨by omega, by omega, by omega⟩
  · intro s hs
    exact hs.congr (fun k => ⟨fun h => ⟨h.1, h.2, idx_row_lt h.1⟩, fun h => ⟨h.1, h.2.1⟩⟩)

/-! ## The kernels on represented matrices -/

theorem upd_reps {c : Mat R U T} {c' : Mat R U T} {v : Nat → T}
    (h : Upd c.data c'.data (fun k => k < R * U) v) (hc : c.Valid) {A : Matrix (Fin R) (Fin U) T}
    (hA : ∀ (i : Fin R) (j : Fin U), v (i * U + j) = A i j) : c'.Reps A ∧ c.SameTail c' := by
  obtain ⟨h1, h2⟩ := h.reps (fun k => Iff.rfl) hc
  exact ⟨fun i j => by have := h1 i j; dsimp only at this; rwa [hA] at this, h2⟩

theorem upd_repsV {c : Mat R 1 T} {c' : Mat R 1 T} {v : Nat → T}
    (h : Upd c.data c'.data (fun k => k < R) v) (hc : c.Valid) {x : Fin R → T}
    (hx : ∀ (i : Fin R), v i = x i) : c'.RepsV x ∧ c.SameTail c' := by
  obtain ⟨h1, h2⟩ := upd_reps (c := c) (c' := c') (A := fun i _ => x i)
    (h.congr (fun k => by simp)) hc (fun i j => by
      have : (j : Nat) = 0 := by omega
      simpa [this] using hx i)
  exact ⟨Mat.repsV_iff.mpr h1, h2⟩

theorem flat_reps [Zero T] {a : Mat R C T} {A} (ha : a.Reps A) (i : Fin R) (j : Fin C) :
    (a.data[(i : Nat) * C + j]?).getD 0 = A i j := by rw [ha i j]; rfl

theorem copyTo_reps {a b : Mat R C T} {A} (hpos : 0 < R * C) (ha : a.Reps A) (hb : b.Valid) :
    Holds (a.copyTo b) (fun b' => b'.Reps A ∧ b.SameTail b') := by
  refine (copyTo_spec hpos ha.valid hb).mono fun b' ⟨h1, h2⟩ => ⟨fun i j => ?_, h2⟩
  rw [h1 _ (idx_lt i.2 j.2)]; exact ha i j

theorem copyTo_repsV {a b : Mat N 1 T} {x} (hpos : 0 < N) (ha : a.RepsV x) (hb : b.Valid) :
    Holds (a.copyTo b) (fun b' => b'.RepsV x ∧ b.SameTail b') :=
  (copyTo_reps (by omega) (Mat.repsV_iff.mp ha) hb).mono fun _ ⟨h1, h2⟩ => ⟨Mat.repsV_iff.mpr h1, h2⟩

section Products
variable [Zero T] [Add T] [Mul T]

theorem mult_reps {a : Mat R C T} {b : Mat C U T} {c : Mat R U T} {A B} (ha : a.Reps A) (hb : b.Reps B)
    (hc : c.Valid) :
    Holds (a.mult b c) (fun c' => c'.Reps (Spec.mulSeq A B) ∧ c.SameTail c') := by
  refine (mult_upd ha.valid hb.valid hc).mono fun c' h => upd_reps h hc fun i j => ?_
  rw [multVal_idx a b j.2]
  exact (dotFrom_eq_sumTo fun k => by rw [ha.cell, hb.cell]).symm

theorem multBuffered_reps (bld : Build) {a : Mat R C T} {b : Mat C U T} {c : Mat R U T} {aux : List T} {A B}
    (hC : 0 < C) (ha : a.Reps A) (hb : b.Reps B) (hc : c.Valid) (haux : C ≤ aux.length)
    (hass : debugAssert bld (aux.length == C) = .ok ()) :
    Holds (a.multBuffered bld b c aux) (fun r => r.1.Reps (Spec.mulSeq A B) ∧ c.SameTail r.1 ∧
      r.2.length = aux.length) := by
  refine (multBuffered_upd bld hC ha.valid hb.valid hc haux hass).mono fun c' ⟨h, hl⟩ => ?_
  obtain ⟨h1, h2⟩ := upd_reps (A := Spec.mulSeq A B) h hc fun i j => by
    rw [multVal_idx a b j.2]
    exact (dotFrom_eq_sumTo fun k => by rw [ha.cell, hb.cell]).symm
  exact ⟨h1, h2, hl⟩

theorem rowVal_eq {a : Mat R C T} {x : Mat C 1 T} {A X} (hC : 0 < C) (ha : a.Reps A) (hx : x.RepsV X)
    (i : Fin R) : rowVal a x i = Spec.mulVecSeq A X i := by
  unfold Spec.mulVecSeq rowVal
  exact (dotFirst_eq_sumTo hC (f := fun k => a.cell i k * x.cell k 0)
    fun k => by rw [ha.cell, hx.cell]).symm

theorem multRowvector_reps {a : Mat R C T} {x : Mat C 1 T} {c : Mat R 1 T} {A X} (hC : 0 < C)
    (ha : a.Reps A) (hx : x.RepsV X) (hc : c.Valid) :
    Holds (a.multRowvector x c) (fun c' => c'.RepsV (Spec.mulVecSeq A X) ∧ c.SameTail c') :=
  (multRowvector_upd hC ha.valid hx.valid hc).mono fun _ h => upd_repsV h hc (rowVal_eq hC ha hx)

theorem multaddRowvector_reps {a : Mat R C T} {x : Mat C 1 T} {c : Mat R 1 T} {A X Y} (hC : 0 < C)
    (ha : a.Reps A) (hx : x.RepsV X) (hc : c.RepsV Y) :
    Holds (a.multaddRowvector x c)
      (fun c' => c'.RepsV (fun i => Y i + Spec.mulVecSeq A X i) ∧ c.SameTail c') :=
  (multaddRowvector_upd hC ha.valid hx.valid hc.valid).mono fun _ h => upd_repsV h hc.valid
    (fun i => by rw [rowVal_eq hC ha hx, hc.cell])

theorem transbVal_eq {a : Mat R C T} {b : Mat U C T} {A B} (ha : a.Reps A) (hb : b.Reps B)
    (i : Fin R) (j : Fin U) : transbVal a b (i * U + j) = Spec.mulSeq A B.transpose i j := by
  rw [transbVal_idx a b j.2]
  exact (dotFrom_eq_sumTo fun k => by rw [ha.cell, hb.cell]; rfl).symm

theorem multTransb_reps {a : Mat R C T} {b : Mat U C T} {c : Mat R U T} {A B} (ha : a.Reps A)
    (hb : b.Reps B) (hc : c.Valid) :
    Holds (a.multTransb b c) (fun c' => c'.Reps (Spec.mulSeq A B.transpose) ∧ c.SameTail c') :=
  (multTransb_upd ha.valid hb.valid hc).mono fun _ h => upd_reps h hc (transbVal_eq ha hb)

theorem multaddTransb_reps {a : Mat R C T} {b : Mat U C T} {c : Mat R U T} {A B D} (ha : a.Reps A)
    (hb : b.Reps B) (hc : c.Reps D) :
    Holds (a.multaddTransb b c)
      (fun c' => c'.Reps (fun i j => D i j + Spec.mulSeq A B.transpose i j) ∧ c.SameTail c') :=
  (multaddTransb_upd ha.valid hb.valid hc.valid).mono fun _ h => upd_reps h hc.valid
    (fun i j => by rw [transbVal_eq ha hb, flat_reps hc])

theorem multscaleTransb_reps {a : Mat R C T} {b : Mat U C T} {c : Mat R U T} {A B} (scale : T)
    (ha : a.Reps A) (hb : b.Reps B) (hc : c.Valid) :
    Holds (a.multscaleTransb b scale c)
      (fun c' => c'.Reps (fun i j => Spec.mulSeq A B.transpose i j * scale) ∧ c.SameTail c') :=
  (multscaleTransb_upd scale ha.valid hb.valid hc).mono fun _ h => upd_reps h hc
    (fun i j => by rw [transbVal_eq ha hb])

end Products

section Elementwise2
variable [Zero T]

theorem sub_reps [Sub T] {a b c : Mat R C T} {A B} (ha : a.Reps A) (hb : b.Reps B) (hc : c.Valid) :
    Holds (a.sub b c) (fun c' => c'.Reps (fun i j => A i j - B i j) ∧ c.SameTail c') :=
  (sub_upd ha.valid hb.valid hc).mono fun _ h => upd_reps h hc
    (fun i j => by rw [flat_reps ha, flat_reps hb])

theorem addInplaceB_reps [Add T] {a b : Mat R C T} {A B} (ha : a.Reps A) (hb : b.Reps B) :
    Holds (a.addInplaceB b) (fun b' => b'.Reps (fun i j => B i j + A i j) ∧ b.SameTail b') :=
  (addInplaceB_upd ha.valid hb.valid).mono fun _ h => upd_reps h hb.valid
    (fun i j => by rw [flat_reps ha, flat_reps hb])

theorem subInplaceB_reps [Sub T] {a b : Mat R C T} {A B} (ha : a.Reps A) (hb : b.Reps B) :
    Holds (a.subInplaceB b) (fun b' => b'.Reps (fun i j => A i j - B i j) ∧ b.SameTail b') :=
  (subInplaceB_upd ha.valid hb.valid).mono fun _ h => upd_reps h hb.valid
    (fun i j => by rw [flat_reps ha, flat_reps hb])

theorem subInplaceB_repsV [Sub T] {a b : Mat R 1 T} {A B} (ha : a.RepsV A) (hb : b.RepsV B) :
    Holds (a.subInplaceB b) (fun b' => b'.RepsV (fun i => A i - B i) ∧ b.SameTail b') :=
  (subInplaceB_reps (Mat.repsV_iff.mp ha) (Mat.repsV_iff.mp hb)).mono fun _ ⟨h1, h2⟩ =>
    ⟨Mat.repsV_iff.mpr h1, h2⟩

theorem addInplaceA_reps [Add T] {a b : Mat R C T} {A B} (ha : a.Reps A) (hb : b.Reps B) :
    Holds (a.addInplaceA b) (fun a' => a'.Reps (fun i j => A i j + B i j) ∧ a.SameTail a') :=
  (addInplaceA_upd ha.valid hb.valid).mono fun _ h => upd_reps h ha.valid
    (fun i j => by rw [flat_reps ha, flat_reps hb])

theorem subInplaceA_reps [Sub T] {a b : Mat R C T} {A B} (ha : a.Reps A) (hb : b.Reps B) :
    Holds (a.subInplaceA b) (fun a' => a'.Reps (fun i j => A i j - B i j) ∧ a.SameTail a') :=
  (subInplaceA_upd ha.valid hb.valid).mono fun _ h => upd_reps h ha.valid
    (fun i j => by rw [flat_reps ha, flat_reps hb])

end Elementwise2

end Mat
end Minikalman
