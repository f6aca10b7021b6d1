import Verif.Proofs.Inv
import Verif.Proofs.Bounds

/-! # Inversion in any arithmetic: the recurrences, literally -/

set_option linter.unusedSectionVars false

namespace Minikalman

variable {T : Type} {n : Nat} [Zero T] [One T] [Add T] [Sub T] [Mul T] [Neg T] [MDT T]

/-- Entry of the inverse of the factor, from the entries above it. -/
def invRec1 (n : Nat) (mat : List T) (M : Nat → Nat → T) (d : T) (i j : Nat) : T :=
  ((if i = j then 1 else 0) + MDT.isum ((List.range' j (i - j)).map fun k => (-cl n mat i k) * M k j)) * d

/-- Entry of the inverse, from the entries below it. -/
def invRec2 (n : Nat) (mat : List T) (s : T) (X : Nat → Nat → T) (d : T) (i j : Nat) : T :=
  (s + MDT.isum ((List.range' (i + 1) (n - (i + 1))).map fun k => (-cl n mat k i) * X k j)) * d

theorem invRec1_congr {mat : List T} {M M' : Nat → Nat → T} {d : T} {i j : Nat} (h : ∀ k, j ≤ k → k < i → M k j = M' k j) :
    invRec1 n mat M d i j = invRec1 n mat M' d i j := by
  unfold invRec1
  congr 3
  apply List.map_congr_left
  intro k hk
  rw [List.mem_range'_1] at hk
  rw [h k hk.1 (by omega)]

theorem invRec2_congr {mat : List T} {s : T} {X X' : Nat → Nat → T} {d : T} {i j : Nat}
    (h : ∀ k, i < k → k < n → X k j = X' k j) : invRec2 n mat s X d i j = invRec2 n mat s X' d i j := by
  unfold invRec2
  congr 3
  apply List.map_congr_left
  intro k hk
  rw [List.mem_range'_1] at hk
  rw [h k (by omega) (by omega)]

theorem val1_rec {mat inv : List T} {d : T} {i j : Nat} :
    val1 n mat inv d i j = invRec1 n mat (fun k j => cl n inv j k) d i j := rfl

theorem val2_rec {mat inv : List T} {d : T} {i j : Nat} :
    val2 n mat inv d i j = invRec2 n mat (cl n inv j i) (fun k j => cl n inv j k) d i j := rfl

theorem inv_any_loops1 {mat inv0 : List T} (hm : n * n ≤ mat.length) (hv : n * n ≤ inv0.length) :
    Part (forUp 0 n (invBody1 n mat) inv0) (fun inv => TailEq n inv0 inv ∧
      ∀ i j, i < n → j ≤ i → ∃ d, MDT.recip (cl n mat i i) = .ok d ∧
        cl n inv j i = invRec1 n mat (fun k j => cl n inv j k) d i j) := by
  refine (part_forUp (I := fun i inv => TailEq n inv0 inv ∧
    ∀ c r, c < i → r ≤ c → ∃ d, MDT.recip (cl n mat c c) = .ok d ∧
        cl n inv r c = invRec1 n mat (fun k j => cl n inv j k) d c r) (Nat.zero_le _)
    ⟨TailEq.refl _, fun _ _ h => by omega⟩ ?_)
  rintro i inv _ hi ⟨ht, hI⟩
  rw [invBody1_eq hm hi]
  refine Part.bind (P := fun d => MDT.recip (cl n mat i i) = .ok d) (fun d hd => hd) fun d hd => ?_
  refine (part_forUp (I := fun j inv => TailEq n inv0 inv ∧
    ∀ c r, (c < i ∨ (c = i ∧ r < j)) → r ≤ c → ∃ d, MDT.recip (cl n mat c c) = .ok d ∧
        cl n inv r c = invRec1 n mat (fun k j => cl n inv j k) d c r) (Nat.zero_le _)
    ⟨ht, fun c r h hr => hI c r (by omega) hr⟩ ?_).mono ?_
  · rintro j inv _ hj ⟨ht, hI⟩
    rw [invStep1 hm (ht.le hv) hi (by omega)]
    refine Part.ok ⟨ht.set (by omega) hi _, fun c r h hr => ?_⟩
    by_cases h4 : c = i ∧ r = j
    · obtain ⟨rfl, rfl⟩ := h4
      refine ⟨d, hd, ?_⟩
      rw [cl_set (ht.le hv) (by omega) hi hi, if_pos ⟨rfl, rfl⟩, val1_rec]
      refine invRec1_congr fun k h1 h2 => ?_
      show cl n inv r k = cl n (inv.set _ _) r k
      rw [cl_set (ht.le hv) (by omega) hi (by omega), if_neg (by omega)]
    · obtain ⟨d', hd', e⟩ := hI c r (by omega) hr
      refine ⟨d', hd', ?_⟩
      rw [cl_set (ht.le hv) (by omega) hi (by omega), if_neg (by omega), e]
      refine invRec1_congr fun k h1 h2 => ?_
      show cl n inv r k = cl n (inv.set _ _) r k
      rw [cl_set (ht.le hv) (by omega) hi (by omega), if_neg (by omega)]
  · rintro inv ⟨ht, hI⟩
    exact ⟨ht, fun c r h hr => hI c r (by omega) hr⟩

theorem inv_any_loops2 {mat inv0 : List T} (hm : n * n ≤ mat.length) (hv : n * n ≤ inv0.length) :
    Part (forDown n (invBody2 n mat) inv0) (fun inv => TailEq n inv0 inv ∧
      ∀ i j, i < n → j ≤ i → cl n inv i j = cl n inv j i ∧ ∃ d, MDT.recip (cl n mat i i) = .ok d ∧
        cl n inv j i = invRec2 n mat (cl n inv0 j i) (fun k j => cl n inv j k) d i j) := by
  refine (part_forDown (I := fun i inv => TailEq n inv0 inv ∧
    (∀ c r, i ≤ c → c < n → r ≤ c → cl n inv c r = cl n inv r c ∧ ∃ d, MDT.recip (cl n mat c c) = .ok d ∧
        cl n inv r c = invRec2 n mat (cl n inv0 r c) (fun k j => cl n inv j k) d c r) ∧
    ∀ c r, c < i → r ≤ c → cl n inv r c = cl n inv0 r c)
    ⟨TailEq.refl _, fun _ _ h => by omega, fun _ _ _ _ => rfl⟩ ?_).mono
      fun inv h => ⟨h.1, fun i j hi hj => h.2.1 i j (by omega) hi hj⟩
  rintro i inv hi ⟨ht, hI, hJ⟩
  rw [invBody2_eq hm hi]
  refine Part.bind (P := fun d => MDT.recip (cl n mat i i) = .ok d) (fun d hd => hd) fun d hd => ?_
  refine (part_forUp (I := fun j inv => TailEq n inv0 inv ∧
    (∀ c r, (i < c ∨ (c = i ∧ r < j)) → c < n → r ≤ c → cl n inv c r = cl n inv r c ∧
      ∃ d, MDT.recip (cl n mat c c) = .ok d ∧
        cl n inv r c = invRec2 n mat (cl n inv0 r c) (fun k j => cl n inv j k) d c r) ∧
    ∀ c r, (c < i ∨ (c = i ∧ j ≤ r)) → r ≤ c → cl n inv r c = cl n inv0 r c) (Nat.zero_le _)
    ⟨ht, fun c r h hc hr => hI c r (by omega) hc hr, fun c r h hr => hJ c r (by omega) hr⟩ ?_).mono ?_
  · rintro j inv _ hj ⟨ht, hI, hJ⟩
    rw [invStep2 hm (ht.le hv) hi (by omega)]
    generalize hw : val2 n mat inv d i j = w
    have hs : ∀ {a b}, b < n → cl n ((inv.set (i * n + j) w).set (j * n + i) w) a b =
        if (a = i ∧ b = j) ∨ (a = j ∧ b = i) then w else cl n inv a b := fun hb => cl_set_pair (ht.le hv) hi (by omega) hb _
    refine Part.ok ⟨(ht.set hi (by omega) _).set (by omega) hi _, fun c r h hc hr => ?_, fun c r h hr => ?_⟩
    · have hcong : ∀ s d, invRec2 n mat s (fun k j' => cl n ((inv.set (i * n + j) w).set (j * n + i) w) j' k) d c r =
          invRec2 n mat s (fun k j => cl n inv j k) d c r := fun s d => invRec2_congr fun k h1 h2 => by
        show cl n _ r k = cl n inv r k
        rw [hs (by omega), if_neg (by omega)]
      by_cases h4 : c = i ∧ r = j
      · obtain ⟨rfl, rfl⟩ := h4
        rw [hs (by omega), hs (by omega), if_pos (by omega), if_pos (by omega)]
        refine ⟨rfl, d, hd, ?_⟩
        rw [hcong, ← hw, val2_rec, hJ c r (by omega) hr]
      · rw [hs (by omega), hs (by omega), if_neg (by omega), if_neg (by omega)]
        obtain ⟨e, d', hd', e'⟩ := hI c r (by omega) hc hr
        exact ⟨e, d', hd', by rw [hcong]; exact e'⟩
    · rw [hs (by omega), if_neg (by omega)]
      exact hJ c r (by omega) hr
  · rintro inv ⟨ht, hI, hJ⟩
    exact ⟨ht, fun c r h hc hr => hI c r (by omega) hc hr, fun c r h hr => hJ c r (by omega) hr⟩

/-- The inverse of the factor `M` and the inverse, as computed. -/
theorem inv_any {m inverse inv : Mat n n T} (hn : 0 < n) (hm : m.Valid) (hv : inverse.Valid)
    (h : m.invertLCholesky inverse = .ok inv) :
    TailEq n inverse.data inv.data ∧ (∀ i j, i < n → j < n → cl n inv.data i j = cl n inv.data j i) ∧
    ∃ (M : Nat → Nat → T) (d : Nat → T), (∀ i, i < n → MDT.recip (cl n m.data i i) = .ok (d i)) ∧
      (∀ i j, i < n → j ≤ i → M i j = invRec1 n m.data M (d i) i j) ∧
      ∀ i j, i < n → j ≤ i → cl n inv.data i j = invRec2 n m.data (M i j) (fun k j => cl n inv.data k j) (d i) i j := by
  have hp : Part (m.invertLCholesky inverse) (fun inv => TailEq n inverse.data inv.data ∧
      ∃ t : List T, (∀ i j, i < n → j ≤ i → ∃ d, MDT.recip (cl n m.data i i) = .ok d ∧
        cl n t j i = invRec1 n m.data (fun k j => cl n t j k) d i j) ∧
      ∀ i j, i < n → j ≤ i → cl n inv.data i j = cl n inv.data j i ∧ ∃ d, MDT.recip (cl n m.data i i) = .ok d ∧
        cl n inv.data j i = invRec2 n m.data (cl n t j i) (fun k j => cl n inv.data j k) d i j) := by
    rw [invert_unfold _ _ hn]
    refine (inv_any_loops1 hm hv).bind fun t ht => (inv_any_loops2 hm (ht.1.le hv)).bind fun r hr => Part.pure ?_
    exact ⟨⟨hr.1.1.trans ht.1.1, fun k hk => (hr.1.2 k hk).trans (ht.1.2 k hk)⟩, t, ht.2, hr.2⟩
  obtain ⟨h1, t, h2, h3⟩ := hp _ h
  have hsym : ∀ i j, i < n → j < n → cl n inv.data i j = cl n inv.data j i := by
    intro i j hi hj
    rcases le_total j i with hij | hij
    · exact (h3 i j hi hij).1
    · exact (h3 j i hj hij).1.symm
  have hd : ∀ i, i < n → ∃ d, MDT.recip (cl n m.data i i) = .ok d := fun i hi => by
    obtain ⟨d, hd, _⟩ := h2 i i hi le_rfl
    exact ⟨d, hd⟩
  refine ⟨h1, hsym, fun i j => cl n t j i, fun i => if hi : i < n then (hd i hi).choose else 0, fun i hi => ?_,
    fun i j hi hj => ?_, fun i j hi hj => ?_⟩
  · simp only [dif_pos hi]; exact (hd i hi).choose_spec
  · obtain ⟨d, e1, e2⟩ := h2 i j hi hj
    have : d = (hd i hi).choose := Except.ok.inj (e1.symm.trans (hd i hi).choose_spec)
    simp only [dif_pos hi, ← this]
    exact e2
  · obtain ⟨e0, d, e1, e2⟩ := h3 i j hi hj
    have : d = (hd i hi).choose := Except.ok.inj (e1.symm.trans (hd i hi).choose_spec)
    simp only [dif_pos hi, ← this]
    rw [e0, e2]
    exact invRec2_congr fun k h4 h5 => hsym _ _ (by omega) h5

end Minikalman
