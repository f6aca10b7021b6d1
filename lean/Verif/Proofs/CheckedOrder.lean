import Verif.Proofs.CheckedSimExtended
import Verif.Proofs.CheckedTotal

/-!
# Two element types with the same numbers, one of which panics more often
-/

set_option linter.unusedSectionVars false

namespace Minikalman
namespace Chk

open Mode Limit

/-- `c` succeeds, or panics for one of the reasons `E`; it panics for the given reason or for one of the reasons `E`. -/
def upTo (E : Panic → Prop) : Mode Unit where
  holds c P := (∃ e, E e ∧ c () = .error e) ∨ ∃ s, c () = .ok (s ()) ∧ P s
  fails c e := (∃ e, E e ∧ c () = .error e) ∨ c () = .error e
  ok h := .inr ⟨_, rfl, h⟩
  bind := by
    rintro α β P Q c f (⟨e, h1, h2⟩ | ⟨s, h1, h2⟩) hf
    · exact .inl ⟨e, h1, by simp only [h2]; rfl⟩
    · have := hf s h2
      simp only [h1, res_bind_ok]
      exact this
  error _ := .inr rfl
  bind_error := by
    rintro α β c f e (⟨e', h1, h2⟩ | h)
    · exact .inl ⟨e', h1, by simp only [h2]; rfl⟩
    · exact .inr (by simp only [h]; rfl)
  bind_fails := by
    rintro α β P c f e (⟨e, h1, h2⟩ | ⟨s, h1, h2⟩) hf
    · exact .inl ⟨e, h1, by simp only [h2]; rfl⟩
    · have := hf s h2
      simp only [h1, res_bind_ok]
      exact this

/-- The same number. -/
def Same {T : Type} (a : Unit → T) (b : T) : Prop := a () = b

variable {T σ : Type} {n l m R C : Nat}

theorem upTo_sim {E : Panic → Prop} {α : Type} {c d : Res α} (h : (∃ e, E e ∧ c = .error e) ∨ c = d) :
    (upTo E).Sim (fun _ => c) d Same := by
  rcases h with ⟨e, h1, h2⟩ | rfl
  · exact ⟨fun _ _ => .inl ⟨e, h1, h2⟩, fun _ _ => .inl ⟨e, h1, h2⟩⟩
  · exact ⟨fun t h => .inr ⟨fun _ => t, h, rfl⟩, fun _ h => .inr h⟩

theorem sim_upTo {E : Panic → Prop} {α : Type} {c d : Res α} {S : (Unit → α) → α → Prop} (hS : ∀ a b, S a b → a () = b)
    (h : (upTo E).Sim (fun _ => c) d S) : (∃ e, E e ∧ c = .error e) ∨ c = d := by
  cases d with
  | error e => exact h.2 e rfl
  | ok t =>
    rcases h.1 t rfl with h | ⟨s, h1, h2⟩
    · exact .inl h
    · exact .inr (by rw [show c = .ok (s ()) from h1, hS _ _ h2])

theorem same_list {α : Type} {r : (Unit → α) → α → Prop} (hr : ∀ a b, r a b → a () = b) {s : Unit → List α} {t : List α}
    (h : ListTends r s t) : s () = t := by
  refine List.ext_getElem? fun i => ?_
  cases hi : t[i]? with
  | none => exact none_of_tends h hi ()
  | some y =>
    obtain ⟨f, h1, h2⟩ := h.2 i y hi
    rw [h1, hr _ _ h2]

theorem list_same {α : Type} {r : (Unit → α) → α → Prop} (hr : ∀ a, r (fun _ => a) a) (t : List α) : ListTends r (fun _ => t) t :=
  ⟨fun _ => rfl, fun _ x hx => ⟨fun _ => x, fun _ => hx, hr x⟩⟩

theorem mat_same (a : Mat R C T) : MatTends Same (fun _ => a) a := list_same (fun _ => rfl) _

theorem same_mat {a : Unit → Mat R C T} {b : Mat R C T} (h : MatTends Same a b) : a () = b := by
  have := same_list (fun _ _ h => h) h
  cases ha : a () with
  | mk d => cases b with
    | mk d' => rw [ha] at this; exact congrArg Mat.mk this

theorem kalman_same (f : RegularKalman n T) : FullK Same (fun _ => f) f :=
  ⟨mat_same _, mat_same _, mat_same _, mat_same _, mat_same _, mat_same _⟩

theorem same_kalman {f : Unit → RegularKalman n T} {g : RegularKalman n T} (h : FullK Same f g) : f () = g := by
  obtain ⟨h1, h2, h3, h4, h5, h6⟩ := h
  have k1 := same_mat h1; have k2 := same_mat h2; have k3 := same_mat h3; have k4 := same_mat h4; have k5 := same_mat h5
  have k6 := same_mat h6
  cases hf : f () with
  | mk => cases g with
    | mk => simp only [hf] at k1 k2 k3 k4 k5 k6; subst k1 k2 k3 k4 k5 k6; rfl

theorem obs_same (b : RegularObservation n m T) : FullO Same (fun _ => b) b :=
  ⟨mat_same _, mat_same _, mat_same _, mat_same _, mat_same _, mat_same _, mat_same _, mat_same _, mat_same _, mat_same _⟩

theorem same_obs {f : Unit → RegularObservation n m T} {g : RegularObservation n m T} (h : FullO Same f g) : f () = g := by
  obtain ⟨h1, h2, h3, h4, h5, h6, h7, h8, h9, h10⟩ := h
  have k1 := same_mat h1; have k2 := same_mat h2; have k3 := same_mat h3; have k4 := same_mat h4; have k5 := same_mat h5
  have k6 := same_mat h6; have k7 := same_mat h7; have k8 := same_mat h8; have k9 := same_mat h9; have k10 := same_mat h10
  cases hf : f () with
  | mk => cases g with
    | mk => simp only [hf] at k1 k2 k3 k4 k5 k6 k7 k8 k9 k10; subst k1 k2 k3 k4 k5 k6 k7 k8 k9 k10; rfl

theorem ctl_same (c : Control n l T) : FullC Same (fun _ => c) c := ⟨mat_same _, mat_same _, mat_same _, mat_same _⟩

theorem same_ctl {f : Unit → Control n l T} {g : Control n l T} (h : FullC Same f g) : f () = g := by
  obtain ⟨h1, h2, h3, h4⟩ := h
  have k1 := same_mat h1; have k2 := same_mat h2; have k3 := same_mat h3; have k4 := same_mat h4
  cases hf : f () with
  | mk => cases g with
    | mk => simp only [hf] at k1 k2 k3 k4; subst k1 k2 k3 k4; rfl

theorem world_same (w : World n T) : FullW Same (fun _ => w) w :=
  ⟨kalman_same _, list_same (fun c => .mk (ctl_same c.2)) _, list_same (fun c => .mk (obs_same c.2)) _⟩

theorem same_world (w : Unit → World n T) (v : World n T) (h : FullW Same w v) : w () = v := by
  obtain ⟨h1, h2, h3⟩ := h
  have k1 := same_kalman h1
  have k2 := same_list (fun a b h => by cases h with | mk h => exact congrArg (Sigma.mk _) (same_ctl h)) h2
  have k3 := same_list (fun a b h => by cases h with | mk h => exact congrArg (Sigma.mk _) (same_obs h)) h3
  cases hf : w () with
  | mk => cases v with
    | mk => simp only [hf] at k1 k2 k3; subst k1 k2 k3; rfl

theorem op_same (op : Op T) : Op.Tends Same (fun _ => op) op := by
  cases op with
  | predict => exact .predict
  | predictTuned a => exact .predictTuned rfl
  | control i => exact .control i
  | correct i => exact .correct i
  | setX v => exact .setX (list_same (fun _ => rfl) v)
  | setA v => exact .setA (list_same (fun _ => rfl) v)
  | setP v => exact .setP (list_same (fun _ => rfl) v)
  | setQ v => exact .setQ (list_same (fun _ => rfl) v)
  | setU i v => exact .setU i (list_same (fun _ => rfl) v)
  | setB i v => exact .setB i (list_same (fun _ => rfl) v)
  | setQc i v => exact .setQc i (list_same (fun _ => rfl) v)
  | setZ i v => exact .setZ i (list_same (fun _ => rfl) v)
  | setH i v => exact .setH i (list_same (fun _ => rfl) v)
  | setR i v => exact .setR i (list_same (fun _ => rfl) v)

theorem xworld_same (w : XWorld n T σ) : FullXW Same Same (fun _ => w) w :=
  ⟨kalman_same _, list_same (fun _ => .mk (obs_same _)) _, rfl⟩

theorem same_xworld (w : Unit → XWorld n T σ) (v : XWorld n T σ) (h : FullXW Same Same w v) : w () = v := by
  obtain ⟨h1, h2, h3⟩ := h
  have k1 := same_kalman h1
  have k2 := same_list (fun a b h => by
    cases h with
    | @mk m o p h =>
      have e : (o ()).asRegular = p.asRegular := same_obs h
      have : o () = p := by
        cases ho : o () with
        | mk => cases p with
          | mk => rw [ho] at e; cases e; rfl
      exact congrArg (Sigma.mk _) this) h2
  have k3 : (w ()).env = v.env := h3
  cases hf : w () with
  | mk kf obs env =>
    cases v with
    | mk kf' obs' env' =>
      simp only [hf] at k1 k2 k3
      have : kf = kf' := by cases kf; cases kf'; cases k1; rfl
      subst this k2 k3; rfl

theorem closure_same {E : Panic → Prop} (g : σ → Mat n 1 T → Mat m 1 T → Res (σ × Mat m 1 T)) :
    ClosureSim (upTo E) (Same (T := T)) Same (fun _ => g) g := by
  intro st st' x x' out out' h1 h2 h3
  obtain rfl : st () = st' := h1
  obtain rfl := same_mat h2
  obtain rfl := same_mat h3
  exact ⟨fun t ht => .inr ⟨fun _ => t, ht, rfl, mat_same _⟩, fun e he => .inr he⟩

theorem xop_same {E : Panic → Prop} (op : XOp n T σ) : XOpSim (upTo E) (Same (T := T)) Same (fun _ => op) op := by
  cases op with
  | predict g => exact .predict (closure_same g)
  | predictTuned a g => exact .predictTuned rfl (closure_same g)
  | correct i g => exact .correct i fun m => closure_same (g m)
  | assign a =>
    cases a with
    | x v => exact .assign (.x (list_same (fun _ => rfl) v))
    | A v => exact .assign (.A (list_same (fun _ => rfl) v))
    | P v => exact .assign (.P (list_same (fun _ => rfl) v))
    | Q v => exact .assign (.Q (list_same (fun _ => rfl) v))
    | z i v => exact .assign (.z i (list_same (fun _ => rfl) v))
    | H i v => exact .assign (.H i (list_same (fun _ => rfl) v))
    | R i v => exact .assign (.R i (list_same (fun _ => rfl) v))

/-- Related single operations. -/
theorem upTo_ops {E : Panic → Prop} {o o' : Ops T} (hz : o.zero = o'.zero) (h1 : o.one = o'.one) (hs : o.sumStart = o'.sumStart)
    (add : ∀ a b, (∃ e, E e ∧ o.add a b = .error e) ∨ o.add a b = o'.add a b)
    (sub : ∀ a b, (∃ e, E e ∧ o.sub a b = .error e) ∨ o.sub a b = o'.sub a b)
    (mul : ∀ a b, (∃ e, E e ∧ o.mul a b = .error e) ∨ o.mul a b = o'.mul a b)
    (neg : ∀ a, (∃ e, E e ∧ o.neg a = .error e) ∨ o.neg a = o'.neg a)
    (recip : ∀ a, (∃ e, E e ∧ o.recip a = .error e) ∨ o.recip a = o'.recip a)
    (squareRoot : ∀ a, (∃ e, E e ∧ o.squareRoot a = .error e) ∨ o.squareRoot a = o'.squareRoot a)
    (le : ∀ a b, (∃ e, E e ∧ o.le a b = .error e) ∨ o.le a b = o'.le a b) : OpsSim (upTo E) (fun _ => o) o' Same where
  zero := hz
  one := h1
  sumStart := hs
  add := by rintro a b _ _ rfl rfl; exact upTo_sim (add _ _)
  sub := by rintro a b _ _ rfl rfl; exact upTo_sim (sub _ _)
  mul := by rintro a b _ _ rfl rfl; exact upTo_sim (mul _ _)
  neg := by rintro a _ rfl; exact upTo_sim (neg _)
  recip := by rintro a _ rfl; exact upTo_sim (recip _)
  squareRoot := by rintro a _ rfl; exact upTo_sim (squareRoot _)
  le := by
    rintro a b _ _ rfl rfl
    have := upTo_sim (le (a ()) (b ()))
    refine ⟨fun t ht => ?_, this.2⟩
    rcases this.1 t ht with h | ⟨s, h1, h2⟩
    · exact .inl h
    · exact .inr ⟨s, h1, funext fun _ => h2⟩

theorem run_upTo {E : Panic → Prop} {o o' : Ops T} (h : OpsSim (upTo E) (fun _ => o) o' Same) (bld : Build) (w : World n T)
    (ops : List (Op T)) : (∃ e, E e ∧ run o bld w ops = .error e) ∨ run o bld w ops = run o' bld w ops :=
  sim_upTo same_world (run_sim h bld (world_same w) (list_same op_same ops))

theorem xrun_upTo {E : Panic → Prop} {o o' : Ops T} (h : OpsSim (upTo E) (fun _ => o) o' Same) (bld : Build) (w : XWorld n T σ)
    (ops : List (XOp n T σ)) : (∃ e, E e ∧ xrun o bld w ops = .error e) ∨ xrun o bld w ops = xrun o' bld w ops :=
  sim_upTo same_xworld (xrun_sim h bld (xworld_same w) (list_same xop_same ops))

end Chk
end Minikalman
