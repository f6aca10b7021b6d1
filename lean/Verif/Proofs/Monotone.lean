import Verif.Spec.Monotone
import Verif.Proofs.History

/-! # Histories with more and less noise: helper lemmas -/

set_option linter.unusedSectionVars false

namespace Minikalman
namespace Spec

open Matrix

variable {n l m k : Nat}

theorem psd_of_below {P P' : Matrix (Fin k) (Fin k) ℝ} (h : (P' - P).PosSemidef) (hP : P.PosSemidef) :
    P'.PosSemidef := by
  have := h.add hP
  rwa [sub_add_cancel] at this

theorem pd_of_below {P P' : Matrix (Fin k) (Fin k) ℝ} (h : (P' - P).PosSemidef) (hP : P.PosDef) : P'.PosDef := by
  have := Matrix.PosDef.posSemidef_add h hP
  rwa [sub_add_cancel] at this

theorem forall₂_mem_right {α β : Type} {Q : α → β → Prop} {s : List α} {t : List β} (h : List.Forall₂ Q s t) {b : β}
    (hb : b ∈ t) : ∃ a ∈ s, Q a b := by
  induction h with
  | nil => cases hb
  | cons hab _ ih =>
    rcases List.mem_cons.1 hb with rfl | hb
    · exact ⟨_, by simp, hab⟩
    · obtain ⟨a, ha, h⟩ := ih hb
      exact ⟨a, by simp [ha], h⟩

theorem State.Below.psd {s s' : State n ℝ} (h : s.Below s') (hs : s.Psd) : s'.Psd := by
  refine ⟨psd_of_below h.P hs.P, psd_of_below h.Q hs.Q, ?_, ?_⟩
  · intro d hd
    obtain ⟨c, hc, hcd⟩ := forall₂_mem_right h.ctl hd
    have := hs.ctl c hc
    cases hcd with | mk B Q => exact psd_of_below Q this
  · intro d hd
    obtain ⟨c, hc, hcd⟩ := forall₂_mem_right h.obs hd
    have := hs.obs c hc
    cases hcd with | mk B Q => exact pd_of_below Q this

theorem ctlBelow_dims {s t : List ((l : Nat) × Ctl n l ℝ)} (h : List.Forall₂ CtlBelow s t) :
    t.map Sigma.fst = s.map Sigma.fst := by
  induction h with
  | nil => rfl
  | cons hab _ ih => cases hab; simp [ih]

theorem obsBelow_dims {s t : List ((l : Nat) × Obs n l ℝ)} (h : List.Forall₂ ObsBelow s t) :
    t.map Sigma.fst = s.map Sigma.fst := by
  induction h with
  | nil => rfl
  | cons hab _ ih => cases hab; simp [ih]

theorem State.Below.dims {s s' : State n ℝ} (h : s.Below s') :
    s'.ctl.map Sigma.fst = s.ctl.map Sigma.fst ∧ s'.obs.map Sigma.fst = s.obs.map Sigma.fst :=
  ⟨ctlBelow_dims h.ctl, obsBelow_dims h.obs⟩

theorem psdData_below {s s' : State n ℝ} (h : s.Below s') {op op' : Op ℝ}
    (ho : OpBelow n (s.ctl.map Sigma.fst) (s.obs.map Sigma.fst) op op') (hd : s.PsdData op) : s'.PsdData op' := by
  obtain ⟨d1, d2⟩ := h.dims
  cases ho with
  | setP v v' hv => exact psd_of_below hv hd
  | setQ v v' hv => exact psd_of_below hv hd
  | setQc i v v' hv =>
    intro l hl
    rw [d1] at hl
    exact psd_of_below (hv l hl) (hd l hl)
  | setR i v v' hv =>
    intro m hm
    rw [d2] at hm
    exact pd_of_below (hv m hm) (hd m hm)
  | _ => trivial

theorem predPTuned_one (A P Q : Matrix (Fin n) (Fin n) ℝ) : predPTuned 1 A P Q = predP A P Q := by
  simp [predPTuned, predP]

theorem predPTuned_le {A P P' Q Q' : Matrix (Fin n) (Fin n) ℝ} (hP' : P'.PosSemidef) {a b : ℝ} (hb : b ≠ 0)
    (hab : |b| ≤ |a|) (hP : (P' - P).PosSemidef) (hQ : (Q' - Q).PosSemidef) :
    (predPTuned b A P' Q' - predPTuned a A P Q).PosSemidef :=
  psd_sub_trans (predPTuned_mono a hP hQ) (predPTuned_antitone hP' (abs_pos.2 hb) hab)

theorem option_map_some {α β : Type} {o : Option α} {f : α → β} {b : β} (h : o.map f = some b) :
    ∃ a, o = some a ∧ f a = b := by
  cases o with
  | none => cases h
  | some a => exact ⟨a, rfl, Option.some.inj h⟩

theorem step_below {s s' s1 : State n ℝ} (h : s.Below s') (hs : s.Psd) {op op' : Op ℝ}
    (ho : OpBelow n (s.ctl.map Sigma.fst) (s.obs.map Sigma.fst) op op') (hl : op.NonzeroLambda)
    (hl' : op'.NonzeroLambda) (h1 : s.step op = some s1) : ∃ s1', s'.step op' = some s1' ∧ s1.Below s1' := by
  have hs' := h.psd hs
  cases ho with
  | predict =>
    cases h1
    refine ⟨_, rfl, h.A, ?_, h.Q, h.ctl, h.obs⟩
    show (predP s'.A s'.P s'.Q - predP s.A s.P s.Q).PosSemidef
    rw [h.A]
    exact predP_mono h.P h.Q
  | predictTuned a b hab =>
    cases h1
    refine ⟨_, rfl, h.A, ?_, h.Q, h.ctl, h.obs⟩
    show (predPTuned b s'.A s'.P s'.Q - predPTuned a s.A s.P s.Q).PosSemidef
    rw [h.A]
    exact predPTuned_le hs'.P hl' hab h.P h.Q
  | inflated b hb =>
    cases h1
    refine ⟨_, rfl, h.A, ?_, h.Q, h.ctl, h.obs⟩
    show (predPTuned b s'.A s'.P s'.Q - predP s.A s.P s.Q).PosSemidef
    rw [h.A, ← predPTuned_one]
    exact predPTuned_le hs'.P hl' (by rwa [abs_one]) h.P h.Q
  | deflated a ha =>
    cases h1
    refine ⟨_, rfl, h.A, ?_, h.Q, h.ctl, h.obs⟩
    show (predP s'.A s'.P s'.Q - predPTuned a s.A s.P s.Q).PosSemidef
    rw [h.A, ← predPTuned_one]
    exact predPTuned_le hs'.P one_ne_zero (by rwa [abs_one]) h.P h.Q
  | control i =>
    obtain ⟨c, hi, rfl⟩ := option_map_some h1
    obtain ⟨d, hd, hcd⟩ := forall₂_get h.ctl hi
    cases hcd with | @mk l c d hB hQ =>
    refine ⟨{ s' with x := ctlX d.B d.u s'.x, P := ctlP d.B d.Q s'.P }, by simp only [State.step, hd]; rfl, h.A, ?_,
      h.Q, h.ctl, h.obs⟩
    show (ctlP d.B d.Q s'.P - ctlP c.B c.Q s.P).PosSemidef
    rw [hB]
    exact ctlP_mono h.P hQ
  | correct i =>
    obtain ⟨c, hi, rfl⟩ := option_map_some h1
    obtain ⟨d, hd, hcd⟩ := forall₂_get h.obs hi
    have r1 := hs.obs _ (List.mem_of_getElem? hi)
    have r2 := hs'.obs _ (List.mem_of_getElem? hd)
    cases hcd with | @mk m o p hH hR =>
    refine ⟨{ s' with x := corrX p.H s'.P p.R s'.x p.z, P := corrP p.H s'.P p.R }, by simp only [State.step, hd]; rfl,
      h.A, ?_, h.Q, h.ctl, h.obs⟩
    show (corrP p.H s'.P p.R - corrP o.H s.P o.R).PosSemidef
    rw [hH]
    exact corrP_mono (Minikalman.psd_symm hs.P) (Minikalman.psd_symm hs'.P) (pd_symm r1) (pd_symm r2)
      (innovCov_pd hs.P r1) (innovCov_pd hs'.P r2) h.P hR
  | setX v v' =>
    cases h1
    exact ⟨_, rfl, h.A, h.P, h.Q, h.ctl, h.obs⟩
  | setA v v' hv =>
    cases h1
    exact ⟨_, rfl, hv, h.P, h.Q, h.ctl, h.obs⟩
  | setP v v' hv =>
    cases h1
    exact ⟨_, rfl, h.A, hv, h.Q, h.ctl, h.obs⟩
  | setQ v v' hv =>
    cases h1
    exact ⟨_, rfl, h.A, h.P, hv, h.ctl, h.obs⟩
  | setU i v v' =>
    obtain ⟨c, hi, rfl⟩ := option_map_some h1
    obtain ⟨d, hd, hcd⟩ := forall₂_get h.ctl hi
    cases hcd with | @mk l c d hB hQ =>
    exact ⟨{ s' with ctl := s'.ctl.set i ⟨l, { d with u := vecOf v' }⟩ }, by simp only [State.step, hd]; rfl, h.A, h.P,
      h.Q, forall₂_set h.ctl i (.mk hB hQ), h.obs⟩
  | setB i v v' hv =>
    obtain ⟨c, hi, rfl⟩ := option_map_some h1
    have hv := hv _ (by rw [List.getElem?_map, hi]; rfl)
    obtain ⟨d, hd, hcd⟩ := forall₂_get h.ctl hi
    cases hcd with | @mk l c d hB hQ =>
    exact ⟨{ s' with ctl := s'.ctl.set i ⟨l, { d with B := matOf v' }⟩ }, by simp only [State.step, hd]; rfl, h.A, h.P,
      h.Q, forall₂_set h.ctl i (.mk hv hQ), h.obs⟩
  | setQc i v v' hv =>
    obtain ⟨c, hi, rfl⟩ := option_map_some h1
    have hv := hv _ (by rw [List.getElem?_map, hi]; rfl)
    obtain ⟨d, hd, hcd⟩ := forall₂_get h.ctl hi
    cases hcd with | @mk l c d hB hQ =>
    exact ⟨{ s' with ctl := s'.ctl.set i ⟨l, { d with Q := matOf v' }⟩ }, by simp only [State.step, hd]; rfl, h.A, h.P,
      h.Q, forall₂_set h.ctl i (.mk hB hv), h.obs⟩
  | setZ i v v' =>
    obtain ⟨c, hi, rfl⟩ := option_map_some h1
    obtain ⟨d, hd, hcd⟩ := forall₂_get h.obs hi
    cases hcd with | @mk m c d hB hQ =>
    exact ⟨{ s' with obs := s'.obs.set i ⟨m, { d with z := vecOf v' }⟩ }, by simp only [State.step, hd]; rfl, h.A, h.P,
      h.Q, h.ctl, forall₂_set h.obs i (.mk hB hQ)⟩
  | setH i v v' hv =>
    obtain ⟨c, hi, rfl⟩ := option_map_some h1
    have hv := hv _ (by rw [List.getElem?_map, hi]; rfl)
    obtain ⟨d, hd, hcd⟩ := forall₂_get h.obs hi
    cases hcd with | @mk m c d hB hQ =>
    exact ⟨{ s' with obs := s'.obs.set i ⟨m, { d with H := matOf v' }⟩ }, by simp only [State.step, hd]; rfl, h.A, h.P,
      h.Q, h.ctl, forall₂_set h.obs i (.mk hv hQ)⟩
  | setR i v v' hv =>
    obtain ⟨c, hi, rfl⟩ := option_map_some h1
    have hv := hv _ (by rw [List.getElem?_map, hi]; rfl)
    obtain ⟨d, hd, hcd⟩ := forall₂_get h.obs hi
    cases hcd with | @mk m c d hB hQ =>
    exact ⟨{ s' with obs := s'.obs.set i ⟨m, { d with R := matOf v' }⟩ }, by simp only [State.step, hd]; rfl, h.A, h.P,
      h.Q, h.ctl, forall₂_set h.obs i (.mk hB hv)⟩

/-- An additional measurement in the first history. -/
theorem measured_below {s s' s1 : State n ℝ} (h : s.Below s') (hs : s.Psd) {i : Nat}
    (h1 : s.step (.correct i) = some s1) : s1.Below s' := by
  obtain ⟨o, hi, rfl⟩ := option_map_some h1
  have hR := hs.obs _ (List.mem_of_getElem? hi)
  exact ⟨h.A, psd_sub_trans (corrP_le (Minikalman.psd_symm hs.P) (pd_symm hR) (innovCov_pd hs.P hR)) h.P, h.Q, h.ctl,
    h.obs⟩

/-- An additional control input in the second history. -/
theorem controlled_below {s s' s1' : State n ℝ} (h : s.Below s') (hs : s'.Psd) {i : Nat}
    (h1 : s'.step (.control i) = some s1') : s.Below s1' := by
  obtain ⟨c, hi, rfl⟩ := option_map_some h1
  have hQ := hs.ctl _ (List.mem_of_getElem? hi)
  refine ⟨h.A, psd_sub_trans h.P ?_, h.Q, h.ctl, h.obs⟩
  show (ctlP c.2.B c.2.Q s'.P - s'.P).PosSemidef
  rw [ctlP, add_sub_cancel_left]
  exact psd_congr hQ _

theorem run_below {s s' s1 s1' : State n ℝ} (h : s.Below s') (hs : s.Psd) {ops ops' : List (Op ℝ)}
    (ho : OpsBelow n (s.ctl.map Sigma.fst) (s.obs.map Sigma.fst) ops ops') (hl : ∀ op ∈ ops, op.NonzeroLambda)
    (hl' : ∀ op ∈ ops', op.NonzeroLambda) (hd : ∀ op ∈ ops, s.PsdData op) (h1 : s.run ops = some s1)
    (h1' : s'.run ops' = some s1') : s1.Below s1' := by
  generalize hls : s.ctl.map Sigma.fst = ls at ho
  generalize hms : s.obs.map Sigma.fst = ms at ho
  induction ho generalizing s s' with
  | nil => cases h1; cases h1'; exact h
  | @cons op op' ops ops' ho _ ih =>
    subst hls
    subst hms
    simp only [State.run] at h1 h1'
    cases e1 : s.step op with
    | none => rw [e1] at h1; cases h1
    | some t =>
      rw [e1, Option.bind_some] at h1
      obtain ⟨t', e2, hb⟩ := step_below h hs ho (hl _ (by simp)) (hl' _ (by simp)) e1
      rw [e2, Option.bind_some] at h1'
      have hd1 := spec_step_dims e1
      exact ih hb (step_cov_inv psd_closed e1 hs (hd op (by simp)) (psd_regular hs (hl _ (by simp))))
        (fun o ho => hl o (by simp [ho])) (fun o ho => hl' o (by simp [ho]))
        (fun o ho => covData_congr e1 (hd o (by simp [ho]))) h1 h1' hd1.1 hd1.2
  | @measured i ops ops' _ ih =>
    subst hls
    subst hms
    simp only [State.run] at h1
    cases e1 : s.step (.correct i) with
    | none => rw [e1] at h1; cases h1
    | some t =>
      rw [e1, Option.bind_some] at h1
      have hd1 := spec_step_dims e1
      exact ih (measured_below h hs e1)
        (step_cov_inv psd_closed e1 hs (hd _ (by simp)) (psd_regular hs (hl _ (by simp))))
        (fun o ho => hl o (by simp [ho])) hl' (fun o ho => covData_congr e1 (hd o (by simp [ho]))) h1 h1' hd1.1 hd1.2
  | @controlled i ops ops' _ ih =>
    subst hls
    subst hms
    simp only [State.run] at h1'
    cases e1 : s'.step (.control i) with
    | none => rw [e1] at h1'; cases h1'
    | some t =>
      rw [e1, Option.bind_some] at h1'
      exact ih (controlled_below h (h.psd hs) e1) hs hl (fun o ho => hl' o (by simp [ho])) hd h1 h1' rfl rfl

theorem opsBelow_data {s s' : State n ℝ} (h : s.Below s') {ops ops' : List (Op ℝ)}
    (ho : OpsBelow n (s.ctl.map Sigma.fst) (s.obs.map Sigma.fst) ops ops') (hd : ∀ op ∈ ops, s.PsdData op) :
    ∀ op ∈ ops', s'.PsdData op := by
  induction ho with
  | nil => intro op hop; cases hop
  | cons ho _ ih =>
    simp only [List.mem_cons, forall_eq_or_imp] at hd ⊢
    exact ⟨psdData_below h ho hd.1, ih hd.2⟩
  | measured i _ ih => exact ih fun o ho => hd o (by simp [ho])
  | controlled i _ ih =>
    simp only [List.mem_cons, forall_eq_or_imp]
    exact ⟨trivial, ih hd⟩

end Spec
end Minikalman
