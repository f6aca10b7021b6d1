import Verif.Model.ExtendedWorld
import Mathlib.Data.List.Forall2

/-!
# Related element types

Two element types whose operations correspond under a relation, and the relations between matrices, filters, programs and
calls over them, cell by cell.
-/

namespace Minikalman

variable {T T' σ σ' α β : Type} {n l m R C : Nat}

/-- Two computations end alike: both panic, with the same kind of panic, or both succeed with related results. -/
def Res.Related (S : α → β → Prop) : Res α → Res β → Prop
  | .ok a, .ok b => S a b
  | .error e, .error e' => e = e'
  | _, _ => False

/-- The relation `r` between two element types is respected by everything the traits `MatrixDataTypeBase` and
`MatrixDataType` offer and the crate uses. -/
structure ScalarRel (r : T → T' → Prop) [Zero T] [One T] [Add T] [Sub T] [Mul T] [Neg T] [MDT T]
    [Zero T'] [One T'] [Add T'] [Sub T'] [Mul T'] [Neg T'] [MDT T'] : Prop where
  zero : r 0 0
  one : r 1 1
  add : ∀ {a b c d}, r a b → r c d → r (a + c) (b + d)
  sub : ∀ {a b c d}, r a b → r c d → r (a - c) (b - d)
  mul : ∀ {a b c d}, r a b → r c d → r (a * c) (b * d)
  neg : ∀ {a b}, r a b → r (-a) (-b)
  recip : ∀ {a b}, r a b → Res.Related r (MDT.recip a) (MDT.recip b)
  squareRoot : ∀ {a b}, r a b → Res.Related r (MDT.squareRoot a) (MDT.squareRoot b)
  le : ∀ {a b c d}, r a b → r c d → MDT.le a c = MDT.le b d
  isum : ∀ {l l'}, List.Forall₂ r l l' → r (MDT.isum l) (MDT.isum l')

/-- All cells of the two buffers are related (and there are equally many). -/
def Mat.Related (r : T → T' → Prop) (a : Mat R C T) (b : Mat R C T') : Prop := List.Forall₂ r a.data b.data

/-- All buffers of the two filters are related. -/
structure RegularKalman.Related (r : T → T' → Prop) (f : RegularKalman n T) (g : RegularKalman n T') : Prop where
  x : f.x.Related r g.x
  A : f.A.Related r g.A
  P : f.P.Related r g.P
  Q : f.Q.Related r g.Q
  predictedX : f.predictedX.Related r g.predictedX
  tempP : f.tempP.Related r g.tempP

/-- All buffers of the two extended filters are related. -/
structure ExtendedKalman.Related (r : T → T' → Prop) (f : ExtendedKalman n T) (g : ExtendedKalman n T') : Prop where
  x : f.x.Related r g.x
  A : f.A.Related r g.A
  P : f.P.Related r g.P
  Q : f.Q.Related r g.Q
  predictedX : f.predictedX.Related r g.predictedX
  tempP : f.tempP.Related r g.tempP

/-- All buffers of the two controls are related. -/
structure Control.Related (r : T → T' → Prop) (c : Control n l T) (d : Control n l T') : Prop where
  B : c.B.Related r d.B
  u : c.u.Related r d.u
  Q : c.Q.Related r d.Q
  tempBQ : c.tempBQ.Related r d.tempBQ

/-- All buffers of the two observations are related. -/
structure RegularObservation.Related (r : T → T' → Prop) (o : RegularObservation n m T) (p : RegularObservation n m T') :
    Prop where
  H : o.H.Related r p.H
  z : o.z.Related r p.z
  R : o.R.Related r p.R
  y : o.y.Related r p.y
  S : o.S.Related r p.S
  K : o.K.Related r p.K
  tempSInv : o.tempSInv.Related r p.tempSInv
  tempHP : o.tempHP.Related r p.tempHP
  tempPHt : o.tempPHt.Related r p.tempPHt
  tempKHP : o.tempKHP.Related r p.tempKHP

/-- All buffers of the two extended observations are related. -/
structure ExtendedObservation.Related (r : T → T' → Prop) (o : ExtendedObservation n m T) (p : ExtendedObservation n m T') :
    Prop where
  H : o.H.Related r p.H
  z : o.z.Related r p.z
  R : o.R.Related r p.R
  y : o.y.Related r p.y
  S : o.S.Related r p.S
  K : o.K.Related r p.K
  tempSInv : o.tempSInv.Related r p.tempSInv
  tempHP : o.tempHP.Related r p.tempHP
  tempPHt : o.tempPHt.Related r p.tempPHt
  tempKHP : o.tempKHP.Related r p.tempKHP

/-- Two controls of the same size with related buffers. -/
inductive CtlRelated (r : T → T' → Prop) : ((l : Nat) × Control n l T) → ((l : Nat) × Control n l T') → Prop
  | mk {l : Nat} {c : Control n l T} {d : Control n l T'} (h : c.Related r d) : CtlRelated r ⟨l, c⟩ ⟨l, d⟩

/-- Two observations of the same size with related buffers. -/
inductive ObsRelated (r : T → T' → Prop) :
    ((m : Nat) × RegularObservation n m T) → ((m : Nat) × RegularObservation n m T') → Prop
  | mk {m : Nat} {o : RegularObservation n m T} {p : RegularObservation n m T'} (h : o.Related r p) :
    ObsRelated r ⟨m, o⟩ ⟨m, p⟩

/-- Two extended observations of the same size with related buffers. -/
inductive XObsRelated (r : T → T' → Prop) :
    ((m : Nat) × ExtendedObservation n m T) → ((m : Nat) × ExtendedObservation n m T') → Prop
  | mk {m : Nat} {o : ExtendedObservation n m T} {p : ExtendedObservation n m T'} (h : o.Related r p) :
    XObsRelated r ⟨m, o⟩ ⟨m, p⟩

/-- The two programs hold related filters, controls and observations. -/
structure World.Related (r : T → T' → Prop) (w : World n T) (w' : World n T') : Prop where
  kf : w.kf.Related r w'.kf
  ctl : List.Forall₂ (CtlRelated r) w.ctl w'.ctl
  obs : List.Forall₂ (ObsRelated r) w.obs w'.obs

/-- The same call with related data. -/
inductive Op.Related (r : T → T' → Prop) : Op T → Op T' → Prop
  | predict : Op.Related r .predict .predict
  | predictTuned {a b} (h : r a b) : Op.Related r (.predictTuned a) (.predictTuned b)
  | control (i) : Op.Related r (.control i) (.control i)
  | correct (i) : Op.Related r (.correct i) (.correct i)
  | setX {v w} (h : List.Forall₂ r v w) : Op.Related r (.setX v) (.setX w)
  | setA {v w} (h : List.Forall₂ r v w) : Op.Related r (.setA v) (.setA w)
  | setP {v w} (h : List.Forall₂ r v w) : Op.Related r (.setP v) (.setP w)
  | setQ {v w} (h : List.Forall₂ r v w) : Op.Related r (.setQ v) (.setQ w)
  | setU (i) {v w} (h : List.Forall₂ r v w) : Op.Related r (.setU i v) (.setU i w)
  | setB (i) {v w} (h : List.Forall₂ r v w) : Op.Related r (.setB i v) (.setB i w)
  | setQc (i) {v w} (h : List.Forall₂ r v w) : Op.Related r (.setQc i v) (.setQc i w)
  | setZ (i) {v w} (h : List.Forall₂ r v w) : Op.Related r (.setZ i v) (.setZ i w)
  | setH (i) {v w} (h : List.Forall₂ r v w) : Op.Related r (.setH i v) (.setH i w)
  | setR (i) {v w} (h : List.Forall₂ r v w) : Op.Related r (.setR i v) (.setR i w)

/-- The same assignment of related data. -/
inductive Assign.Related (r : T → T' → Prop) : Assign T → Assign T' → Prop
  | x {v w} (h : List.Forall₂ r v w) : Assign.Related r (.x v) (.x w)
  | A {v w} (h : List.Forall₂ r v w) : Assign.Related r (.A v) (.A w)
  | P {v w} (h : List.Forall₂ r v w) : Assign.Related r (.P v) (.P w)
  | Q {v w} (h : List.Forall₂ r v w) : Assign.Related r (.Q v) (.Q w)
  | z (i) {v w} (h : List.Forall₂ r v w) : Assign.Related r (.z i v) (.z i w)
  | H (i) {v w} (h : List.Forall₂ r v w) : Assign.Related r (.H i v) (.H i w)
  | R (i) {v w} (h : List.Forall₂ r v w) : Assign.Related r (.R i v) (.R i w)

/-- Two closures that map related captured states, inputs and old outputs to related captured states and outputs. -/
def ClosureRelated (e : σ → σ' → Prop) (r : T → T' → Prop) (g : σ → Mat n 1 T → Mat m 1 T → Res (σ × Mat m 1 T))
    (g' : σ' → Mat n 1 T' → Mat m 1 T' → Res (σ' × Mat m 1 T')) : Prop :=
  ∀ st st' x x' y y', e st st' → x.Related r x' → y.Related r y' →
    Res.Related (fun a b => e a.1 b.1 ∧ a.2.Related r b.2) (g st x y) (g' st' x' y')

/-- The two programs hold related extended filters, observations and captured states. -/
structure XWorld.Related (e : σ → σ' → Prop) (r : T → T' → Prop) (w : XWorld n T σ) (w' : XWorld n T' σ') : Prop where
  kf : w.kf.Related r w'.kf
  obs : List.Forall₂ (XObsRelated r) w.obs w'.obs
  env : e w.env w'.env

/-- The same call with related data and closures. -/
inductive XOp.Related (e : σ → σ' → Prop) (r : T → T' → Prop) : XOp n T σ → XOp n T' σ' → Prop
  | predict {g g'} (h : ClosureRelated e r g g') : XOp.Related e r (.predict g) (.predict g')
  | predictTuned {a b g g'} (ha : r a b) (h : ClosureRelated e r g g') :
    XOp.Related e r (.predictTuned a g) (.predictTuned b g')
  | correct (i) {h : (m : Nat) → σ → Mat n 1 T → Mat m 1 T → Res (σ × Mat m 1 T)}
    {h' : (m : Nat) → σ' → Mat n 1 T' → Mat m 1 T' → Res (σ' × Mat m 1 T')} (hh : ∀ m, ClosureRelated e r (h m) (h' m)) :
    XOp.Related e r (.correct i h) (.correct i h')
  | assign {a b} (h : Assign.Related r a b) : XOp.Related e r (.assign a) (.assign b)

/-! ## Replacing every number of a program -/

/-- `g` applied to every cell of the buffer. -/
def Mat.mapCells (g : T → T') (a : Mat R C T) : Mat R C T' := ⟨a.data.map g⟩

/-- `g` applied to every cell of the filter. -/
def RegularKalman.mapCells (g : T → T') (f : RegularKalman n T) : RegularKalman n T' :=
  ⟨f.x.mapCells g, f.A.mapCells g, f.P.mapCells g, f.Q.mapCells g, f.predictedX.mapCells g, f.tempP.mapCells g⟩

/-- `g` applied to every cell of the control. -/
def Control.mapCells (g : T → T') (c : Control n l T) : Control n l T' :=
  ⟨c.B.mapCells g, c.u.mapCells g, c.Q.mapCells g, c.tempBQ.mapCells g⟩

/-- `g` applied to every cell of the observation. -/
def RegularObservation.mapCells (g : T → T') (o : RegularObservation n m T) : RegularObservation n m T' :=
  ⟨o.H.mapCells g, o.z.mapCells g, o.R.mapCells g, o.y.mapCells g, o.S.mapCells g, o.K.mapCells g, o.tempSInv.mapCells g,
    o.tempHP.mapCells g, o.tempPHt.mapCells g, o.tempKHP.mapCells g⟩

/-- `g` applied to every number the program holds. -/
def World.mapCells (g : T → T') (w : World n T) : World n T' :=
  ⟨w.kf.mapCells g, w.ctl.map fun c => ⟨c.1, c.2.mapCells g⟩, w.obs.map fun o => ⟨o.1, o.2.mapCells g⟩⟩

/-- `g` applied to the data of a call. -/
def Op.mapCells (g : T → T') : Op T → Op T'
  | .predict => .predict
  | .predictTuned lambda => .predictTuned (g lambda)
  | .control i => .control i
  | .correct i => .correct i
  | .setX v => .setX (v.map g)
  | .setA v => .setA (v.map g)
  | .setP v => .setP (v.map g)
  | .setQ v => .setQ (v.map g)
  | .setU i v => .setU i (v.map g)
  | .setB i v => .setB i (v.map g)
  | .setQc i v => .setQc i (v.map g)
  | .setZ i v => .setZ i (v.map g)
  | .setH i v => .setH i (v.map g)
  | .setR i v => .setR i (v.map g)

end Minikalman
