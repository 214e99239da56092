import Verif.Spec.Mesh
/-
What the construction operations should do to the combinatorial structure, written as plain
simultaneous updates (no sequencing, no search, no storage).
-/
namespace Verif.Topo

/-- A new isolated vertex `v`. -/
def addVertex (t : Topo) (v : Nat) : Topo :=
  { t with
    V := fun x => x = v ∨ t.V x
    vrep := fun x => if x = v then none else t.vrep x }

/-- Two new vertices `v0`, `v1` joined by a new twin pair `e0 : v0 → v1`, `e1 : v1 → v0`. -/
def addEdge (t : Topo) (v0 v1 e0 e1 : Nat) : Topo :=
  { t with
    E := fun x => x = e0 ∨ x = e1 ∨ t.E x
    V := fun x => x = v0 ∨ x = v1 ∨ t.V x
    nxt := fun x => if x = e0 then e1 else if x = e1 then e0 else t.nxt x
    prv := fun x => if x = e0 then e1 else if x = e1 then e0 else t.prv x
    twn := fun x => if x = e0 then e1 else if x = e1 then e0 else t.twn x
    org := fun x => if x = e0 then v0 else if x = e1 then v1 else t.org x
    fac := fun x => if x = e0 then none else if x = e1 then none else t.fac x
    vrep := fun x => if x = v0 then some e0 else if x = v1 then some e1 else t.vrep x }

/-- A new vertex `v` hanging off the corner `input → output`: the loop becomes
    `input → e1 → e2 → output`. -/
def addDangling (t : Topo) (input output v e1 e2 : Nat) : Topo :=
  { t with
    E := fun x => x = e1 ∨ x = e2 ∨ t.E x
    V := fun x => x = v ∨ t.V x
    nxt := fun x => if x = e1 then e2 else if x = e2 then output else if x = input then e1 else t.nxt x
    prv := fun x => if x = e1 then input else if x = e2 then e1 else if x = output then e2 else t.prv x
    twn := fun x => if x = e1 then e2 else if x = e2 then e1 else t.twn x
    org := fun x => if x = e1 then t.org output else if x = e2 then v else t.org x
    fac := fun x => if x = e1 then none else if x = e2 then none else t.fac x
    vrep := fun x => if x = v then some e2 else t.vrep x }

/-- A new twin pair `e1 : target a → target b`, `e2` back, inserted at the corners
    `a → nxt a` and `b → nxt b`: afterwards `a → e1 → nxt b` and `b → e2 → nxt a`. -/
def insertEdge (t : Topo) (a b e1 e2 : Nat) : Topo :=
  { t with
    E := fun x => x = e1 ∨ x = e2 ∨ t.E x
    nxt := fun x => if x = e1 then t.nxt b else if x = e2 then t.nxt a else
      if x = a then e1 else if x = b then e2 else t.nxt x
    prv := fun x => if x = e1 then a else if x = e2 then b else
      if x = t.nxt b then e1 else if x = t.nxt a then e2 else t.prv x
    twn := fun x => if x = e1 then e2 else if x = e2 then e1 else t.twn x
    org := fun x => if x = e1 then t.org (t.twn a) else if x = e2 then t.org (t.twn b) else t.org x
    fac := fun x => if x = e1 then none else if x = e2 then none else t.fac x }

/-- A new face `f` with representative `e`, consisting of the half-edges satisfying `L`. -/
def addFace (t : Topo) (f e : Nat) (L : Nat → Prop) [DecidablePred L] : Topo :=
  { t with
    F := fun x => x = f ∨ t.F x
    fac := fun x => if L x then some f else t.fac x
    frep := fun x => if x = f then e else t.frep x }

/-- Face `f` disappears; its half-edges become boundary. -/
def dropFace (t : Topo) (f : Nat) : Topo :=
  { t with
    F := fun x => x ≠ f ∧ t.F x
    fac := fun x => if t.fac x = some f then none else t.fac x
    frep := fun x => if x = f then 0 else t.frep x }

/-- The half-edge `e` and its twin exchange their places: each takes over successor, predecessor, origin and
    face of the other, and the neighbours are re-linked accordingly (for an edge that is not dangling). -/
def flip (t : Topo) (e : Nat) : Topo :=
  { t with
    nxt := fun x => if x = e then t.nxt (t.twn e) else if x = t.twn e then t.nxt e else
      if x = t.prv e then t.twn e else if x = t.prv (t.twn e) then e else t.nxt x
    prv := fun x => if x = e then t.prv (t.twn e) else if x = t.twn e then t.prv e else
      if x = t.nxt e then t.twn e else if x = t.nxt (t.twn e) then e else t.prv x
    org := fun x => if x = e then t.org (t.twn e) else if x = t.twn e then t.org e else t.org x
    fac := fun x => if x = e then t.fac (t.twn e) else if x = t.twn e then t.fac e else t.fac x
    vrep := fun x => if x = t.org (t.twn e) then some e else if x = t.org e then some (t.twn e) else t.vrep x
    frep := fun x => if t.fac (t.twn e) = some x then e else if t.fac e = some x then t.twn e else t.frep x }

/-- Renaming of two ids. -/
def swap (a b x : Nat) : Nat := if x = a then b else if x = b then a else x

/-! ### preconditions -/

/-- neither end of the edge is a dangling tip -/
def Stiff (t : Topo) (e : Nat) : Prop := t.nxt e ≠ t.twn e ∧ t.nxt (t.twn e) ≠ e

/-- What the debug assertions of `insert_edge` demand of the two corners: each target lies on the loop
    (walked backwards) through the other half-edge, and the targets are not adjacent. -/
structure Corners (t : Topo) (a b : Nat) : Prop where
  backA : ∃ x, Reach t.prv a x ∧ t.org x = t.org (t.twn b)
  backB : ∃ x, Reach t.prv b x ∧ t.org x = t.org (t.twn a)
  nonadj : ∀ e, t.E e → t.org e = t.org (t.twn a) → t.org (t.twn e) ≠ t.org (t.twn b)

/-- `b` is the only boundary half-edge starting at `v`. -/
structure SoleOut (t : Topo) (v b : Nat) : Prop where
  live : t.E b
  org : t.org b = v
  bnd : t.fac b = none
  uniq : ∀ x, t.E x → t.org x = v → t.fac x = none → x = b

/-- A vertex at which `insert_edge_between` can attach: isolated (`none`) or with exactly one outgoing
    boundary half-edge (`some b`). -/
def Attach (t : Topo) (v : Nat) : Option Nat → Prop
  | none => t.V v ∧ t.vrep v = none
  | some b => SoleOut t v b

/-- The abstract effect of `insert_edge_between`. -/
def between (t : Topo) (v0 v1 : Nat) (o0 o1 : Option Nat) (e0 e1 : Nat) : Topo :=
  match o0, o1 with
  | none, none => t.addEdge v0 v1 e0 e1
  | some b0, none => t.addDangling (t.prv b0) b0 v1 e0 e1
  | none, some b1 => t.addDangling (t.prv b1) b1 v0 e1 e0
  | some b0, some b1 => t.insertEdge (t.prv b0) (t.prv b1) e0 e1

end Verif.Topo
