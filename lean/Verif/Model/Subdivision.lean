import Verif.Model.Mesh
/-
Model of loop subdivision (/repo/src/operations/subdivision.rs) and of the two half-edge splitting functions it uses (/repo/src/halfedge/mesh/builder/semi.rs:123-193).

The interpolator `vp_builder` (/repo/src/mesh/vertex/interpolator.rs) is any function of the mesh and three weighted vertices; `none` means that it panics.
The default payload of edges is a parameter `de`. The product in the triangulation number is not checked for overflow.
-/
namespace Verif.Mesh
variable {VP EP FP : Type}

/-- semi.rs:123-147 -/
def subdivideUnsafe (m : Mesh VP EP FP) (e : Nat) (vp : VP) (ep : EP) : Option (Mesh VP EP FP × Nat) := do
  let old ← m.edge e
  let (m, v) := m.allocV
  let (m, n) := m.allocE
  let m ← m.putE n { next := old.next, twin := old.twin, prev := e, origin := v, face := old.face, payload := ep }
  let m ← m.putV v { edge := some n, payload := vp }
  let m ← m.setPrev old.next n
  let m ← m.setNext e n
  some (m, n)

/-- the search loop of `subdivide_unsafe_try_fixup`, semi.rs:156-169; `some none` is `return None` -/
def fixupLoop (m : Mesh VP EP FP) (e otherOld origin : Nat) : Nat → Nat → Option (Option Nat)
  | 0, _ => none
  | k + 1, x => do
    let h ← m.edge x
    if h.twin = e then some (some x) else do
      let t ← m.edge h.twin
      let n ← m.edge t.next
      if n.origin ≠ origin then some none
      else if n.prev = otherOld then some none
      else fixupLoop m e otherOld origin k t.next

/-- semi.rs:149-193 -/
def subdivideUnsafeTryFixup (m : Mesh VP EP FP) (e : Nat) (ep : EP) : Option (Mesh VP EP FP × Option Nat) := do
  let old ← m.edge e
  let other ← m.edge old.twin
  let first ← m.edge other.next
  match ← fixupLoop m e old.twin first.origin m.fuel other.next with
  | none => some (m, none)
  | some y => do
    let otherNew ← m.edge y
    let (m, n) := m.allocE
    let m ← m.putE n { next := old.next, twin := old.twin, prev := e, origin := otherNew.origin, face := old.face, payload := ep }
    let m ← m.setTwin e y
    let m ← m.setTwin old.twin n
    let m ← m.setPrev old.next n
    let m ← m.setNext e n
    some (m, some n)

/-- how vertices are interpolated, interpolator.rs:9-12 -/
def Interp (VP EP FP : Type) := Mesh VP EP FP → (Nat × Nat) → (Nat × Nat) → (Nat × Nat) → Option VP

/-- the weight of a vertex: whether it is an end of the edge, subdivision.rs:78-100 -/
def endWeight (v origin target : Nat) : Nat := if v = origin ∨ v = target then 1 else 0

/-- splitting one of the three edges of a face, subdivision.rs:68-104; `old` is the edge as it was when the face was visited -/
def splitEdge (m : Mesh VP EP FP) (de : EP) (interp : Interp VP EP FP) (e : Nat) (old : HE EP) (v0 v1 v2 : Nat) : Option (Mesh VP EP FP) := do
  let (m, fixed) ← m.subdivideUnsafeTryFixup e de
  match fixed with
  | some _ => some m
  | none => do
    let target ← m.originId old.next
    let vp ← interp m (endWeight v0 old.origin target, v0) (endWeight v1 old.origin target, v1) (endWeight v2 old.origin target, v2)
    let (m, _) ← m.subdivideUnsafe e vp de
    some m

/-- cutting off one corner, subdivision.rs:112-120 -/
def cutCorner (dbg : Bool) (m : Mesh VP EP FP) (de : EP) (fp : FP) (e : Nat) : Option (Mesh VP EP FP) := do
  let p ← m.prevId e
  let outside ← m.prevId p
  let (m, _, _) ← m.insertEdgeNoCheck e de outside de
  let (m, _) ← m.closeHole dbg e fp false
  some m

/-- one face, subdivision.rs:60-123 -/
def subdivideFace (dbg : Bool) (de : EP) (interp : Interp VP EP FP) (m : Mesh VP EP FP) (f : Nat) : Option (Mesh VP EP FP) := do
  match ← m.faceEdges f with
  | [a, b, c] => do
    let ha ← m.edge a
    let hb ← m.edge b
    let hc ← m.edge c
    let m ← m.splitEdge de interp a ha ha.origin hb.origin hc.origin
    let m ← m.splitEdge de interp b hb ha.origin hb.origin hc.origin
    let m ← m.splitEdge de interp c hc ha.origin hb.origin hc.origin
    let (m, fp) ← m.removeFace dbg f
    let m ← m.cutCorner dbg de fp a
    let m ← m.cutCorner dbg de fp b
    let m ← m.cutCorner dbg de fp c
    let n ← m.nextId a
    let t ← m.twinId n
    let (m, _) ← m.closeHole dbg t fp false
    some m
  | _ => none

def subdivideFaces (dbg : Bool) (de : EP) (interp : Interp VP EP FP) : List Nat → Mesh VP EP FP → Option (Mesh VP EP FP)
  | [], m => some m
  | f :: fs, m => do
    let m ← subdivideFace dbg de interp m f
    subdivideFaces dbg de interp fs m

/-- subdivision.rs:53-126 -/
def loopSubdivision (dbg : Bool) (de : EP) (interp : Interp VP EP FP) (m : Mesh VP EP FP) : Option (Mesh VP EP FP) :=
  subdivideFaces dbg de interp (m.fs.iter.map Prod.fst) m

/-- subdivision.rs:34-36 -/
def triangulationNumber (b c : Nat) : Nat := b * b + b * c + c * c

/-- the loop of `subdivision_frequency`, subdivision.rs:146-153, with fuel -/
def frequencyLoop {M : Type} (step : M → Option M) : Nat → Nat → M → Option M
  | 0, _, _ => none
  | k + 1, b, m =>
    if b ≤ 1 then some m else do
      let m ← step m
      if b % 2 = 0 then frequencyLoop step k (b / 2) m else none

/-- subdivision.rs:131-158 with the constructor of the description, subdivision.rs:15-18 -/
def subdivisionFrequency (dbg : Bool) (de : EP) (interp : Interp VP EP FP) (m : Mesh VP EP FP) (b c : Nat) : Option (Mesh VP EP FP) := do
  if b = 0 ∨ c ≠ 0 ∨ b &&& (b - 1) ≠ 0 then none else do
    let m' ← frequencyLoop (loopSubdivision dbg de interp) b b m
    dassert dbg (m'.fs.len == m.fs.len * triangulationNumber b c)
    some m'

end Verif.Mesh
