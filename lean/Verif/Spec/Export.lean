import Verif.Spec.TriangulateFace
import Verif.Spec.Sphere
import Verif.Props.Triangulation
/-
What the exported buffers should show.
-/
namespace Verif.R3
open Geom GeomProps
variable {VP EP FP : Type}

/-- `us` are triangles that tile the face, in terms of the vertices of the mesh -/
def Triangulated (pos : VP → V3) (m : Mesh VP EP FP) (f : Nat) (us : List (Nat × Nat × Nat)) : Prop :=
  ∃ vs ts, m.faceVertices f = some vs ∧ ts.mapM (Triangulation.mapTri fun i => vs[i]?) = some us ∧ Tiles (vs.map (posOf pos m)) ts

/-- the payloads of an index buffer -/
def fetch (ps : List VP) (idx : List Nat) : Option (List VP) := idx.mapM fun i => ps[i]?

/-- The buffers show the faces `fs`, one after the other: each of them is tiled by triangles, the corners of which have the payloads of the vertices. -/
def Shows (pos : VP → V3) (m : Mesh VP EP FP) (fs : List Nat) (idx : List Nat) (ps : List VP) : Prop :=
  ∃ us, List.Forall₂ (Triangulated pos m) fs us ∧ ∃ l, fetch ps idx = some l ∧ (Triangulation.flat us.flatten).mapM m.vpay = some l

/-- the unit normal of a face -/
noncomputable def unitNormal (pos : VP → V3) (m : Mesh VP EP FP) (f : Nat) : V3 := normalize (areaVec (((m.faceVertices f).getD []).map (posOf pos m)))

/-- The buffers show the faces `fs`, one after the other, shaded flat: each of them is tiled by triangles, the corners of which have the payloads of the vertices, except that their normal is that of the face. -/
def ShowsFlat (pos : VP → V3) (setN : VP → V3 → VP) (m : Mesh VP EP FP) (fs : List Nat) (idx : List Nat) (ps : List VP) : Prop :=
  ∃ us, List.Forall₂ (Triangulated pos m) fs us ∧
    ∃ l, fetch ps idx = some l ∧ ((fs.zip us).flatMap fun q => (Triangulation.flat q.2).map fun v => (v, q.1)).mapM (fun q => (m.vpay q.1).map fun x => setN x (unitNormal pos m q.2)) = some l

/-- the triangles of an index buffer -/
def triples {A : Type} : List A → List (A × A × A)
  | a :: b :: c :: l => (a, b, c) :: triples l
  | _ => []

/-- the ends of the half-edges without a face -/
def border (m : Mesh VP EP FP) : List (Nat × Nat) := ((List.range m.hs.data.length).filter fun e => m.hs.has e && (m.topo.fac e).isNone).map fun e => (m.topo.org e, m.topo.org (m.topo.twn e))

/-- The triangles are closed up to the boundary of the mesh: every side of a triangle is the reverse of a side of another triangle or an edge of the boundary. -/
def Closed (m : Mesh VP EP FP) (idx : List Nat) : Prop := Cancels ((triples idx).flatMap triSides ++ border m)

end Verif.R3
