import Verif.Model.TriangulateFace
import Verif.Model.Iso
import Verif.Model.Check
/-
`Triangulateable`, /repo/src/mesh/mesh/triangulate.rs: the index and vertex buffers of a mesh.

`tri f t` is `triangulate_face(f, self, tri, algorithm, meta)`, see Model/TriangulateFace.lean. `setN` is `set_normal` of the payload.
The hash map `id_map` is an association list in which later entries come first. The normal of a face without area is NaN in the source, here it is zero; `meta` is left out.
-/
namespace Verif.R3
open Geom
variable {VP EP FP : Type}

/-- the loop of `triangulate`, lines 23-28 -/
def triangulateFaces (tri : Nat → Triangulation → Outcome Triangulation) : List Nat → List Nat → Outcome (List Nat)
  | [], idx => .done idx
  | f :: fs, idx => do
    let t ← tri f (.new idx)
    triangulateFaces tri fs t.indices

/-- triangulate, lines 14-32 -/
def triangulateMesh (tri : Nat → Triangulation → Outcome Triangulation) (m : Mesh VP EP FP) (dflt : VP) : Outcome (List Nat × List VP) := do
  let idx ← triangulateFaces tri m.faceIds []
  let r ← Outcome.ofOption (m.denseVertices dflt idx)
  .done (r.2, r.1)

/-- the body of the loop of `triangulate_and_generate_flat_normals_post`, lines 49-60 -/
noncomputable def flatFace (tri : Nat → Triangulation → Outcome Triangulation) (dbg : Bool) (eps : ℝ) (pos : VP → V3) (setN : VP → V3 → VP) (m : Mesh VP EP FP) (f : Nat) (b : List Nat × List VP) : Outcome (List Nat × List VP) := do
  let n ← Outcome.ofOption (faceNormal dbg eps pos m f)
  let vs ← Outcome.ofOption (m.faceVertices f)
  let xs ← Outcome.ofOption (vs.mapM m.vertex)
  let ps := b.2 ++ xs.map fun x => setN x.payload (normalize n)
  let t ← tri f (.new b.1)
  let t ← Outcome.ofOption (t.mapIndices fun i => (vs.zip (List.range' b.2.length vs.length)).reverse.lookup i)
  .done (t.indices, ps)

/-- the loop, lines 48-61 -/
noncomputable def flatFaces (tri : Nat → Triangulation → Outcome Triangulation) (dbg : Bool) (eps : ℝ) (pos : VP → V3) (setN : VP → V3 → VP) (m : Mesh VP EP FP) : List Nat → List Nat × List VP → Outcome (List Nat × List VP)
  | [], b => .done b
  | f :: fs, b => do
    let b ← flatFace tri dbg eps pos setN m f b
    flatFaces tri dbg eps pos setN m fs b

/-- triangulate_and_generate_flat_normals_post, lines 36-64 -/
noncomputable def triangulateFlat (tri : Nat → Triangulation → Outcome Triangulation) (dbg : Bool) (eps : ℝ) (pos : VP → V3) (setN : VP → V3 → VP) (m : Mesh VP EP FP) : Outcome (List Nat × List VP) :=
  flatFaces tri dbg eps pos setN m m.faceIds ([], [])

end Verif.R3
