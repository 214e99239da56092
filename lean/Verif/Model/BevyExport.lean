import Verif.Model.Export
/-
/repo/src/extensions/bevy/mesh3d.rs:53-155: meshes for Bevy.

Simplifications: exact real numbers instead of `f32`; `pos` and `nrm` read the payload of a vertex. `size` is the size of the vertex index type in bytes. A Bevy mesh is its topology, whether its usage contains
`MAIN_WORLD`, its indices and its attributes; the attributes of different types are all lists of vectors, and that Bevy mesh methods panic after the mesh has been moved to the render world is left out.
The panic of `IndexType::new` when the flat vertex buffer gets too long (triangulate.rs:54) is checked after the loop; the `meta` parameter is left out.
-/
namespace Verif.R3
open Geom
variable {VP EP FP : Type}

inductive BevyTopology
  | triangleList
  | other
deriving DecidableEq

/-- the names of the attributes -/
inductive BevyAttr
  | position
  | normal
  | uv
  | other (k : Nat)
deriving DecidableEq

/-- `BevyIndices` -/
inductive BevyIndices
  | u16 (l : List Nat)
  | u32 (l : List Nat)
deriving DecidableEq

structure BevyMesh where
  topology : BevyTopology
  mainWorld : Bool
  indices : Option BevyIndices
  attributes : List (BevyAttr × List (List ℝ))

/-- bevy_indices, lines 56-68: `as` wraps -/
def bevyIndices (size : Nat) (idx : List Nat) : Option BevyIndices :=
  if size = 4 then some (.u32 (idx.map (· % 2 ^ 32)))
  else if size = 2 ∨ size = 1 then some (.u16 (idx.map (· % 2 ^ 16)))
  else none

/-- `remove_attribute` of Bevy -/
def BevyMesh.remove (b : BevyMesh) (a : BevyAttr) : BevyMesh := { b with attributes := b.attributes.filter fun q => q.1 ≠ a }

/-- `insert_attribute` of Bevy replaces an attribute of the same name -/
def BevyMesh.insert (b : BevyMesh) (a : BevyAttr) (l : List (List ℝ)) : BevyMesh := { b with attributes := (b.remove a).attributes ++ [(a, l)] }

/-- bevy_remove_attributes, lines 70-79 -/
def bevyRemoveAttributes (b : BevyMesh) : BevyMesh :=
  let b := { b with indices := none }
  let toRemove := b.attributes.map Prod.fst
  toRemove.foldl BevyMesh.remove b

/-- `to_array` -/
def toArray (v : V3) : List ℝ := [v 0, v 1, v 2]

/-- lines 106-110: the buffers; `flat` is `generate_flat_normals` -/
noncomputable def bevyBuffers (tri : Nat → Triangulation → Outcome Triangulation) (dbg : Bool) (eps : ℝ) (pos : VP → V3) (setN : VP → V3 → VP) (size : Nat) (m : Mesh VP EP FP) (dflt : VP) (flat : Bool) : Outcome (List Nat × List VP) :=
  if flat then (triangulateFlat tri dbg eps pos setN m).bind fun r => if r.2.length ≤ 2 ^ (8 * size) then .done r else .panic
  else triangulateMesh tri m dflt

/-- bevy_set_ex, lines 93-133 -/
noncomputable def bevySetEx (tri : Nat → Triangulation → Outcome Triangulation) (dbg : Bool) (eps : ℝ) (pos nrm : VP → V3) (setN : VP → V3 → VP) (size : Nat) (m : Mesh VP EP FP) (dflt : VP) (flat : Bool) (b : BevyMesh) : Outcome BevyMesh :=
  if b.topology ≠ .triangleList then .panic
  else if b.mainWorld = false then .panic
  else do
    let b := bevyRemoveAttributes b
    let r ← bevyBuffers tri dbg eps pos setN size m dflt flat
    let is ← Outcome.ofOption (bevyIndices size r.1)
    let b := { b with indices := some is }
    let b := b.insert .position (r.2.map fun vp => toArray (pos vp))
    .done (b.insert .normal (r.2.map fun vp => toArray (nrm vp)))

/-- to_bevy_ex, lines 143-155; to_bevy, lines 136-140, is the same with the algorithm `Auto` and without flat normals -/
noncomputable def toBevyEx (tri : Nat → Triangulation → Outcome Triangulation) (dbg : Bool) (eps : ℝ) (pos nrm : VP → V3) (setN : VP → V3 → VP) (size : Nat) (m : Mesh VP EP FP) (dflt : VP) (flat : Bool) (mainWorld : Bool) : Outcome BevyMesh :=
  bevySetEx tri dbg eps pos nrm setN size m dflt flat ⟨.triangleList, mainWorld, none, []⟩

end Verif.R3
