import Verif.Model.Check
/-
Model of the mesh comparisons in /repo/src/mesh/mesh/basics.rs and of `dense_vertices` (/repo/src/halfedge/mesh/basics.rs:136-160).

Comparison closures are predicates on ids (for given meshes the id determines the element).
`HashMap`s are association lists with the newest entry first.
-/
namespace Verif.Mesh
variable {VP EP FP VP' EP' FP' : Type}

/-- the loop of `equal_up_to_rotation` from position `i` on, /repo/src/mesh/mesh/basics.rs:17-24;
`a.iter().cycle().skip(i).take(n)` has the `k`-th element `a[(i + k) % n]` -/
def rotLoop (a b : List Nat) : Nat → Nat → Bool
  | 0, _ => false
  | n + 1, i =>
    if a[i]? ≠ b[0]? then rotLoop a b n (i + 1)
    else if (List.range a.length).map (fun k => a[(i + k) % a.length]?) = b.map some then true
    else rotLoop a b n (i + 1)

/-- /repo/src/mesh/mesh/basics.rs:13-26 -/
def equalUpToRotation (a b : List Nat) : Bool :=
  if a.length ≠ b.length then false else rotLoop a b a.length 0

/-- MeshEquivalenceDifference, /repo/src/mesh/mesh/iso.rs:7-28 -/
inductive Diff
  | equivalent
  | numVertices
  | numEdges
  | numFaces
  | vertices (v w : Nat)
  | edges (e e' : Nat)
  | faces (f f' : Nat)
  | noVertex
  | noEdge (e : Nat)
  | noFace (f : Nat)
deriving DecidableEq

/-- a loop that returns early -/
def scan (test : Nat → Option (Option Diff)) : List Nat → Option (Option Diff)
  | [] => some none
  | x :: xs => do
    match ← test x with
    | some d => some (some d)
    | none => scan test xs

/-- `vertex(v)` of the other mesh; lines 356-361 -/
def trivVertex (m' : Mesh VP EP FP) (cv : Nat → Nat → Bool) (v : Nat) : Option (Option Diff) := do
  let _ ← m'.vertex v
  if !cv v v then some (some (.vertices v v)) else some none

/-- lines 363-372; both `origin` and `target` are looked up in `self` also for the other mesh's edge -/
def trivEdge (m m' : Mesh VP EP FP) (ce : Nat → Nat → Bool) (e : Nat) : Option (Option Diff) := do
  let x' ← m'.edge e
  let x ← m.edge e
  let _ ← m.vertex x.origin
  let _ ← m.vertex x'.origin
  if x.origin ≠ x'.origin then some (some (.edges e e)) else do
  let t ← m.targetVertex e
  let t' ← m.originId x'.next
  let _ ← m.vertex t'
  if t ≠ t' then some (some (.edges e e)) else do
  if !ce e e then some (some (.edges e e)) else some none

/-- `num_edges` of a face with the given representative; /repo/src/halfedge/face/mod.rs:58-62 -/
def numEdgesFrom (m : Mesh VP EP FP) (e : Nat) : Option Nat := do
  let _ ← m.edge e
  m.sizeHint e m.fuel e 1

/-- lines 374-386; also the other mesh's face is walked in `self` -/
def trivFace (m m' : Mesh VP EP FP) (cf : Nat → Nat → Bool) (f : Nat) : Option (Option Diff) := do
  let y' ← m'.face f
  let y ← m.face f
  let n ← m.numEdgesFrom y.edge
  let n' ← m.numEdgesFrom y'.edge
  if n ≠ n' then some (some (.faces f f)) else do
  let l ← m.edgesFace y.edge
  let l' ← m.edgesFace y'.edge
  if !equalUpToRotation l l' then some (some (.faces f f)) else do
  if !cf f f then some (some (.faces f f)) else some none

/-- is_trivially_isomorphic_ex, /repo/src/mesh/mesh/basics.rs:336-390 -/
def isTriviallyIsomorphic (m m' : Mesh VP EP FP) (cv ce cf : Nat → Nat → Bool) : Option Diff :=
  if m.vs.len ≠ m'.vs.len then some .numVertices
  else if m.hs.len ≠ m'.hs.len then some .numEdges
  else if m.fs.len ≠ m'.fs.len then some .numFaces
  else do
    match ← scan (trivVertex m' cv) m.vertexIds with
    | some d => some d
    | none =>
      match ← scan (trivEdge m m' ce) m.edgeIds with
      | some d => some d
      | none =>
        match ← scan (trivFace m m' cf) m.faceIds with
        | some d => some d
        | none => some .equivalent

/-- find_payload_isomorphism, /repo/src/mesh/mesh/basics.rs:421-442; `none` is `Err` -/
def findLoop (same : Nat → Nat → Bool) (ws : List Nat) : List Nat → List (Nat × Nat) → List Nat → Option (List (Nat × Nat))
  | [], res, _ => some res
  | v :: vs, res, used =>
    match ws.find? (same v) with
    | none => none
    | some w =>
      if (res.lookup v).isSome then none
      else if w ∈ used then none
      else findLoop same ws vs ((v, w) :: res) (w :: used)

def findPayloadIsomorphism (m : Mesh VP EP FP) (m' : Mesh VP' EP' FP') (same : Nat → Nat → Bool) : Option (List (Nat × Nat)) :=
  findLoop same m'.vertexIds m.vertexIds [] []

/-! ### is_isomorphic, /repo/src/mesh/mesh/basics.rs:214-301 -/

/-- `face_ids` of an edge; /repo/src/halfedge/edge/basics.rs:59-72 -/
def edgeFaceIds (m : Mesh VP EP FP) (e : Nat) : Option (List Nat) := do
  let x ← m.edge e
  let t ← m.edge x.twin
  some (x.face.toList ++ t.face.toList)

structure IsoState where
  edges : List (Nat × Nat)
  faces : List (Nat × Nat)

/-- lines 276-287: find the other face -/
def matchFace (vs : List Nat) : List (Nat × List Nat) → Option Nat
  | [] => none
  | (g, ws) :: l => if equalUpToRotation vs ws then some g else matchFace vs l

/-- lines 266-292 -/
def isoFaces (m : Mesh VP EP FP) (iso : List (Nat × Nat)) (cf : Nat → Nat → Bool) (others : List (Nat × List Nat)) :
    List Nat → List (Nat × Nat) → Option (List (Nat × Nat) ⊕ Diff)
  | [], fi => some (.inl fi)
  | f :: fs, fi =>
    if (fi.lookup f).isSome then isoFaces m iso cf others fs fi
    else do
      let vs ← m.faceVertices f
      let vs ← vs.mapM (fun v => iso.lookup v)
      match matchFace vs others with
      | none => some (.inr (.noFace f))
      | some g => if !cf f g then some (.inr (.faces f g)) else isoFaces m iso cf others fs ((f, g) :: fi)

/-- lines 244-294 -/
def isoEdges (dbg : Bool) (m : Mesh VP EP FP) (m' : Mesh VP' EP' FP') (iso : List (Nat × Nat)) (ce cf : Nat → Nat → Bool) (w : Nat) :
    List Nat → IsoState → Option (IsoState ⊕ Diff)
  | [], s => some (.inl s)
  | e :: es, s =>
    if (s.edges.lookup e).isSome then isoEdges dbg m m' iso ce cf w es s
    else do
      let t ← m.targetVertex e
      let t' ← iso.lookup t
      match ← m'.sharedEdge dbg w t' with
      | none => some (.inr (.noEdge e))
      | some e' =>
        if !ce e e' then some (.inr (.edges e e'))
        else do
          let gs ← m'.edgeFaceIds e'
          let others ← gs.mapM (fun g => do some (g, ← m'.faceVertices g))
          let fs ← m.edgeFaceIds e
          match ← isoFaces m iso cf others fs s.faces with
          | .inr d => some (.inr d)
          | .inl fi => isoEdges dbg m m' iso ce cf w es ⟨(e, e') :: s.edges, fi⟩

/-- lines 237-295 -/
def isoVertices (dbg : Bool) (m : Mesh VP EP FP) (m' : Mesh VP' EP' FP') (iso : List (Nat × Nat)) (cv ce cf : Nat → Nat → Bool) :
    List Nat → IsoState → Option (IsoState ⊕ Diff)
  | [], s => some (.inl s)
  | v :: vs, s => do
    let w ← iso.lookup v
    let _ ← m'.vertex w
    if !cv v w then some (.inr (.vertices v w))
    else do
      let es ← m.edgesOut dbg v
      match ← isoEdges dbg m m' iso ce cf w es s with
      | .inr d => some (.inr d)
      | .inl s => isoVertices dbg m m' iso cv ce cf vs s

def isIsomorphic (dbg : Bool) (m : Mesh VP EP FP) (m' : Mesh VP' EP' FP') (iso : List (Nat × Nat)) (cv ce cf : Nat → Nat → Bool) : Option Diff :=
  if m.vs.len ≠ m'.vs.len then some .numVertices
  else if m.hs.len ≠ m'.hs.len then some .numEdges
  else if m.fs.len ≠ m'.fs.len then some .numFaces
  else do
    match ← isoVertices dbg m m' iso cv ce cf m.vertexIds ⟨[], []⟩ with
    | .inr d => some d
    | .inl _ => some .equivalent

/-- is_isomorphic_by, /repo/src/mesh/mesh/basics.rs:305-314 -/
def isIsomorphicBy (dbg : Bool) (m : Mesh VP EP FP) (m' : Mesh VP' EP' FP') (same : Nat → Nat → Bool) : Option Diff :=
  match findPayloadIsomorphism m m' same with
  | none => some .noVertex
  | some iso => isIsomorphic dbg m m' iso (fun _ _ => true) (fun _ _ => true) (fun _ _ => true)

/-! ### dense_vertices -/

/-- `Triangulation::new(indices)` (/repo/src/mesh/triangulation.rs:58-63) starts behind the present indices,
`map_indices` (112-116) rewrites from there on -/
def mapIndices (start : Nat) (ids : List (Nat × Nat)) (indices : List Nat) : Option (List Nat) := do
  let l ← (indices.drop start).mapM (fun i => ids.lookup i)
  some (indices.take start ++ l)

/-- write the payloads to their places, /repo/src/halfedge/mesh/basics.rs:145-147; out of range panics -/
def placeAll : List (Nat × VX VP) → List VP → Option (List VP)
  | [], l => some l
  | (i, x) :: vs, l => if i < l.length then placeAll vs (l.set i x.payload) else none

/-- /repo/src/halfedge/mesh/basics.rs:136-160; `dflt` is `VP::allocate()` -/
def denseVertices (m : Mesh VP EP FP) (dflt : VP) (indices : List Nat) : Option (List VP × List Nat) :=
  if m.vs.len = m.vs.capacity then do
    let l ← placeAll m.vs.iter (List.replicate m.vs.capacity dflt)
    some (l, indices)
  else do
    let indices ← mapIndices indices.length (m.vertexIds.zipIdx 0) indices
    some (m.vs.iter.map (fun p => p.2.payload), indices)

end Verif.Mesh
