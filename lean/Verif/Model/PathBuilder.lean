import Verif.Model.Mesh
/-
Model of the path builder (/repo/src/mesh/mesh/path_builder.rs) and of the import of SVG paths built on it
(/repo/src/extensions/svg/svg.rs).

* The builder's `&mut` mesh is a field; `IndexType::max()` as a vertex is `none`.
* The transformation applied to new vertices is left out: the functions that change it (path_builder.rs:95-142) are private
  and never called, so that it is always `Transform::default()`, the identity.
* Payloads are described by a `Kit`: `T::VP::from_pos`, `HasPosition::pos`, `T::EP::default()` and what
  `set_curve_type` does to the payload of a half-edge.
* `usvg` parses and normalises the document; a path arrives as a list of segments.
-/
namespace Verif
variable {VP EP FP P : Type}

/-- What the path builder needs to know about the payloads. -/
structure Kit (VP EP P : Type) where
  fromPos : P → VP
  pos : VP → P
  /-- `T::EP::default()` -/
  de : EP
  /-- the payload after `set_curve_type(QuadraticBezier(c))` -/
  quad : P → EP → EP
  /-- the payload after `set_curve_type(CubicBezier(c1, c2))` -/
  cubic : P → P → EP → EP

/-- path_builder.rs:11-29 -/
structure PathBuilder (VP EP FP : Type) where
  mesh : Mesh VP EP FP
  closed : Bool
  hasFace : Bool
  startV : Option Nat
  currentV : Option Nat
  startE : Option (Nat × Nat)
  currentE : Option (Nat × Nat)

namespace PathBuilder

/-- path_builder.rs:37-50 -/
def new (m : Mesh VP EP FP) : PathBuilder VP EP FP := ⟨m, false, false, none, none, none, none⟩

/-- path_builder.rs:144-165 -/
def startAtEdge (m : Mesh VP EP FP) (e : Nat) : Option (PathBuilder VP EP FP) := do
  let p ← m.prevId e
  let v ← m.targetId e
  some ⟨m, false, false, some v, some v, some (e, p), some (e, p)⟩

/-- path_builder.rs:71-92 -/
def startAt (m : Mesh VP EP FP) (v : Nat) : Option (PathBuilder VP EP FP) := do
  let x ← m.vertex v
  match x.edge with
  | some e => startAtEdge m (← m.prevId e)
  | none => some ⟨m, false, false, some v, some v, none, none⟩

/-- path_builder.rs:52-69 -/
def start (K : Kit VP EP P) (m : Mesh VP EP FP) (p : P) : Option (PathBuilder VP EP FP) := do
  let (m, v) ← m.addVertex (K.fromPos p)
  startAt m v

/-- path_builder.rs:310-327 -/
def moveToNew (K : Kit VP EP P) (b : PathBuilder VP EP FP) (p : P) : Option (PathBuilder VP EP FP) :=
  if b.startV.isSome || b.startE.isSome || b.currentV.isSome then none
  else do
    let (m, v) ← b.mesh.addVertex (K.fromPos p)
    some { b with mesh := m, startV := some v, currentV := some v, closed := false }

/-- path_builder.rs:385-418 -/
def lineToEx (dbg : Bool) (b : PathBuilder VP EP FP) (v : Nat) (ep0 ep1 : EP) : Option (PathBuilder VP EP FP) :=
  if b.closed then none
  else do
    let closed := some v == b.startV
    match b.currentE with
    | some _ =>
      let o ← b.currentV
      let (m, e0, e1) ← b.mesh.insertEdgeBetween dbg o ep0 v ep1
      some { b with mesh := m, closed := closed, currentE := some (e0, e1), currentV := some v }
    | none =>
      if b.startE.isSome || b.startV != b.currentV then none
      else do
        let o ← b.currentV
        let (m, e0, e1) ← b.mesh.insertEdgeBetween dbg o ep0 v ep1
        some { b with mesh := m, closed := closed, currentE := some (e0, e1), startE := some (e1, e0), currentV := some v }

/-- path_builder.rs:374-383 -/
def lineTo (dbg : Bool) (K : Kit VP EP P) (b : PathBuilder VP EP FP) (v : Nat) : Option (PathBuilder VP EP FP) :=
  b.lineToEx dbg v K.de K.de

/-- `set_curve_type` on the half-edge of `current_edges` that was drawn last -/
def setCurve (b : PathBuilder VP EP FP) (f : EP → EP) : Option (PathBuilder VP EP FP) := do
  let (e, _) ← b.currentE
  let m ← b.mesh.updE e (fun h => { h with payload := f h.payload })
  some { b with mesh := m }

/-- path_builder.rs:420-436 -/
def quadTo (dbg : Bool) (K : Kit VP EP P) (b : PathBuilder VP EP FP) (c : P) (v : Nat) : Option (PathBuilder VP EP FP) := do
  (← b.lineTo dbg K v).setCurve (K.quad c)

/-- path_builder.rs:438-460 -/
def cubicTo (dbg : Bool) (K : Kit VP EP P) (b : PathBuilder VP EP FP) (c1 c2 : P) (v : Nat) : Option (PathBuilder VP EP FP) := do
  (← b.lineTo dbg K v).setCurve (K.cubic c1 c2)

/-- `add_transformed_pos`; path_builder.rs:301-308 -/
def addPos (K : Kit VP EP P) (b : PathBuilder VP EP FP) (p : P) : Option (PathBuilder VP EP FP × Nat) := do
  let (m, v) ← b.mesh.addVertex (K.fromPos p)
  some ({ b with mesh := m }, v)

/-- path_builder.rs:281-293 -/
def line (dbg : Bool) (K : Kit VP EP P) (b : PathBuilder VP EP FP) (p : P) : Option (PathBuilder VP EP FP) := do
  let (b, v) ← b.addPos K p
  b.lineTo dbg K v

/-- path_builder.rs:341-353 -/
def quad (dbg : Bool) (K : Kit VP EP P) (b : PathBuilder VP EP FP) (c p : P) : Option (PathBuilder VP EP FP) := do
  let (b, v) ← b.addPos K p
  b.quadTo dbg K c v

/-- path_builder.rs:355-372 -/
def cubic (dbg : Bool) (K : Kit VP EP P) (b : PathBuilder VP EP FP) (c1 c2 p : P) : Option (PathBuilder VP EP FP) := do
  let (b, v) ← b.addPos K p
  b.cubicTo dbg K c1 c2 v

/-- path_builder.rs:264-279 -/
def addVertexAutoclose [DecidableEq P] (K : Kit VP EP P) (b : PathBuilder VP EP FP) (p : P) :
    Option (PathBuilder VP EP FP × Nat) :=
  if b.closed then none
  else do
    let sv ← b.startV
    let x ← b.mesh.vertex sv
    if K.pos x.payload = p then some (b, sv) else b.addPos K p

/-- path_builder.rs:203-262.  Returns the face; `none` stands for `IndexType::max()`. -/
def close (dbg : Bool) (K : Kit VP EP P) (b : PathBuilder VP EP FP) (fp : FP) : Option (PathBuilder VP EP FP × Option Nat) :=
  let b := { b with hasFace := true }
  if b.closed then do
    let (si, _) ← b.startE
    let (m, f) ← b.mesh.closeHole dbg si fp false
    some ({ b with mesh := m }, some f)
  else
    let b := { b with closed := true }
    match b.currentE with
    | none => if b.startE.isSome || b.startV != b.currentV then none else some (b, none)
    | some (ci, co) => do
      let (si, _) ← b.startE
      let _ ← b.mesh.edge ci
      let e ← Mesh.walkFind b.mesh.fwd (fun e => some (e == co || e == si)) ci b.mesh.fuel ci
      let e ← e
      let b ← if e = co then do b.lineTo dbg K (← b.startV) else some b
      let (m, f) ← b.mesh.closeHole dbg si fp false
      some ({ b with mesh := m }, some f)

end PathBuilder

/-! ### SVG paths -/

/-- `tiny_skia_path::PathSegment` -/
inductive Seg (P : Type) where
  | moveTo (p : P)
  | lineTo (p : P)
  | quadTo (c p : P)
  | cubicTo (c1 c2 p : P)
  | close

/-- One turn of the loop of `import_path`; svg.rs:55-78. -/
def importSeg [DecidableEq P] (dbg : Bool) (K : Kit VP EP P) (df : FP) (isFirst : Bool) (b : PathBuilder VP EP FP) :
    Seg P → Option (PathBuilder VP EP FP)
  | .moveTo p => if isFirst then b.moveToNew K p else none
  | .lineTo p => do
    let (b, v) ← b.addVertexAutoclose K p
    b.lineTo dbg K v
  | .quadTo c p => do
    let (b, v) ← b.addVertexAutoclose K p
    b.quadTo dbg K c v
  | .cubicTo c1 c2 p => do
    let (b, v) ← b.addVertexAutoclose K p
    b.cubicTo dbg K c1 c2 v
  | .close => do
    let (b, _) ← b.close dbg K df
    some b

/-- The loop of `import_path`; svg.rs:54-78. -/
def importSegs [DecidableEq P] (dbg : Bool) (K : Kit VP EP P) (df : FP) :
    Bool → PathBuilder VP EP FP → List (Seg P) → Option (PathBuilder VP EP FP)
  | _, b, [] => some b
  | isFirst, b, s :: ss => do importSegs dbg K df false (← importSeg dbg K df isFirst b s) ss

/-- `import_path` on a visible path; svg.rs:35-83. -/
def importPath [DecidableEq P] (dbg : Bool) (K : Kit VP EP P) (df : FP) (m : Mesh VP EP FP) (ss : List (Seg P)) :
    Option (Mesh VP EP FP) := do
  let b ← importSegs dbg K df true (.new m) ss
  if b.hasFace && !b.closed then none
  else if b.hasFace then some b.mesh
  else do
    let (b, _) ← b.close dbg K df
    some b.mesh

end Verif
