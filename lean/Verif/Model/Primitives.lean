import Verif.Model.Loft
/-
Primitive solids: /repo/src/primitives/prismatoid.rs and /repo/src/primitives/sphere.rs.

`de`, `df` are the default payloads of edges and faces.  Positions only enter through the vertex payloads; functions that compute positions take a constructor
`vp : K → K → K → VP` (`T::VP::from_pos(T::Vec::from_xyz(..))`) and the numbers.  The only place where a position is read is the normal of a face (face3d.rs:88-107), which
`insert_prism` and `insert_antiprism` turn into a translation: `nrm m f` is that translation applied to a payload, or `none` if the computation of the normal panics.
-/
namespace Verif.Mesh
variable {VP EP FP : Type}

/-- prismatoid.rs:53-60 -/
def insertPrism (dbg : Bool) (m : Mesh VP EP FP) (de : EP) (df : FP) (nrm : Mesh VP EP FP → Nat → Option (VP → VP)) (ps : List VP) : Option (Mesh VP EP FP × Nat) := do
  let (m, first) ← m.insertPolygon dbg de df ps
  let t ← m.twinId first
  let fo ← m.faceOf t
  let f ← fo
  let tr ← nrm m f
  m.extrude dbg de df tr first

/-- prismatoid.rs:75-87 -/
def insertAntiprism (dbg : Bool) (m : Mesh VP EP FP) (de : EP) (df : FP) (nrm : Mesh VP EP FP → Nat → Option (VP → VP)) (mid : VP → VP → VP) (ps : List VP) :
    Option (Mesh VP EP FP × Nat) := do
  let (m, first) ← m.insertPolygon dbg de df ps
  let fo ← m.faceOf first
  let f ← fo
  let tr ← nrm m f
  let t ← m.twinId first
  m.extrudeTri2 dbg de df tr mid t

/-- prismatoid.rs:98-107 -/
def insertAntiprismIter (dbg : Bool) (m : Mesh VP EP FP) (de : EP) (df : FP) (ps qs : List VP) : Option (Mesh VP EP FP × Nat) := do
  let (m, first) ← m.insertPolygon dbg de df ps
  let (m, e) ← m.loftTriClosed dbg de df first qs
  let (m, _) ← m.closeHole dbg e df false
  some (m, e)

/-- prismatoid.rs:120-124 -/
def insertPyramid (dbg : Bool) (m : Mesh VP EP FP) (de : EP) (df : FP) (ps : List VP) (apex : VP) : Option (Mesh VP EP FP × Nat) := do
  let (m, first) ← m.insertPolygon dbg de df ps
  let (m, _) ← m.fillHoleApex dbg de df first apex
  let t ← m.twinId first
  some (m, t)

/-- prismatoid.rs:134-146 -/
def insertFrustum (dbg : Bool) (m : Mesh VP EP FP) (de : EP) (df : FP) (ps qs : List VP) (smooth : Bool) : Option (Mesh VP EP FP × Nat) := do
  let (m, first) ← m.insertPolygon dbg de df ps
  let (m, top) ← m.loftPolygon dbg de df first 2 2 qs
  let (m, _) ← m.closeHole dbg top df false
  if smooth then none else some (m, top)

/-- prismatoid.rs:160-184; `x`, `y`, `z` are half the side lengths -/
def cuboid {K : Type} [Neg K] (dbg : Bool) (de : EP) (df : FP) (vp : K → K → K → VP) (x y z : K) : Option (Mesh VP EP FP) := do
  let (m, bottom) ← (empty : Mesh VP EP FP).insertPolygon dbg de df [vp (-x) (-y) (-z), vp x (-y) (-z), vp x y (-z), vp (-x) y (-z)]
  let (m, top) ← m.loftPolygon dbg de df bottom 2 2 [vp (-x) (-y) z, vp x (-y) z, vp x y z, vp (-x) y z]
  let (m, _) ← m.closeHole dbg top df false
  some m

/-- prismatoid.rs:215-228; `e` is half the edge length and `sq` is `e / √2` -/
def regularTetrahedron {K : Type} [Neg K] [Zero K] (dbg : Bool) (de : EP) (df : FP) (vp : K → K → K → VP) (e sq : K) : Option (Mesh VP EP FP) := do
  let (m, _) ← (empty : Mesh VP EP FP).insertPyramid dbg de df [vp (-e) 0 (-sq), vp 0 (-e) sq, vp e 0 (-sq)] (vp 0 e sq)
  some m

/-- prismatoid.rs:231-244: a pyramid over `base`, whose base is then replaced by a fan around a second apex.
    `remove_face(edge(e).face_id())` reads the id of the face. -/
def bipyramid (dbg : Bool) (m : Mesh VP EP FP) (de : EP) (df : FP) (base : List VP) (top bottom : VP) : Option (Mesh VP EP FP) := do
  let (m, e) ← m.insertPyramid dbg de df base top
  let fo ← m.faceId e
  let f ← fo
  let (m, _) ← m.removeFace dbg f
  let (m, _) ← m.fillHoleApex dbg de df e bottom
  some m

/-- sphere.rs:54-57: the rows of quadrilaterals; `rows` are the payloads of the rows -/
def uvRows (dbg : Bool) (de : EP) (df : FP) : List (List VP) → Mesh VP EP FP → Nat → Option (Mesh VP EP FP × Nat)
  | [], m, prev => some (m, prev)
  | row :: rows, m, prev => do
    let (m, prev) ← m.loftPolygonBack dbg de df prev 2 2 row
    uvRows dbg de df rows m prev

/-- sphere.rs:32-62; `vp i j` is `make_vp(i, j)` -/
def uvSphere (dbg : Bool) (de : EP) (df : FP) (vp : Nat → Nat → VP) (n m : Nat) : Option (Mesh VP EP FP) := do
  if n < 2 ∨ m < 3 then none
  else do
    let (s, prev) ← (empty : Mesh VP EP FP).insertLoop dbg de ((List.range m).map (vp 1))
    let t ← s.twinId prev
    let (s, _) ← s.fillHoleApex dbg de df t (vp 0 0)
    let (s, prev) ← uvRows dbg de df ((List.range (n - 2)).map fun i => (List.range m).map (vp (i + 2))) s prev
    let (s, _) ← s.fillHoleApex dbg de df prev (vp n 0)
    some s

/-- sphere.rs:65-120; `one` is the radius, `phi` and `iphi` its product and quotient with the golden ratio -/
def dodecahedron {K : Type} [Neg K] [Zero K] (dbg : Bool) (de : EP) (df : FP) (vp : K → K → K → VP) (one phi iphi : K) : Option (Mesh VP EP FP) := do
  let (m, _) ← (empty : Mesh VP EP FP).insertPolygon dbg de df [vp one one one, vp 0 phi iphi, vp (-one) one one, vp (-iphi) 0 phi, vp iphi 0 phi]
  let so ← m.sharedEdge dbg 1 0
  let start ← so
  let (m, mid) ← m.loftPolygonBack dbg de df start 3 2 [vp phi iphi 0, vp one one (-one), vp 0 phi (-iphi), vp (-one) one (-one), vp (-phi) iphi 0, vp (-phi) (-iphi) 0,
    vp (-one) (-one) one, vp 0 (-phi) iphi, vp one (-one) one, vp phi (-iphi) 0]
  let n ← m.nextId mid
  let (m, bottom) ← m.loftPolygonBack dbg de df n 2 3 [vp one (-one) (-one), vp iphi 0 (-phi), vp (-iphi) 0 (-phi), vp (-one) (-one) (-one), vp 0 (-phi) (-iphi)]
  let (m, _) ← m.closeHole dbg bottom df false
  some m

/-- sphere.rs:123-162; `long` and `short` are half the golden ratio times the edge length and half the edge length -/
def regularIcosahedron {K : Type} [Neg K] [Zero K] (dbg : Bool) (de : EP) (df : FP) (vp : K → K → K → VP) (long short : K) : Option (Mesh VP EP FP) := do
  let (m, start) ← (empty : Mesh VP EP FP).insertLoop dbg de [vp 0 long (-short), vp long short 0, vp short 0 long, vp (-short) 0 long, vp (-long) short 0]
  let (m, _) ← m.fillHoleApex dbg de df start (vp 0 long short)
  let t ← m.twinId start
  let (m, last) ← m.loftTriClosed dbg de df t [vp short 0 (-long), vp long (-short) 0, vp 0 (-long) short, vp (-long) (-short) 0, vp (-short) 0 (-long)]
  let (m, _) ← m.fillHoleApex dbg de df last (vp 0 (-long) (-short))
  some m

end Verif.Mesh
