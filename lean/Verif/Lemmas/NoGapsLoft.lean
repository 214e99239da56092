import Verif.Lemmas.NoGaps
/-
Lofting, extruding, and the solids do not delete vertices.
-/
namespace Verif.Mesh
variable {VP EP FP A B : Type} {m : Mesh VP EP FP}

theorem NoGaps.apexLoop (dbg : Bool) (de : EP) (df : FP) (o : Nat) : ∀ (k : Nat) {m : Mesh VP EP FP} (i : Nat), m.NoGaps → Post (apexLoop dbg de df o k m i) fun r => r.1.NoGaps
  | 0, _, _, _ => .none
  | k + 1, m, i, g => by
    refine Post.read fun _ => Post.ite (.some g) ?_
    exact Post.read fun _ => Post.read fun _ => Post.bind (fun r => r.1.NoGaps) (g.closeFace dbg _ _ _ _ _ _) fun _ g => NoGaps.apexLoop dbg de df o k _ g

variable (g : m.NoGaps)
include g

theorem NoGaps.fillHoleApex (dbg : Bool) (de : EP) (df : FP) (s : Nat) (apex : VP) : Post (m.fillHoleApex dbg de df s apex) fun r => r.1.NoGaps :=
  Post.read fun _ => Post.read fun _ => Post.bind (fun r => r.1.NoGaps) (g.addVertexViaEdge dbg _ _ _ _ _) fun _ g => Post.bind (fun r => r.1.NoGaps) (NoGaps.apexLoop dbg de df _ _ _ g) fun _ g =>
    Post.bind (fun r => r.1.NoGaps) (g.closeHole dbg _ _ _) fun _ g => .some g

omit g in
theorem NoGaps.chainLoop (dbg : Bool) (de : EP) (s : Nat) : ∀ (k : Nat) {m : Mesh VP EP FP} (i r : Nat) (ps : List VP), m.NoGaps → Post (chainLoop dbg de s k m i r ps) fun r => r.1.NoGaps
  | 0, _, _, _, _, g => .some g
  | _ + 1, _, _, _, [], g => .some g
  | k + 1, _, _, _, _ :: ps, g => Post.read fun _ => Post.bind (fun r => r.1.NoGaps) (g.addVertexViaEdge dbg _ _ _ _ _) fun _ g => Post.read fun _ => NoGaps.chainLoop dbg de s k _ _ ps g

omit g in
theorem NoGaps.polyBackLoop (dbg : Bool) (de : EP) (df : FP) (n nm s sv : Nat) : ∀ (k : Nat) {m : Mesh VP EP FP} (i r : Nat) (ps : List VP), m.NoGaps → Post (polyBackLoop dbg de df n nm s sv k m i r ps) fun r => r.1.NoGaps
  | 0, _, _, _, _, _ => .none
  | k + 1, m, i, r, ps, g => by
    refine Post.read fun _ => Post.read fun _ => Post.read fun _ => Post.bind (fun r => r.1.NoGaps) (NoGaps.chainLoop dbg de s _ _ _ ps g) ?_
    rintro ⟨m, i, r, rest⟩ g
    cases rest with
    | none => exact .some g
    | some ps =>
      refine Post.read fun _ => ?_
      cases ps with
      | nil => exact Post.read fun _ => Post.ite (Post.read fun _ => Post.bind (fun r => r.1.NoGaps) (g.closeFace dbg _ _ _ _ _ _) fun _ g => .some g) (.some g)
      | cons p ps =>
        exact Post.read fun _ => Post.bind (fun r => r.1.NoGaps) (g.addVertexViaEdge dbg _ _ _ _ _) fun _ g => Post.read fun _ => Post.bind (fun r => r.1.NoGaps) (g.closeFace dbg _ _ _ _ _ _) fun _ g =>
          Post.read fun _ => NoGaps.polyBackLoop dbg de df n nm s sv k _ _ ps g

theorem NoGaps.loftPolygonBack (dbg : Bool) (de : EP) (df : FP) (s n nm : Nat) (ps : List VP) : Post (m.loftPolygonBack dbg de df s n nm ps) fun r => r.1.NoGaps := by
  refine Post.ite .none (Post.read fun _ => ?_)
  cases ps with
  | nil => exact NoGaps.polyBackLoop dbg de df n nm s _ _ _ _ _ g
  | cons p ps => exact Post.read fun _ => Post.bind (fun r => r.1.NoGaps) (g.addVertexViaEdge dbg _ _ _ _ _) fun _ g => NoGaps.polyBackLoop dbg de df n nm s _ _ _ _ _ g

omit g in
theorem NoGaps.polyLoop (dbg : Bool) (de : EP) (df : FP) (s sv : Nat) : ∀ (ps : List VP) {m : Mesh VP EP FP} (i r : Nat), m.NoGaps → Post (polyLoop dbg de df s sv ps m i r) fun r => r.1.NoGaps
  | [], m, i, r, g => Post.read fun _ => Post.read fun _ => Post.read fun _ => Post.read fun _ => Post.ite (Post.read fun _ => Post.bind (fun r => r.1.NoGaps) (g.closeFace dbg _ _ _ _ _ _) fun _ g => .some g) (.some g)
  | p :: ps, m, i, r, g => Post.read fun _ => Post.read fun _ => Post.read fun _ => Post.read fun _ => Post.bind (fun r => r.1.NoGaps) (g.addVertexViaEdge dbg _ _ _ _ _) fun _ g => Post.read fun _ => Post.read fun _ =>
      Post.read fun _ => Post.bind (fun r => r.1.NoGaps) (g.closeFace dbg _ _ _ _ _ _) fun _ g => Post.read fun _ => NoGaps.polyLoop dbg de df s sv ps _ _ g

theorem NoGaps.loftPolygon (dbg : Bool) (de : EP) (df : FP) (s n nm : Nat) (ps : List VP) : Post (m.loftPolygon dbg de df s n nm ps) fun r => r.1.NoGaps := by
  refine Post.ite .none (Post.read fun _ => ?_)
  cases ps with
  | nil => exact NoGaps.polyLoop dbg de df s _ _ _ _ g
  | cons p ps => exact Post.read fun _ => Post.bind (fun r => r.1.NoGaps) (g.addVertexViaEdge dbg _ _ _ _ _) fun _ g => NoGaps.polyLoop dbg de df s _ _ _ _ g

omit g in
theorem NoGaps.triLoop (dbg : Bool) (de : EP) (df : FP) (sh : Bool) : ∀ (ps : List VP) {m : Mesh VP EP FP} (o : Nat) (fst : Bool) (r : Nat), m.NoGaps → Post (triLoop dbg de df sh ps m o fst r) fun r => r.1.NoGaps
  | [], _, _, _, _, g => .some g
  | p :: ps, m, o, fst, r, g => by
    refine Post.read fun _ => Post.bind (fun r => r.1.NoGaps) (g.addVertexViaEdge dbg _ _ _ _ _) fun _ g => Post.bind (fun r => r.1.NoGaps) ?_ fun _ g => Post.read fun _ => Post.bind NoGaps ?_ fun _ g => NoGaps.triLoop dbg de df sh ps _ _ _ g
    · exact Post.ite (Post.read fun _ => Post.read fun _ => Post.bind (fun r => r.1.NoGaps) (g.closeFace dbg _ _ _ _ _ _) fun _ g => .some g) (Post.read fun _ => .some g)
    · exact Post.ite (Post.read fun _ => Post.read fun _ => Post.bind (fun r => r.1.NoGaps) (g.closeFace dbg _ _ _ _ _ _) fun _ g => .some g) (.some g)

theorem NoGaps.loftTri (dbg : Bool) (de : EP) (df : FP) (s : Nat) (sh : Bool) (ps : List VP) : Post (m.loftTri dbg de df s sh ps) fun r => r.1.NoGaps := by
  match sh, ps with
  | true, p :: ps => exact Post.read fun _ => Post.bind (fun r => r.1.NoGaps) (g.addVertexViaEdge dbg _ _ _ _ _) fun _ g => Post.read fun _ => NoGaps.triLoop dbg de df _ _ _ _ _ g
  | true, [] => exact NoGaps.triLoop dbg de df _ _ _ _ _ g
  | false, ps => exact NoGaps.triLoop dbg de df _ ps _ _ _ g

theorem NoGaps.loftTriClosed (dbg : Bool) (de : EP) (df : FP) (s : Nat) (ps : List VP) : Post (m.loftTriClosed dbg de df s ps) fun r => r.1.NoGaps :=
  Post.bind (fun r => r.1.NoGaps) (g.loftTri dbg de df s false ps) fun _ g => Post.read fun _ => Post.read fun _ => Post.read fun _ => Post.read fun _ => Post.bind (fun r => r.1.NoGaps) (g.closeFace dbg _ _ _ _ _ _) fun _ g =>
    Post.read fun _ => Post.bind (fun r => r.1.NoGaps) (g.closeFace dbg _ _ _ _ _ _) fun _ g => Post.read fun _ => Post.read fun _ => .some g

theorem NoGaps.extrude (dbg : Bool) (de : EP) (df : FP) (tr : VP → VP) (e : Nat) : Post (m.extrude dbg de df tr e) fun r => r.1.NoGaps :=
  Post.read fun _ => Post.ite (Post.read fun _ => Post.read fun _ => Post.read fun _ => Post.bind (fun r => r.1.NoGaps) (g.loftPolygonBack dbg de df _ _ _ _) fun _ g =>
    Post.bind (fun r => r.1.NoGaps) (g.closeHole dbg _ _ _) fun _ g => .some g) .none

theorem NoGaps.extrudeTri2 (dbg : Bool) (de : EP) (df : FP) (tr : VP → VP) (mid : VP → VP → VP) (e : Nat) : Post (m.extrudeTri2 dbg de df tr mid e) fun r => r.1.NoGaps :=
  Post.read fun _ => Post.ite (Post.read fun _ => Post.read fun _ => Post.read fun _ => Post.bind (fun r => r.1.NoGaps) (g.loftTriClosed dbg de df _ _) fun _ g =>
    Post.bind (fun r => r.1.NoGaps) (g.closeHole dbg _ _ _) fun _ g => .some g) .none

theorem NoGaps.insertPrism (dbg : Bool) (de : EP) (df : FP) (nrm : Mesh VP EP FP → Nat → Option (VP → VP)) (ps : List VP) : Post (m.insertPrism dbg de df nrm ps) fun r => r.1.NoGaps :=
  Post.bind (fun r => r.1.NoGaps) (g.insertPolygon dbg de df ps) fun _ g => Post.read fun _ => Post.read fun _ => Post.read fun _ => Post.read fun _ => g.extrude dbg de df _ _

theorem NoGaps.insertAntiprism (dbg : Bool) (de : EP) (df : FP) (nrm : Mesh VP EP FP → Nat → Option (VP → VP)) (mid : VP → VP → VP) (ps : List VP) : Post (m.insertAntiprism dbg de df nrm mid ps) fun r => r.1.NoGaps :=
  Post.bind (fun r => r.1.NoGaps) (g.insertPolygon dbg de df ps) fun _ g => Post.read fun _ => Post.read fun _ => Post.read fun _ => Post.read fun _ => g.extrudeTri2 dbg de df _ _ _

theorem NoGaps.insertPyramid (dbg : Bool) (de : EP) (df : FP) (ps : List VP) (apex : VP) : Post (m.insertPyramid dbg de df ps apex) fun r => r.1.NoGaps :=
  Post.bind (fun r => r.1.NoGaps) (g.insertPolygon dbg de df ps) fun _ g => Post.bind (fun r => r.1.NoGaps) (g.fillHoleApex dbg de df _ _) fun _ g => Post.read fun _ => .some g

theorem NoGaps.insertFrustum (dbg : Bool) (de : EP) (df : FP) (ps qs : List VP) (smooth : Bool) : Post (m.insertFrustum dbg de df ps qs smooth) fun r => r.1.NoGaps :=
  Post.bind (fun r => r.1.NoGaps) (g.insertPolygon dbg de df ps) fun _ g => Post.bind (fun r => r.1.NoGaps) (g.loftPolygon dbg de df _ _ _ _) fun _ g =>
    Post.bind (fun r => r.1.NoGaps) (g.closeHole dbg _ _ _) fun _ g => Post.ite .none (.some g)

theorem NoGaps.bipyramid (dbg : Bool) (de : EP) (df : FP) (base : List VP) (top bottom : VP) : Post (m.bipyramid dbg de df base top bottom) NoGaps :=
  Post.bind (fun r => r.1.NoGaps) (g.insertPyramid dbg de df base top) fun _ g => Post.read fun _ => Post.read fun _ => Post.bind (fun r => r.1.NoGaps) (g.removeFace dbg _) fun _ g =>
    Post.bind (fun r => r.1.NoGaps) (g.fillHoleApex dbg de df _ _) fun _ g => .some g

omit g
theorem noGaps_cuboid {K : Type} [Neg K] (dbg : Bool) (de : EP) (df : FP) (vp : K → K → K → VP) (x y z : K) : Post (cuboid dbg de df vp x y z : Option (Mesh VP EP FP)) NoGaps :=
  Post.bind (fun r => r.1.NoGaps) (noGaps_empty.insertPolygon dbg de df _) fun _ g => Post.bind (fun r => r.1.NoGaps) (g.loftPolygon dbg de df _ _ _ _) fun _ g =>
    Post.bind (fun r => r.1.NoGaps) (g.closeHole dbg _ _ _) fun _ g => .some g

theorem noGaps_tetrahedron {K : Type} [Neg K] [Zero K] (dbg : Bool) (de : EP) (df : FP) (vp : K → K → K → VP) (e sq : K) : Post (regularTetrahedron dbg de df vp e sq : Option (Mesh VP EP FP)) NoGaps :=
  Post.bind (fun r => r.1.NoGaps) (noGaps_empty.insertPyramid dbg de df _ _) fun _ g => .some g

theorem noGaps_icosahedron {K : Type} [Neg K] [Zero K] (dbg : Bool) (de : EP) (df : FP) (vp : K → K → K → VP) (long short : K) : Post (regularIcosahedron dbg de df vp long short : Option (Mesh VP EP FP)) NoGaps :=
  Post.bind (fun r => r.1.NoGaps) (noGaps_empty.insertLoop dbg de _) fun _ g => Post.bind (fun r => r.1.NoGaps) (g.fillHoleApex dbg de df _ _) fun _ g => Post.read fun _ =>
    Post.bind (fun r => r.1.NoGaps) (g.loftTriClosed dbg de df _ _) fun _ g => Post.bind (fun r => r.1.NoGaps) (g.fillHoleApex dbg de df _ _) fun _ g => .some g

theorem noGaps_dodecahedron {K : Type} [Neg K] [Zero K] (dbg : Bool) (de : EP) (df : FP) (vp : K → K → K → VP) (one phi iphi : K) : Post (dodecahedron dbg de df vp one phi iphi : Option (Mesh VP EP FP)) NoGaps :=
  Post.bind (fun r => r.1.NoGaps) (noGaps_empty.insertPolygon dbg de df _) fun _ g => Post.read fun _ => Post.read fun _ => Post.bind (fun r => r.1.NoGaps) (g.loftPolygonBack dbg de df _ _ _ _) fun _ g => Post.read fun _ =>
    Post.bind (fun r => r.1.NoGaps) (g.loftPolygonBack dbg de df _ _ _ _) fun _ g => Post.bind (fun r => r.1.NoGaps) (g.closeHole dbg _ _ _) fun _ g => .some g

theorem NoGaps.uvRows (dbg : Bool) (de : EP) (df : FP) : ∀ (rows : List (List VP)) {m : Mesh VP EP FP} (p : Nat), m.NoGaps → Post (uvRows dbg de df rows m p) fun r => r.1.NoGaps
  | [], _, _, g => .some g
  | _ :: rows, _, _, g => Post.bind (fun r => r.1.NoGaps) (g.loftPolygonBack dbg de df _ _ _ _) fun _ g => NoGaps.uvRows dbg de df rows _ g

theorem noGaps_uvSphere (dbg : Bool) (de : EP) (df : FP) (vp : Nat → Nat → VP) (n m : Nat) : Post (uvSphere dbg de df vp n m : Option (Mesh VP EP FP)) NoGaps := by
  refine Post.ite .none ?_
  exact Post.bind (fun r => r.1.NoGaps) (noGaps_empty.insertLoop dbg de _) fun _ g => Post.read fun _ => Post.bind (fun r => r.1.NoGaps) (g.fillHoleApex dbg de df _ _) fun _ g =>
    Post.bind (fun r => r.1.NoGaps) (NoGaps.uvRows dbg de df _ _ g) fun _ g => Post.bind (fun r => r.1.NoGaps) (g.fillHoleApex dbg de df _ _) fun _ g => .some g

end Verif.Mesh
