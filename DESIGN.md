# Design of the machine-checked model

Target: the Rust crate in `/repo` (bevy-procedural/modelling at the pinned commit).
Tool: Lean 4.33.0 with Mathlib (single modules only).  All modules live under `lean/Verif`.

## 1. General conventions

* A Rust function on `&mut self` becomes a Lean function returning the new value.
* A panic (failed `assert!`, out-of-bounds index, `unwrap` on `None`, `todo!`) is the value `none` of `Option`.
  No totalised getters (`getD`, `head!`, ...) are used to hide a panic.
* `debug_assert!(c)` is modelled by `dassert dbg c`, which fails only when `dbg = true`.
  Every mesh operation takes the build mode `dbg : Bool`; theorems hold for both modes unless stated.
* `IndexType::max()` as "no element" becomes `Option.none`.  Ids are `Nat`: overflow of the index type
  (more than `MAX` elements) is not modelled.
* Pointer walks (`while`/iterators over links) are fuel-bounded by the number of slots; running out of
  fuel is `none`.  The theorems show fuel never runs out on consistent meshes, i.e. real termination.
* Payload types are arbitrary type variables.
* Geometry is done over an arbitrary linearly ordered field (`Field` + `LinearOrder` + `IsStrictOrderedRing`)
  or over `ℚ`; floating-point rounding, NaN and signed zero are not modelled.  Where the code's
  `is_positive` on floats differs from its documentation (`0.0` counts as positive), the model takes the
  sign convention as stated next to the definition.
* Hash maps used as finite maps become functions/association lists; iteration order of hash maps is never
  relied upon in a theorem.

Layering: `Verif/Model/*` transcribes the code (each definition cites file and lines),
`Verif/Spec/*` holds the independent specifications, `Verif/Lemmas/*` holds helper lemmas and
`Verif/Props/*` holds the property theorems, each followed by an `example` that shows its hypotheses
are satisfiable by a concrete non-trivial case.

## 2. Specification of a consistent mesh

`Spec/Mesh.lean` defines `WF m` (consistent mesh) from lookups only (`m.he? e`, `m.vert? v`, `m.face? f`),
independently of the operations:

1. the twin of a live half-edge is live, differs from it, and its twin is the half-edge itself;
2. `next` and `prev` of a live half-edge are live and mutually inverse;
3. the origin of `next e` is the origin of `twin e`; origins are live vertices;
4. faces of live half-edges are live, and `next e` has the same face as `e`;
5. a vertex representative is a live half-edge starting at the vertex; a vertex without representative has no
   outgoing half-edges;
6. a face representative is a live half-edge of that face;
7. two half-edges with the same origin are connected by "twin then next" steps (one wheel per vertex);
8. two half-edges of the same face are connected by `next` steps (one loop per face);
9. the three stores satisfy the free-list invariant of `Spec/Store.lean`.

## 3. Properties

Shapes used: (I) invariant by induction over operation lists, (R) refinement of an abstract specification,
(A) algebraic law, (D) decision logic / characterisation.

| id | modelled code | how proved |
|----|---------------|------------|
| C01 | `util/deletable.rs` whole file | R: simulation of a partial map `Nat -> Option a`; op lists |
| C02 | same | I: `data.length - deleted.length = live count + reserved` |
| C03 | same | I: high-water mark |
| C04 | `builder.rs` add_vertex, `halfedge.rs` add_isolated_edge | total correctness: WF -> succeeds, WF, frame |
| C05 | add_vertex_via_edge | same |
| C06 | add_vertex_via_vertex | same, uses C16 |
| C07 | insert_edge, insert_edge_no_update(_no_check) | same |
| C08 | insert_edge inside a face | code violates: negation with witness; C07 is the partial positive |
| C09 | insert_edge_between, boundary edge search | total correctness |
| C10 | close_hole | total correctness, uses C15 |
| C11 | close_face | C07 + C10 |
| C12 | remove_face | total correctness + inverse law |
| C13 | flip | D: pointwise characterisation as a renaming; A: involution |
| C14 | all of the above | I over operation lists |
| C15 | forward/backward iterators, face edges | orbit of an injective map on a finite set |
| C16 | incident-to-vertex iterator | same |
| C17 | shared_edge | from C16 |
| C18 | check() | D: soundness and completeness |
| C19 | check() | code violates: witness mesh accepted by check() |
| C20 | insert_path | induction on the list |
| C21 | insert_loop, insert_polygon | C20 + C07 + C10 with loop tracking |
| C22 | insert_dihedron | code violates: always panics in debug; in release leaves an open mesh |
| C23 | insert_vertices_into_edge | code violates: witness; partial for a case where it works |
| C24 | fill_hole_apex | loop invariant over the hole |
| C25 | import_mesh | D: order-preserving renaming |
| C26 | twin_edges | counting via an involution |
| C27 | shortest_path | BFS invariant (level order) |
| C28/C29 | netsci.rs | sums over finite lists; C29 violated, witness |
| C30 | equal_up_to_rotation | D: iff `List.IsRotated`, except the empty list (violated) |
| C31 | is_trivially_isomorphic_ex | code violates (mixes up meshes): witness |
| C32 | find_payload_isomorphism | D |
| C33 | dense_vertices | code violates in the sparse case: witness; compact case proved |
| C34 | Triangulation buffer | I |
| C35 | Triangulation::flip_edge | D + A |
| C36 | verify_* | code violates: witnesses; full coverage proved for `start = 0` |
| C37 | fan_triangulation | A by induction |
| C38 | ear_clipping_direct | I over the loop |
| C39 | orientation of ear clipping vs. fan | code violates: witness/general sign theorem |
| C40 | min_weight_dynamic.rs | R against inductively defined triangulations |
| C41 | TriangularStore | D: injectivity and bounds |
| C42 | min_weight_quad | D |
| C43 | LinearMonoTriangulator (`Model/Sweep.lean`) | I: boundary form of the pending path, laws of a `Lawful` triangulator |
| C44 | SweepLineStatus (`Model/Sweep.lean`) | I; refuted for key collisions, which the sweep never causes |
| C45 | signed_area, area, is_ccw, is_cw | A; `Props/Geom.lean`, `Props/Orientation.lean` |
| C46 | is_inside_triangle | D |
| C47 | intersect_line | D |
| C48/C49 | CurvedEdgeType | algebra over a vector space with a length; induction on the recursion; proved |
| C50 | NdAffine, Mat5, Affine2, Transform | matrix algebra; three backends compose in the wrong order, witnesses |
| C51 | neumaier/kahan | A by induction |
| C52 | subdivision_frequency (`Model/Subdivision.lean`) | I on powers of two, over C56; proved |
| C53 | sweep.rs, vertex_type.rs, interval.rs, status.rs without the b-tree (`Model/Sweep.lean`, `Model/SweepGeom.lean`) | I over sorted event queues, for every lawful triangulator and interval search |
| C54 | flatten_casteljau error bound | proved for linear and quadratic edges; S-curve witness for cubic ones |
| C55 | is_isomorphic | loop invariant for soundness; renaming of orbits for completeness |
| C56 | loop_subdivision, interpolators (`Model/Subdivision.lean`, `Model/Interpolator.lean`) | invariant `Topo.Mid` of a half-finished subdivision over the list of faces; proved |
| C58 | close_face_vertices | D over C11 and the vertex wheel; proved |
| C57 | loop_subdivision with boundary | refuted by a triangle; closed case from C56 |
| C59 | loft_polygon_back (`Model/Loft.lean`) | invariant `Hem` of a half-finished hem over `Grow` (`Spec/Loft.lean`); proved |
| C60 | loft_tri (both values of `shift`), loft_tri_closed (`Model/Loft.lean`) | invariant `TriMid`/`TriHead` over `Grow`; `Props/Loft.lean`, `Props/LoftTriShift.lean`; proved |
| C61 | loft_polygon (`Model/Loft.lean`) | over `TriMid`; proved for n = m = 2, refused otherwise, returned half-edge in the other direction |
| C62 | extrude and its variants (`Model/Loft.lean`) | D over C59/C60 and close_hole; proved |
| C63 | prismatoids (`Model/Primitives.lean`) | chain of `Adds` (`Spec/Solids.lean`: new vertices and cycles of vertices of the new faces); proved |
| C64 | uv_sphere (`Model/Primitives.lean`) | I on the rows over `Adds`; proved |
| C65 | regular_icosahedron | chain of `Adds`; proved |
| C66 | dodecahedron | refuted (panic in debug, inconsistent mesh in release builds) |
| C67 | insert_antiprism, smooth frustums | refuted: always panic |
| C68 | extrude_boundary | refuted; I over the faces for what it does |
| C69 | geodesic spheres (`Model/Sphere.lean`) | positions are vectors of real numbers; outwardness by I on the subdivision steps: the Gram matrix of a triangle stays acute and its volume shrinks by at most 1/8 (`Lemmas/Geodesic.lean`); proved for icosahedron and octahedron, refuted for the tetrahedron |
| C70 | regular solids (`Model/Sphere.lean`) | C66 for the mesh, real arithmetic for the positions; proved |
| C71 | face normals (`Model/Face3d.lean`) | A: sums over the sides telescope; loop of the face as an orbit; proved |
| C72 | is_planar, is_convex, normal_naive (`Model/Face3d.lean`) | D; refuted by a bent pentagon and a star; planar and convex faces are accepted |
| C73 | regular and uniform prisms and antiprisms (`Model/Face3d.lean`) | C63 and C71 for the top, trigonometry for the lengths; refuted for uniform_antiprism |
| C74 | positions of uv_sphere (`Model/Sphere.lean`) | C64 for the faces, the determinant of every corner is a product of sines; proved |
| C75 | circumcircle test (`Model/Delaunay.lean`) | Mathlib determinant; power of a point; proved off the circle, refuted on it |
| C76 | Delaunay triangulator (`Model/Delaunay.lean`) | B: table of opposite vertices as an invariant over ranks along the pending path; proved |
| C77 | linear and Delaunay triangulator on monotone polygons | funnel invariant of the pending stack (`Lemmas/Funnel.lean`); proved |
| C78 | sweep on polygons monotone downwards | one interval all the way (`Lemmas/SweepMono.lean`), then C77; proved |
| C79 | dynamic-programming triangulator (`Model/DynamicMono.lean`) | lawful triangulator as in C53; on monotone polygons reduced to C40; proved |
| C80 | `Polygon::contains` (`Model/Polygon.lean`) | winding number by crossings of a ray; sums over the triangles of a triangulation; proved off the sides |
| C81 | `Polygon::valid_diagonal` | winding number constant along segments that meet no side; with C40 for the minimum-weight triangulation; proved |
| C82 | `minweight_dynamic` with `valid_diagonal` on simple polygons | two ears argument: a lowest corner is an ear or sees another corner (`Lemmas/Simple*.lean`); induction over the cut; proved |
| C83 | the same, and `Polygon::contains` on simple polygons | induction over the ears of a triangulation (`Lemmas/SimpleTiling.lean`): an ear has no corner inside, the rest does not run around it; proved |
| C84 | `ear_clipping` on simple polygons | invariant (`Props/EarSimple.lean`): the remaining polygon is simple and counter-clockwise and the corners cut off are outside; it always has an ear, so never all corners are rejected; proved. With collinear corners or clockwise order it fails, see C38 and `c84_clockwise` |
| C85 | `PathBuilder` and the import of SVG paths (path_builder.rs, svg.rs) | model `Model/PathBuilder.lean`: the builder's fields with the mesh, `none` for `IndexType::max()`; its transformation is left out, since nothing public changes it; positions are compared exactly (no NaN). Invariant (`Lemmas/PathState.lean`): the mesh is the old one plus a path. Proved for paths that return to their start explicitly (`c85_polygon_partial`, `c85_svg_loop_partial`); violated for all others, see section 5 |
| C86 | `vertices_2d`, `vec2s`, `as_polygon` (face3d.rs:123-148) with `from_rotation_arc` of both math libraries | model `Model/Face2d.lean`: real numbers; nalgebra's `rotation_between` and glam's `from_rotation_arc` are modelled as documented, with their thresholds. Both give the same matrix away from the z axis; the rows are orthonormal, so corners have the new coordinates in an orthonormal frame (`LaidOut`). Proved with Bevy (up to `1 - 2 eps` next to the z axis, `c86_bevy_near`); nalgebra panics on normals opposite to the z axis, see section 5 |
| C87 | `has_self_intersections`, `is_simple` (face3d.rs:55-75) | model `Model/SelfIntersect.lean`; exact characterisation of what is found (`c87_iff`); nothing is reported on simple polygons (`c87_simple`, `c87_face`); crossings in corners, overlaps and small polygons are missed, see section 5 |
| C88 | `triangulate_face` and the functions it calls with a mesh (tesselate/mod.rs:70-125, fixed_n.rs, convex.rs, ear_clipping.rs, min_weight_dynamic.rs, sweep/mod.rs) | model `Model/TriangulateFace.lean`, spec `Spec/TriangulateFace.lean` (tiling of a polygon in space); planar faces are laid out (`c88_laid`), triangles (`c88_triangle`), the minimum-weight triangulation (`c88_min_weight`) and the fan (`c88_fan`) tile; exact condition for quadrilaterals (`c88_quad`); area of whatever is emitted for arbitrary faces (`c88_area`); darts, ears and the missing algorithms: section 5 |
| C89 | `delaunay_triangulation` (tesselate/delaunay.rs), `triangle_touches_boundary` (halfedge/face/mod.rs:98-126) | model `Model/DelaunayFace.lean`; the triangulation computed by the crate `spade` is a parameter, `Spec/DelaunayFace.lean` says what is assumed of it; angles at a corner and the winding number: `Lemmas/Cone.lean`, `Lemmas/Angle.lean`; all triangulations of convex polygons are inside: `Lemmas/ConvexInner.lean`; the triangles inside are kept, the others dropped, and all four checks pass (`c89_delaunay_partial`), also through `triangulate_face` (`c89_face_partial`), for convex faces without assumptions on the triangulation (`c89_convex_partial`) |
| C90 | `triangulate` (mesh/mesh/triangulate.rs) | model `Model/Export.lean`, what the buffers should show: `Spec/Export.lean`; proved for meshes whose vertices are numbered without gaps, given proper triangulations of the faces (`c90_partial`), which C88 and C89 supply (`c90_min_weight_partial`, `c90_fan_partial`, `c90_auto_partial`); fails with gaps (`c90_fails`) |
| C91 | `triangulate_and_generate_flat_normals_post` (mesh/mesh/triangulate.rs) | `Props/Export.lean`; for all consistent meshes, also with gaps (`c91_flat`, `c91_min_weight`) |
| C92 | watertightness of the triangles of `triangulate` | the sides of the faces and the boundary cancel because of twins (`faces_net` in `Lemmas/Export.lean`), hence so do those of the triangles if each face bounds its own (`c92_closed`); no assumption on positions (`c92_algorithms_partial`); for ear clipping exactly if no edge has a face with five or more corners on one side only (`c92_ear`), so it fails (`c92_ear_fails`) |
| C93 | `polygon`, then `triangulate` | `Spec/Pipeline.lean` (`Draws`); construction leaves no gaps in the stores (`Lemmas/NoGaps.lean`, also `c90_programs`), so C90 applies; `Props/Pipeline.lean` (`c93_min_weight_partial`, `c93_fan_partial`) |
| C94 | `regular_polygon`, `regular_star` (primitives/polygon.rs) | model `Model/RegularPolygon.lean`; polygons around the origin in `Lemmas/Radial.lean`, polygons in a plane of space in `Lemmas/FramePolygon.lean`; regular polygons completely (`c94_regular`, `c94_regular_export`), stars: `c94_star`, `c94_star_export_partial`, `c94_symmetric` |
| C95 | `random_star` (primitives/misc.rs) | the radii are arbitrary positive numbers; `Props/RandomStar.lean` |
| C96 | `transform`, `translate`, `rotate`, `scale` of meshes (mesh/transform.rs), of payloads and of curved edges | model `Model/MeshTransform.lean`; cofactors and determinants in `Lemmas/Linear3.lean`; `Spec/MeshTransform.lean` (`Watertight`, `meshVolume`); `Props/MeshTransform.lean` |
| C97 | transformations of `BevyVertexPayload3d` and `VertexPayloadPNU` | `KeepsNormals` says when a transformed normal is right; exact conditions for every function of both backends (`c97_nd_iff`, `c97_bevy_iff`, `c97_bevyScale_iff`, `c97_ndScale_iff`) |
| C98 | `generate_smooth_normals` (mesh/normals.rs) | model `Model/SmoothNormals.lean` with Kahan summation; `Spec/SmoothNormals.lean` (`around`, `smoothNormal`) |
| C99 | `triangulate`: the volume of what is exported | `Props/ExportVolume.lean` (`c99_volume` from `Shows`, C90; `c99_triangles`) |
| C100 | `triangulate` of the solids of primitives/ | `Spec/ExportSolid.lean` (`Encloses`); `Lemmas/NoGapsLoft.lean`, `Lemmas/NoGapsSubdivision.lean` (the constructions leave no gaps in the numbering of the vertices), `Lemmas/Fine.lean` (polygons that are triangulated properly), `Lemmas/AddsFaces.lean`; `Props/ExportSolid.lean`, `Props/ExportShapes.lean` |
| C101 | mesh/mesh/fonts.rs (`layout_text`, `draw_glyph_outlines`) | `Model/Fonts.lean` (the crate `ab_glyph` is a parameter: outlines, advances, kerns, factor of the outlines); `Spec/Fonts.lean` (`Contour`, `Ring`, `Inked`, `penPos`, `textContours`); `Lemmas/Ring.lean` (isolated edge, further vertices, closing with `close_face_vertices`); `Props/Fonts.lean` |
| C102 | mesh/mesh/basics.rs (`flatten_curved_edges`, `has_curved_edges`), edge/curved.rs (`flatten_casteljau`), extensions/*/mesh2d.rs (`to_3d`, `to_nd`) | `Model/Flatten.lean` (the curve of a half-edge is part of its payload, `CurveKit`); `Spec/Flatten.lean` (`Flattened`, `sidePts`, `TwoEach`, `OneSided`); `Lemmas/SplitLoop.lean` (what splitting an edge does to the loops); `Props/Flatten.lean` |
| C103 | C101, C102, C25, C90 combined | `Spec/TextMesh.lean` (`Contour.polyline`); `Props/TextMesh.lean` (flattening a reversed curve, contours stay separate rings, faces after the conversion, export) |
| C104 | `cartesian`, `spherical` | `Model/Spherical.lean`; `Spec/Spherical.lean` (`Proper`); `Props/Spherical.lean` |
| C105 | `slerp`, its assertions | `Model/Sphere.lean` (`slerp`), `Model/Spherical.lean` (`slerpRun`); `Spec/Spherical.lean` (`GreatArc`); `Props/Spherical.lean` |
| C106 | `angle_between` in dimension 2 and 3 | `Model/DelaunayFace.lean` (`angleBetween`), `Model/Spherical.lean` (`angleBetween3`); `Spec/Spherical.lean` (`TurnsTo`); `Props/Spherical.lean` |
| C107 | `import_group`, `import_svg` after parsing; C85, C102, C103 combined | `Model/Svg.lean`; `Spec/Svg.lean` (`SvgNode.leaves`, `TracesLoop`, `Contour.reverse`); `Props/Svg.lean` |
| C108 | `generate_zigzag`; its corners as the sweep classifies them; the polygon as a mesh | `Model/Zigzag.lean`; `Spec/Zigzag.lean` (`zigzagCorners`, `zigzagType`); `Props/Zigzag.lean` |
| C109 | `DeletableVector` with indices of a bounded type and the sentinel `IndexType::max()`; refinement of `Model/Store.lean` | `Model/IndexedStore.lean`; `Spec/IndexedStore.lean` (`IStore.abs`, `IStore.Consistent`); `Props/IndexedStore.lean` |
| C110 | `bevy_indices`, `bevy_remove_attributes`, `bevy_set_ex`, `to_bevy_ex` | `Model/BevyExport.lean`; `Spec/BevyExport.lean` (`Holds`); `Props/BevyExport.lean` |
| C111 | `pair_edges` and the `Debug` output of a mesh, as data instead of text | `Model/Winged.lean`; `Spec/Winged.lean` (`Winged.Describes`, `ListsEdges`, `SameTopo`); `Props/Winged.lean` |
| C112 | the sweep with the linear triangulator (model of C53), on simple polygons with merges and several tops, and the faces of a mesh | spec of C80 and C83 (winding number, triangles that do not overlap); `Lemmas/SweepOrder.lean`, `SweepChain.lean`, `SweepTotal.lean`, `SweepWind.lean`, `SweepRun.lean`, `SweepSplit.lean`, `SweepGrow.lean`; `Props/SweepSimple.lean`, `Props/SweepFace.lean`, `Props/SweepSplit.lean` |
| C113 | `Model/Box.lean` (examples/box.rs, `is_isomorphic_by_pos`); `cuboid_from_edges` is `todo!()` and left out | `Spec/Box.lean` (corners, outward sides, `IsBox`); `Lemmas/Box.lean` (the meshes do not depend on the payloads; evaluated by the kernel with variables as payloads), `Props/Box.lean` |
| C114 | `Model/FlipAll.lean` (`flip`, `flipped` of a mesh) | `Spec/FlipAll.lean` (`Reversed`, `NoTips`); `Props/FlipAll.lean` (by induction over the list of edges: the mesh with some edges turned is the original one with the ids of these edges and their twins exchanged) |
| C115 | `Model/Queries.lean` (`is_boundary`, `degree`, `faces`, `other_face`, `centroid`) | `Spec/Mesh.lean`; `Props/Queries.lean` (half-edges grouped by vertex and by face) |
| C116 | `Model/FlipYZ.lean` (swizzles, `flip_yz`) | `Spec/FlipYZ.lean` (axes and parity of a swizzle), `Spec/Face3d.lean` (area vector, volume); `Props/FlipYZ.lean` |
| C117 | the sweep (model of C53), for every lawful triangulator and interval search | `extremes` (local maxima and minima by turn) and `IsTriangulation`; `Lemmas/Turning.lean` (cutting off ears takes away one horizontal direction at a time), `Lemmas/SweepTurn.lean`, `Props/SweepTurn.lean`, `Props/SweepTurnAll.lean` (the Delaunay and dynamic triangulators; tilings) |
| C118 | `loft_tri_back`, `loft_tri_back_closed` (`Model/Loft.lean`, loft.rs:22-78) | `Grow`, `backFaces`, `shiftFaces` (`Spec/Loft.lean`); `Lemmas/LoftTriBack.lean`, `Props/LoftTriBack.lean` |
| C119 | vectors of the nalgebra backend in D dimensions (vec_n.rs, vector.rs:79-98), `BevyVertexPayload2d`, `Vec4` with `Mat5` (`Model/VecN.lean`) | Mathlib's Euclidean space and angle; `Props/VecN.lean` |
| C120 | `next` and `size_hint` of the half-edge iterators as state machines (`Model/EdgeIter.lean`) | the lists of C15 and C16; `Props/EdgeIter.lean` |
| C121 | `outgoing_boundary_edge`, `ingoing_boundary_edge` (`Model/Mesh.lean`, mesh/vertex/halfedge.rs:14-55) | stated in the theorems; `Props/EdgeIter.lean` |
| C122 | `NdRotate` (`Model/Rotate.lean`, rotate.rs:7-116); `Rotation2` and `Rotation3` follow the source of nalgebra | `IsRotation`, cross product; `Props/Rotate.lean` |
| C123 | `OrderedFloats`, `EventPoint`, `SLISorter` as orders, with NaN (`Model/Orders.lean`) | `LawfulOrd`, `SideBySide`, `Sorter.Has` (`Props/Orders.lean`) |
| C124 | find_by_position, find_btree, init_btree, tree_sanity_check, the tree in insert and remove_left (`Model/BTree.lean`); a `BTreeSet` is the list of its elements in order | `CutAt`, `IntervalsApart`, `TreeOf` (`Props/BTree.lean`); left edges are not horizontal |
| C125 | IntervalBoundaryEdge::beam (`Model/Beam.lean`) | the line through two points, in `Props/Beam.lean` |

## 4. Trusted base

* The Lean 4 kernel, and the axioms `propext`, `Classical.choice`, `Quot.sound` (no others; no
  `native_decide`, no `sorry`).  The exact axioms per theorem are those reported by the gate.
* The transcription of the Rust text into Lean (cited line by line), in particular the conventions of section 1.
* Not modelled: floating point, hash iteration order, index overflow, rendering back ends, SVG/bevy/wgpu
  glue, `spade`-based Delaunay triangulation, random number generation (treated as arbitrary choice).

## 5. Disagreements between code and properties

(kept up to date below as they are proved)

* **C08 (insert_edge inside a face).** Both new half-edges are created without a face, so as soon as one of the two corners lies
  in a face, successor and predecessor disagree about the face. `c08_never_consistent` proves this for every mesh, `c08_witness`
  gives a quad with a diagonal that passes all debug assertions.
* **C13 (flip_edge).** Only holds for edges without a dangling tip; `c13_dangling_corrupts` shows a single isolated edge whose
  half-edges become their own successors. The property text has the restriction.
* **C19 (check).** The checker accepts meshes with two separate wheels at one vertex (`c19_two_wheels`), with two loops claimed by
  one face (`c19_two_loops`), and with half-edges that are their own twins or whose vertex denies having edges (`c19_self_twins`).
  `c19_missing` lists exactly the conditions that would have to be tested in addition.
* **C22 (insert_dihedron).** Closes the already closed side a second time: always panics in debug builds (`c22_debug_panics`), and in
  release builds always leaves an inconsistent mesh with the outer side still open (`c22_release_corrupts`).
* **C23 (insert_vertices_into_edge).** The rotation around the origin is rebuilt as if the origin had only two edges: the result is
  consistent iff that is the case (`c23_consistent_iff`). The returned half-edge starts in the last new vertex, not in the previous
  origin as documented (`c23_returned`).
* **C24 (fill_hole_apex).** Stops when the boundary walk comes back to the start *vertex*, so a hole that touches its start vertex twice
  is only partly filled (`c24_pinched`).
* **C25 (import_mesh).** Not a violation of the stated property, but the import panics on isolated vertices (`c25_isolated_panics`) and
  always clears the `curved` flag of faces (visible in `Renamed.face`).
* **C29 (laplacian_matrix, Euclidean).** Subtracts the weighted adjacency from the unweighted degree: a row sums to degree minus total
  weight (`c29_partial`), e.g. -1 for both ends of an edge of length two (`c29_nonzero_rows`).
* **C30 (equal_up_to_rotation).** Two empty lists compare as different (`c30_empty`).
* **C31 (is_trivially_isomorphic_ex).** Origins and targets of the other mesh's edges and its face loops are looked up in `self`. Stars
  with a different cyclic order of their leaves are reported equivalent (`c31_mirrored_star`).
* **C33 (dense_vertices).** Opens the triangulation behind the given indices, so that `map_indices` has nothing to map: with deleted
  vertices the returned indices still name the old slots (`c33_sparse`, `c33_stale_index`).
* **C35 (Triangulation::flip_edge).** If a stored triangle names a corner twice the wrong occurrence may be rotated to the front
  (`c35_repeated_corner`); the property text is restricted to triangles with three different corners.
* **C36 (verify_*).** With `start > 0` the checks run over `start..len` where `0..len` is meant: `c36_skips_all`, `c36_skips_pairs` (nothing is
  checked if enough was in the buffer), `c36_negative_triangle`, `c36_panics` (a correct triangulation is rejected by a panic). The area
  check accepts everything up to twice the area (`c36_area`), e.g. no triangle at all (`c36_wrong_area`).
* **C46 (is_inside_triangle).** `is_positive`/`is_negative` are documented as strict but read the sign bit, so +0.0 is positive: the boundary
  belongs to counter-clockwise triangles only (`c46_plus_zero`, `c46_orientation_dependent`).
* **C38 (ear_clipping_direct).** After two successful steps without progress in between the loop cuts off whatever corner comes next, so that a
  reflex corner may be cut (`c38_not_an_ear`, also with strict sign tests `c38_not_an_ear_strict`). With a vertex on a side of a quadrilateral it
  panics (`c38_panics`).
* **C39 (orientation).** Ear clipping emits `(c, b, a)` for the corners `a, b, c`: all triangles are reversed (`c39_ear`), unlike the triangles
  of the other triangulators.
* **C42 (min_weight_quad).** In the branch where 0-2 is the shorter diagonal the convexity tests have previous and next vertex swapped. In a counter-clockwise
  quadrilateral the longer diagonal is used even though the shorter one is inside (`c42_swapped`, `c42_longer`), and a diagonal outside a dart is used
  (`c42_outside`). The source has a comment doubting exactly these tests.
* **C44 (SweepLineStatus).** Inserting an interval whose left key is in use overwrites the old interval but leaves its right key, which then leads to
  the new interval (`c44_collision`). The sweep never does that (`c44_sweep`).
* **C53 (sweep-line triangulation, linear triangulator).** `last_opposite` unwraps `last_right`, which is still `None` if the interval has seen only
  left vertices since it was started: the sweep panics at a split vertex below a left vertex (`c53_panics`, pentagon; `c53_no_opposite`).
* **C50 (transforms).** The documentation of `chain` says "First apply the left transformation, then the other". NdAffine does (`c50_nd_partial`);
  Mat5 (`c50_mat5_order`), Affine2 (`c50_glam_order`) and Transform (`c50_bevy_order`) apply the right one first. The documentation of `with_scale` says that everything
  is scaled, also previous translations: Mat5 and Transform leave the translation alone, and NdAffine multiplies the scale on the wrong side of the linear part
  (`c50_nd_scale`). For Transform, `with_translation` replaces the translation, `apply_vec` translates, and `chain` is no composition at all when a non-uniform scale meets a
  rotation (`c50_bevy_not_composition`; this is how Bevy's Transform multiplies). The meaning of glam's and Bevy's own operations is taken from their documentation.
* **C54 (flatten_casteljau).** The recursion stops when the point at the middle parameter is near the middle of the chord. For an S-shaped cubic edge that holds
  whatever the bound, so that the edge is replaced by its chord (`c54_s_curve`).
* **C57 (loop_subdivision with boundary).** The boundary half-edge of a subdivided edge is never split: the half-edges on the other side keep the old twin. After subdividing a single
  triangle there are 15 half-edges, twins are not mutual and `check` fails (`c57_boundary`). For closed triangle meshes everything is proved.
* **C61 (loft_polygon).** The documentation promises faces with `n` new and `m` old vertices for all `n, m >= 2`, but the loop asserts `n == 2` and `m == 2` ("only provisory impl"), so every
  other call panics (`c61_refused`).  For `n = m = 2` the hem is right, but the returned half-edge runs from the first new vertex to the second and not, as documented, from the second to the first
  (`c61_returned`; the statement of `c61_loft_polygon_partial` says it for all meshes).
* **C66 (dodecahedron).** The second row of pentagons is attached to the half-edge from vertex 1 to vertex 0. `polygon` puts the face on that side, so that it is not a boundary half-edge. Debug builds
  panic in an assertion; release builds make the first two faces share one loop of half-edges and leave the outside of the first pentagon open (`c66_dodecahedron_false`). The playground
  has the comment "TODO: crash?" next to it.
* **C67 (insert_antiprism, cylinder).** `insert_antiprism` asks for the face of the half-edge returned by `insert_polygon`, which is the boundary half-edge: `expect` always panics
  (`c67_antiprism`). `insert_frustum` ends with `assert!(!smooth)`; `cylinder` passes `true` and always panics (`c67_smooth_frustum`).
* **C68 (extrude_boundary).** It looks only at the twin of the representative half-edge of each face. A tetrahedron with one face removed is left unchanged if no other face is represented by an edge of
  the hole (`c68_extrude_boundary_false`). Loops that do contain the twin of a representative are closed (`c68_extrude_boundary`).
* **C69 (geodesic_tetrahedron).** It passes its radius to `regular_tetrahedron` as the edge length and then only moves the vertices made by the subdivision to the sphere. For every radius and every number of
  subdivisions the four old corners are at distance `√(3/8)·radius` (`c69_tetrahedron_false`); all other vertices are on the sphere (`c69_tetrahedron_partial`).
* **C72 (is_planar, is_convex).** `is_planar` multiplies the distance from the plane of the first three vertices with twice the area of their triangle. If they are collinear every face is accepted
  (`c72_planar_collinear`, `c72_planar_false`), and so is every face that is small enough (`c72_planar_scale`). `is_convex` compares the direction of neighbouring corners only with `all_equal`: a star,
  where they alternate, counts as convex, passes the debug assertions of the fan triangulation and of `normal_naive`, and gets a normal in the wrong direction (`c72_convex_false`). Planar and strictly convex faces are recognised.
* **C73 (uniform_antiprism).** The height is the height of an equilateral triangle, but the lateral triangles lean inwards. The lateral edges are longer than the sides of the polygons for every radius and
  every number of sides (`c73_uniform_antiprism_false`). `regular_antiprism` and the prisms are as documented.
* **C75 (circumcircle_contains).** On the circle the determinant is zero and `is_positive` is true for +0.0. Both diagonals of a quadrilateral with a common circle, for example a square, count as illegal
  (`c75_both_flipped`). Only the set `seen` keeps `legalize_triangle` from flipping for ever; the source doubts that it is needed (delaunay.rs:146).
* **C76 (Delaunay sweep).** `last_opposite` has the fault described under C53: a sweep over a simple pentagon panics (`c76_panics`). The triangulator itself never panics on a chain of different vertices.
* **C79 (dynamic-programming sweep).** `last_opposite` has the fault described under C53: the sweep over the same simple pentagon panics (`c79_panics`).
* **C80 (contains).** On the sides of a polygon the answer depends on the side and on the sign of zero (last example of `Props/Contains.lean`).
* **C81 (valid_diagonal).** The tolerance is compared with the cross product of the two segments, an area. If the polygon is smaller than about 2⁻¹² all segments count as parallel, no crossing is found, and a diagonal whose middle is inside is valid although it leaves the polygon (`c81_tiny`).
* **C85** (path_builder.rs, svg.rs): `close` is documented to draw a straight line to the start of an open path. It sets
  `closed` before calling `line_to`, which asserts that the path is not closed, so closing an open path of one or more
  strokes always panics (`c85_open_panics`), and `close` never draws an edge in any state (`c85_close_never_draws`).
  Hence the import of an SVG path written `M … L … Z` without the last side panics (`c85_svg_open_panics`), as does any
  path with a second subpath (`c85_svg_subpaths_panic`). `start_at_edge(e)` is documented to have `e` outside the created
  face, but the face is created on `e` (`c85_start_at_edge`). Returning to a start vertex that already had edges panics in
  debug builds and corrupts the mesh in release builds (`c85_existing_start`).
* **C86 (rotate.rs:104-111).** With nalgebra, `Rotation3::rotation_between` returns `None` for opposite vectors and
  `from_rotation_arc` unwraps it. So `vertices_2d`, `vec2s`, `as_polygon`, and with them (but for fans of more than six) all triangulations of faces with
  four or more vertices, panic on exactly the faces whose normal is opposite to the z axis (`c86_nalgebra_panics`,
  `c86_nalgebra_face_panics`), e.g. on a clockwise square in the XY plane. Bevy's version is correct (`c86_bevy`). Both
  replace the rotation by a projection if the normal is within rounding of the z axis, which shrinks the polygon by at most
  the stated factor (`c86_nalgebra_near`, `c86_bevy_near`).
* **C87 (face3d.rs:55-70).** To exclude neighbouring sides, the test asks for a crossing that is at least `EPS` (as a
  fraction of the length) away from the ends of both sides, and it ignores pairs of sides whose directions span at most
  `EPS`. So a figure eight that crosses itself in a corner and polygons with overlapping sides are reported as simple
  (`c87_missed`), and so is every polygon that is small enough (`c87_small`). What is reported is always a proper crossing
  of two sides that are not neighbours (`c87_sound`).
* **C88 (tesselate/mod.rs:70-125).** Quadrilaterals never reach the algorithm that was asked for: they go to
  `min_weight_quad`, so the fault of C42 affects all of them. The triangles tile a simple face if and only if the diagonal
  1-3 is inside or shorter than the other one (`c88_quad`), and a dart is not tiled although the other diagonal would do
  (`c88_quad_fails`, `c88_quad_tiled`). Ear clipping tiles the simple faces with five or more corners, but with triangles
  that face the other way (`c88_ear_partial`, C39); with three or four corners they face the right way. `EdgeFlip` and
  `Heuristic` are `todo!()` from five corners on (`c88_todo`). The sweeps may panic (C53); what they return has the
  right boundary (`c88_sweeps_partial`).
* **C89 (tesselate/delaunay.rs:45-70, halfedge/face/mod.rs:98-126).** Whether a triangle is inside the face is decided by
  the first of its sides that is an edge of the mesh: it is inside if the edge belongs to the face. But an edge between two
  corners need not be a side of the face, it may belong to other faces only. In a two-sided convex hexagon the back of
  which is split by an edge, the middle triangle of the Delaunay triangulation of the front is dropped: there is a hole
  without debug assertions and a panic with them (`c89_fails`). Without such edges the choice is right
  (`c89_delaunay_partial`).
* **C90 (mesh/mesh/triangulate.rs:14-32, halfedge/mesh/basics.rs).** `triangulate` returns the indices of
  `dense_vertices`, which are wrong if the store of vertices has gaps (see C33): the triangle on the vertices 1, 2 and 3 of
  a mesh the vertex 0 of which was deleted has the indices 1, 3, 2 into a vertex buffer of length three (`c90_fails`). No
  function of the repository deletes a vertex, so the mesh of the witness is given directly. Without gaps C90 holds
  (`c90_partial` and its corollaries). Flat shading does not use `dense_vertices` and is right for all meshes (C91).
* **C92 (tesselate/ear_clipping.rs, mesh/mesh/triangulate.rs).** Ear clipping turns the triangles of faces with five or
  more corners (see C88), but triangles and quadrilaterals are handled before and keep their orientation. So the triangles
  of a closed pyramid over a pentagon are not a closed surface (`c92_ear_fails`): at the sides of the base both triangles
  have the same direction. `c92_ear` says for which meshes they are closed. The other algorithms are right
  (`c92_algorithms_partial`, `c92_auto_partial`).
* **C93 (tesselate/fixed_n.rs, math/impls).** The restrictions are those of C86 and C88: with nalgebra the normal must not
  be (almost) opposite to the z axis, with Bevy not almost parallel to it; a quadrilateral that is not convex must be dented
  at the right diagonal.
* **C94 (primitives/polygon.rs:43-65).** The radius of a corner of a "regular star" depends on the parity of its number, so
  with an odd number of corners the first and the last corner have the inner radius: the star is not regular
  (`c94_odd_not_symmetric`; `c94_symmetric` says exactly when it is). Its area follows from `starSum`. If the inner radius is
  the cosine of the step times the outer one, the star is straight at its inner corners (`c94_straight`), which the
  triangulations exclude.
* **C95 (primitives/misc.rs:30-46).** The comment in the source asks which direction the star should have. `random_star`
  goes counter-clockwise, `insert_regular_star` clockwise; since `insert_polygon` turns the polygon, random stars face
  downwards (`c95_faces_down`). With nalgebra the rotation of such a face does not exist, and the triangulation panics:
  with minimum weight for all stars with at least four corners, with any algorithm if there are four to six
  (`c95_nalgebra_panics`). With Bevy the export is right (`c95_export_partial`).
* **C96 (mesh/mesh/transform.rs).** A scale with a negative determinant mirrors the mesh but does not turn its faces around,
  so a mesh with positive volume becomes inside out (`c96_inside_out`). `rotate` of the two-dimensional Bevy payload is
  `todo!()` and not modelled.
* **C97 (extensions/bevy/vertex_payload_3d.rs:45-51, extensions/bevy/math/vec3.rs:177, extensions/nalgebra).** `transform` of
  the Bevy payload applies `apply_vec` to the normal, which for Bevy's transforms also translates: any translation ruins
  the normals (`c97_bevy_translation`). `scale` leaves normals alone (Bevy) or multiplies them by the factors (nalgebra),
  whereas they should be divided and normalised; the exact conditions under which the normals stay right are
  `c97_bevy_iff`, `c97_nd_iff`, `c97_bevyScale_iff` and `c97_ndScale_iff` (`c97_scale` has witnesses).
* **C98 (mesh/mesh/normals.rs).** The mean over no faces is 0/0: the normal of a vertex without faces is NaN
  (`c98_no_faces`). If the normals around a vertex cancel, the result is zero or NaN (`c98_zero`). `generate_flat_normals`
  is `todo!()`.
* **C100 (extensions/nalgebra/math/rotate.rs:104-111).** With nalgebra's rotations no cuboid can be triangulated, by any algorithm:
  the normal of the bottom face is opposite to the Z axis, and the rotation between opposite vectors does not exist
  (`c100_cuboid_nalgebra`; compare C86). With Bevy's rotations cuboids (`c100_cuboid_partial`, `bevy_axes`) and prisms
  over polygons in the XY plane (`c100_flat_prism`) are exported properly.
* **C101 (mesh/mesh/fonts.rs:138-152).** The curve that closes a contour is put on the third value returned by
  `close_face_vertices`, which is the half-edge *outside* of the face, from the start to the last vertex, but the control points
  are not swapped. For lines and quadratic curves this makes no difference (`c101_contour_partial`); a cubic curve at the end of a
  contour is drawn with its control points exchanged (`c101_cubic_violated`, `c101_cubic_points`), so every OpenType/CFF glyph
  that ends with a curve is distorted.
* **C101 (fonts.rs:138).** A contour of two curves panics in debug mode (`c101_two_curves`); a contour of one curve is never closed,
  and all contours after it are attached to it and not filled (`c101_one_curve`). Inner contours are filled like outer ones
  instead of cutting holes (`c101_hole`; there is a TODO in the code).
* **C101 (fonts.rs:51, 90-96).** Outlines are multiplied by `pt_to_px_scale(scale) / height`, advances by `scale / height`. With what
  `ab_glyph` documents these agree only if the height of a line is 3/4 of the em square (`c101_scales`); in common fonts
  (height at least 1 em) glyphs are drawn at least a third too large for their spacing. The crate is not in /repo, so the formulas
  of `pt_to_px_scale` and `as_scaled` are an assumption here.
* **C102 (mesh/mesh/basics.rs, `flatten_curved_edges`).** The inner points are inserted with `insert_vertices_into_edge`, which is only
  right if the origin of the half-edge has exactly two edges (C23). For a mesh with one curved half-edge the result is consistent
  exactly in this case (`c102_degree_iff`; witness `c102_degree`): flattening a curved edge between two faces with further neighbours
  destroys the connectivity.
* **C102.** Only the half-edge that is flattened becomes linear. If the twin carries the curve as well, it is flattened a second time between
  the last inner point and the end, with the control points of the whole curve: the new points are not on the curve (`c102_two_sided`).
* **C102 (extensions/bevy/mesh2d.rs, `TODO: flatten_curved_edges seems to miss some edges?`).** A curve that is flat enough to get no inner points
  keeps its curve type, so `has_curved_edges` stays true after flattening (`c102_left`); this is why the assertion after the call fails and was commented out.
  The curves that are left are exactly those without inner points (`c102_flatten_partial`), so nothing is lost.
* **C103.** The outer contours of TrueType glyphs run clockwise, so the faces of a text face downwards. With nalgebra's `rotation_between`
  such faces have no rotation (C86), and exporting a text whose contours have four or more corners panics (`c103_nalgebra_panics`);
  with Bevy's rotations the export shows the polygons (`c103_export_partial`). That TrueType outlines are clockwise is a fact about fonts, not about /repo.
* **C105.** Vectors whose angle is below `EPS.sqrt()` are not interpolated: the result is the first vector for every parameter, although the
  comment says "return linear interpolation" (`c105_close`, `c105_close_false`). For opposite vectors the function divides by `sin(π)`
  (`c105_opposite`). The assertion "slerp requires normalized vectors" has no absolute value: it accepts every vector of length at most 1,
  for which the result is no unit vector (`c105_assert_short`, `c105_assert_false`).
* **C107.** The import of a document panics if it contains a text or an image (`c107_other_panics`), a path of several contours
  (`c107_subpaths_panic`) or a path that leaves its last line to `Z` (`c107_open_panics`). The transformations of groups and paths are
  ignored (`svg.rs:48` is commented out), so that moved paths are drawn where they were (`c107_transform_ignored`, `c107_transform_violated`).
  That `usvg` leaves the coordinates of a path as they are and reports the transformation separately is a fact about `usvg`, not about /repo.
  The polygons run opposite to the paths (`c107_reverse`), so that a counter-clockwise path faces downwards.
* **C108.** The assertion of `generate_zigzag` accepts 2, for which it divides by `n / 2 = 0`, so that the corners are no numbers (`c108_two`).
  The polygon is listed counter-clockwise, so that the face which `insert_polygon` makes of it looks downwards (`c108_mesh`).
* **C110.** The conversion panics for 64-bit indices (`c110_wide_panics`), for a usage without `MAIN_WORLD`, so that `to_bevy` cannot make a mesh for the render
  world only (`c110_usage_panics`, `c110_render_world_panics`), and with flat normals if the corners of all faces are more than the index type
  has numbers although the vertices are not (`c110_flat_panics`). The texture coordinates of the vertices are not exported (`c110_uv_violated`).
* **C111.** Printing a mesh in which the twin of a half-edge is deleted panics, since `pair_edges` looks up the twin before the check is made; the error that the output
  should show is never seen (`c111_dangling_panics`). Not modelled, as it is only text: the `Debug` output of a single half-edge contains its payload twice (src/halfedge/edge/mod.rs:56-78).
* **C112.** Proved for polygons without split corners; with splits, if every corner that is higher than its neighbours is clearly a start or a split, exactly for those polygons on which the sweep never comes to a split
  that does not see the left chain which it has to close (`c112_exact`). It follows that on such a polygon a run without panics and without clockwise triangles gives a triangulation (`c112_checked_partial`). With a split below a merge, on a simple polygon in general position, the sweep ends without a panic but emits a clockwise triangle
  that overlaps the others (`c112_clockwise`). The cause is src/tesselate/sweep/sweep.rs:129-139: the fixup of a merge is the chain of the part to the right of the merge,
  so the split corner is its next vertex on the left; it is added on the right, the fixup is finished, and a new chain begins at its last opposite vertex, which the corner need not see.
* **C114 (flipping a mesh with a dangling end).** `flip` turns the edges one by one with `HalfEdge::flip`, so it inherits the fault recorded under C13: an edge with a dangling end (the successor of a half-edge is its own twin) gets linked to itself. `c114_dangling` shows the isolated edge; on all consistent meshes without dangling ends the property holds (`c114_flip_partial`, `c114_twice_partial`, `c114_iso_partial`, `c114_by_pos_partial`).
* **C60 (the returned half-edge of `loft_tri`).** loft.rs:85 promises "the edge pointing from the first inserted vertex to the target of `start`"; it is the half-edge from the first inserted vertex to the *origin* of `start` (`c60_not_target`; the sentence is copied from `loft_tri_back`, where it holds, C118).
* **C119 (`normalize` of the zero vector).** vector.rs:61 promises "Panics if the vector is the zero vector"; the nalgebra backend returns the zero vector, whose length is not 1 (`c119_normalize_zero`). For other vectors the result has length 1 (`c119_normalize_partial`). `rotate` of the payload in the plane is not implemented and always panics (`c119_payload2d_rotate`).
* **C120 (size hint of a started iterator).** edge/iterator.rs:56-64 counts the current half-edge even if it was already yielded. From the first call of `next` on, `size_hint` of `ForwardEdgeIterator`, and with it `len` of the `ExactSizeIterator`, is one too large on every mesh; an exhausted iterator still claims one half-edge (`c120_size_hint_partial`, `c120_not_exact`). On a new iterator, the only use in the repository, it is exact.
* **C121 (inner vertices).** In debug builds `outgoing_boundary_edge` and `ingoing_boundary_edge` panic at every inner vertex instead of returning `None` (`c121_inner_panics`): the assertion demands exactly one boundary half-edge. The exact result in both builds is `boundaryEdge_eq`; release builds are as documented (`c121_boundary_edge_partial`).
* **C123 (laws of `Ord`).** `EventPoint` compares heights only in `==` but also the x-coordinate in `cmp` (point.rs:43-83), so two events at the same height are equal and yet ordered (`c123_events_unlawful`). NaN compares as equal to everything in `EventPoint` and `OrderedFloats`, hence `cmp` is not transitive, and NaN is not `==` to itself although `Eq` is implemented (`c123_ordered_floats_nan`). `SLISorter` is not transitive for segments that cross, and compares indices in `==` (`c123_intervals_unlawful`). On numbers and on segments side by side all three are total orders (`…_partial`); descending segments without a common point are side by side (`c123_disjoint`); the sweep only uses `cmp`.
* **C124 (debug assertion in find_btree).** status.rs:240-250 asserts that the search in the tree and the linear search give the same interval before it checks that the interval contains the position. For a position to the right of an interval that lies in no interval, the tree gives the nearest interval to the left and the linear search gives none: debug builds panic (`c124_debug_panics`), whereas release builds return `None`, as documented, and try_split (sweep.rs:119-126) has a branch for it.
* **C125 (bound of the beam).** The comment at interval.rs:36 says that the beam is meant for y >= c, and c is the height of the start. The sweep line moves downwards, so all heights of an edge are at most c (`c125_beam_bound`). The line itself is right (`c125_beam_partial`). The function is not used.
