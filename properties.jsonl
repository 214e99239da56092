{"id": "C01", "title": "Ids handed out by the element store stay valid and never alias", "statement": "Whatever sequence of push, delete, reserve-then-fill, overwrite and clear operations is performed on the element store, looking up an id returns exactly the value last stored under that id while that id is live, fails when the id was deleted (or never created), and the id returned for a new element is never the id of an element that is still live (so storing a new element never changes what any other id refers to).", "quantifier": "for every finite sequence of store operations, every id and every element type", "why_tests_cant": "Aliasing of recycled ids depends on the interleaving of deletions and insertions; the interleavings are unbounded and a test only samples a few.", "anchors": ["src/util/deletable.rs:DeletableVector::{new,clear,get,has,push,set,delete_internal,allocate}"]}
{"id": "C02", "title": "Reported element count equals the number of elements that can be iterated", "statement": "After any sequence of store operations in which every reserved slot has been filled, len() equals the number of elements produced by the iterator and every produced element is found under its own id; while r reserved slots are still unfilled, len() exceeds the number of iterated elements by exactly r.", "quantifier": "for every finite sequence of store operations", "why_tests_cant": "The count is computed as a difference of two vector lengths, so it is right only if a free-list invariant holds after every history, which tests cannot enumerate.", "anchors": ["src/util/deletable.rs:DeletableVector::{len,iter,allocate,set,push,delete_internal}", "src/halfedge/mesh/basics.rs:num_vertices,num_edges,num_faces"]}
{"id": "C03", "title": "Storage is reused and ids stay below the reported capacity", "statement": "Every live id is strictly smaller than capacity(); inserting an element enlarges the storage only when no deleted slot is waiting to be reused; so capacity() never exceeds the largest number of simultaneously occupied (live or reserved) slots since the last clear.", "quantifier": "for every finite sequence of store operations", "why_tests_cant": "This is a high-water-mark statement over whole histories.", "anchors": ["src/util/deletable.rs:DeletableVector::{capacity,push,allocate,delete_internal}", "src/mesh/mesh/basics.rs:max_vertex_index"]}
{"id": "C04", "title": "Adding an isolated vertex or edge keeps the mesh consistent and leaves everything else alone", "statement": "On any consistent half-edge mesh (twins paired, next/prev inverse, origins and faces agreeing along loops, one edge wheel per vertex, one loop per face), add_vertex and add_isolated_edge succeed, return fresh ids, produce a consistent mesh in which the new vertices/edge have the requested payloads and connectivity, and change no existing vertex, edge or face.", "quantifier": "for every consistent mesh and all payloads", "why_tests_cant": "Consistency is a global invariant over all elements of an arbitrary mesh; tests check it only on meshes they happen to build.", "anchors": ["src/halfedge/mesh/builder/builder.rs:add_vertex,add_isolated_edge_default", "src/halfedge/mesh/builder/halfedge.rs:add_isolated_edge", "src/halfedge/mesh/builder/semi.rs:insert_edge_no_update_no_check"]}
{"id": "C05", "title": "Growing a dangling edge from a boundary corner keeps the mesh consistent", "statement": "If on a consistent mesh `output` directly follows the boundary half-edge `input`, add_vertex_via_edge(input,output) succeeds and yields a consistent mesh with exactly one new vertex and two new half-edges, whose loop runs input -> new -> new twin -> output; all other links, payloads and faces are unchanged.", "quantifier": "for every consistent mesh and every boundary corner (input, output)", "why_tests_cant": "The four pointer updates must be right for every aliasing pattern of input/output (for instance when they are twins of each other).", "anchors": ["src/halfedge/mesh/builder/halfedge.rs:add_vertex_via_edge", "src/halfedge/mesh/builder/builder.rs:add_vertex_via_edge_default"]}
{"id": "C06", "title": "Connecting a new vertex to an existing vertex keeps the mesh consistent", "statement": "For any live vertex of a consistent mesh that either has exactly one incident edge lying on the boundary or has exactly one outgoing boundary half-edge, add_vertex_via_vertex succeeds (also with debug assertions enabled) and yields a consistent mesh in which the new vertex has the old one as its only neighbour; it panics when the vertex has no edges.", "quantifier": "for every consistent mesh and every such vertex", "why_tests_cant": "The corner is chosen by scanning the edge wheel, whose size and order are arbitrary.", "anchors": ["src/halfedge/mesh/builder/halfedge.rs:add_vertex_via_vertex", "src/halfedge/vertex/basics.rs:has_only_one_edge,edges_out"]}
{"id": "C07", "title": "Inserting an edge between two boundary corners keeps the mesh consistent", "statement": "If inside and outside are distinct boundary half-edges of a consistent mesh whose target vertices differ, are not adjacent and lie on a common loop, insert_edge succeeds, returns a twin pair running from target(inside) to target(outside) and back, and the resulting mesh is consistent; all other half-edges keep origin, twin, face and payload, and only the two corners are re-linked.", "quantifier": "for every consistent mesh and all such half-edge pairs", "why_tests_cant": "Loops may be split or merged; correctness of vertex wheels after the splice is a global property.", "anchors": ["src/halfedge/mesh/builder/halfedge.rs:insert_edge", "src/halfedge/mesh/builder/semi.rs:insert_edge_no_update,insert_edge_no_update_no_check,insert_edge_no_check"]}
{"id": "C08", "title": "Inserting an edge through a face keeps half-edges and faces in agreement", "statement": "insert_edge is documented to leave the half-edge mesh consistent; so after inserting an edge between two vertices of an existing face, every half-edge on a loop should still report the same face as its successor.", "quantifier": "for every consistent mesh and every pair of corners, including corners inside a face", "why_tests_cant": "Only a face with at least four corners and an interior diagonal exposes the behaviour; the existing tests only insert on the boundary.", "anchors": ["src/halfedge/mesh/builder/halfedge.rs:insert_edge", "src/mesh/mesh/builder.rs:MeshHalfEdgeBuilder::insert_edge"]}
{"id": "C09", "title": "Joining two vertices by a bridge edge keeps the mesh consistent", "statement": "For two different, non-adjacent live vertices of a consistent mesh, each either isolated or having exactly one outgoing boundary half-edge, insert_edge_between succeeds and yields a consistent mesh in which the two vertices are adjacent, whether or not the vertices were connected before.", "quantifier": "for every consistent mesh and every such vertex pair", "why_tests_cant": "The documentation restricts the call to different components and leaves open (commented-out assertion) whether that is needed; only a proof over all meshes settles it.", "anchors": ["src/halfedge/mesh/builder/halfedge.rs:insert_edge_between", "src/mesh/vertex/halfedge.rs:outgoing_boundary_edge,ingoing_boundary_edge"]}
{"id": "C10", "title": "Closing a hole creates a face bounded by exactly that hole", "statement": "On a consistent mesh, close_hole(e) for a boundary half-edge e succeeds, creates one new face whose boundary is exactly the loop through e, leaves all other faces, links, vertices and payloads unchanged, keeps the mesh consistent and creates no vertices or edges.", "quantifier": "for every consistent mesh and every boundary half-edge", "why_tests_cant": "Loop length is unbounded and the assignment walks links of the mesh being mutated.", "anchors": ["src/halfedge/mesh/builder/builder.rs:close_hole", "src/halfedge/edge/iterator.rs:ForwardEdgeIteratorMut"]}
{"id": "C11", "title": "Closing a face by inserting its last edge", "statement": "Under the conditions of C07, close_face(inside, outside) succeeds and yields a consistent mesh with two more half-edges and one more face, whose boundary is exactly the loop running through inside and the first returned half-edge; the second returned half-edge stays on the boundary unless it lies on that same loop.", "quantifier": "for every consistent mesh and every admissible half-edge pair", "why_tests_cant": "Combines a splice with a walk over the freshly spliced loop.", "anchors": ["src/halfedge/mesh/builder/halfedge.rs:close_face,close_face_default"]}
{"id": "C12", "title": "Removing a face is the inverse of closing a hole", "statement": "remove_face(f) on a consistent mesh succeeds, returns f's payload, turns exactly the half-edges of f into boundary half-edges, keeps the mesh consistent, and leaves vertices and links untouched; closing a hole and removing the created face restores every half-edge and every face, and the next face created reuses the freed id.", "quantifier": "for every consistent mesh, every face and every hole", "why_tests_cant": "Inverse laws over all meshes cannot be sampled.", "anchors": ["src/halfedge/mesh/builder/builder.rs:remove_face,close_hole"]}
{"id": "C13", "title": "Swapping the direction of an edge is a pure relabelling", "statement": "On a consistent mesh, flip_edge(e) for an edge that is not dangling keeps the mesh consistent and has the same effect on connectivity as renaming e to its twin and vice versa: each of the two ids takes over origin, neighbours and face of the other while keeping its payload. Flipping twice restores every half-edge.", "quantifier": "for every consistent mesh and every edge", "why_tests_cant": "The ten pointer updates alias in many ways (triangles, digons, dangling edges).", "anchors": ["src/halfedge/edge/halfedge.rs:flip", "src/mesh/mesh/halfedge.rs:flip_edge,flip,flipped"]}
{"id": "C14", "title": "Any program built from the construction operations yields a consistent mesh", "statement": "Starting from the empty mesh, every sequence of add_vertex, add_isolated_edge, add_vertex_via_edge, insert_edge, insert_edge_between, close_hole, close_face, remove_face and flip_edge calls that respects the documented preconditions succeeds without panicking (debug assertions on or off, with identical results) and ends in a consistent mesh; the number of half-edges is always even and they come in twin pairs.", "quantifier": "for every finite sequence of operations", "why_tests_cant": "This is an invariant over unboundedly many programs.", "anchors": ["src/halfedge/mesh/builder/halfedge.rs", "src/halfedge/mesh/builder/builder.rs", "src/halfedge/mesh/builder/semi.rs"]}
{"id": "C15", "title": "Face traversal visits each edge of the face exactly once", "statement": "In a consistent mesh, iterating the edges of a face (or the loop through any half-edge) terminates, yields no half-edge twice, yields exactly the half-edges whose face is that face, the backward traversal yields the same half-edges in reverse cyclic order, and num_edges equals the number yielded.", "quantifier": "for every consistent mesh and every face / half-edge", "why_tests_cant": "Termination of a pointer walk is not testable; an inconsistent mesh would loop forever.", "anchors": ["src/halfedge/edge/iterator.rs:ForwardEdgeIterator,BackwardEdgeIterator", "src/halfedge/face/mod.rs:edges,num_edges,vertices"]}
{"id": "C16", "title": "Vertex traversal visits each incident edge exactly once", "statement": "In a consistent mesh, edges_out of a vertex terminates, never trips the wheel assertion, yields no half-edge twice and yields exactly the live half-edges starting there; edges_in yields exactly their twins; an isolated vertex yields nothing; degree equals the number of incident edges.", "quantifier": "for every consistent mesh and every vertex", "why_tests_cant": "Quantifies over all wheels of all meshes, and over termination.", "anchors": ["src/halfedge/vertex/iterator.rs:IncidentToVertexIterator", "src/halfedge/vertex/basics.rs:edges_out,edges_in,vertices"]}
{"id": "C17", "title": "Edge lookup between two vertices is sound and complete", "statement": "In a consistent mesh shared_edge(v,w) returns a half-edge from v to w whenever some half-edge from v to w exists and None otherwise; shared_edge(w,v) succeeds exactly when shared_edge(v,w) does.", "quantifier": "for every consistent mesh and all live vertices v, w", "why_tests_cant": "Completeness needs that one wheel contains all edges of the vertex in every reachable mesh.", "anchors": ["src/halfedge/mesh/basics.rs:shared_edge,shared_edge_id"]}
{"id": "C18", "title": "The mesh checker accepts only consistent meshes", "statement": "If check() reports Ok for a mesh then twins are paired, next and prev are inverse, faces agree along loops, origins agree, every vertex and face representative belongs to its vertex/face, every loop is finite, every face has at least three edges and every edge has a face on at least one side; and every consistent mesh with the last two properties is accepted.", "quantifier": "for every mesh, consistent or not", "why_tests_cant": "Soundness of a validator is a statement about all (also malformed) inputs.", "anchors": ["src/halfedge/mesh/check.rs:check and its six sub-checks"]}
{"id": "C19", "title": "A mesh accepted by the checker has one edge wheel per vertex and one loop per face", "statement": "Traversal results of C15/C16 require that all half-edges of a vertex are reachable around it and that a face has a single boundary loop; a mesh for which check() is Ok should have both.", "quantifier": "for every mesh accepted by check()", "why_tests_cant": "Needs a malformed mesh crafted against the checker.", "anchors": ["src/halfedge/mesh/check.rs:check"]}
{"id": "C20", "title": "insert_path builds a path graph", "statement": "For any list of n >= 2 vertex payloads, insert_path on a consistent mesh succeeds, adds exactly n vertices with these payloads in order and 2(n-1) half-edges, keeps the mesh consistent, and returns the half-edges pointing to the first and last vertex; n < 2 panics.", "quantifier": "for every n and every consistent starting mesh", "why_tests_cant": "The path length is unbounded.", "anchors": ["src/halfedge/mesh/builder/builder.rs:insert_path"]}
{"id": "C21", "title": "insert_loop / insert_polygon build a cycle and its face", "statement": "For any list of n >= 3 payloads, insert_polygon on a consistent mesh succeeds, adds n vertices, 2n half-edges and one face, keeps the mesh consistent; the face visits exactly the new vertices once each, in reverse insertion order (up to rotation), and the returned half-edge is on the outer boundary and runs from the first to the second new vertex.", "quantifier": "for every n >= 3 and every consistent starting mesh", "why_tests_cant": "Unbounded n, and every starting mesh.", "anchors": ["src/halfedge/mesh/builder/builder.rs:insert_loop", "src/halfedge/primitives/mod.rs:insert_polygon"]}
{"id": "C22", "title": "insert_dihedron yields a closed two-faced polygon", "statement": "For n >= 3 payloads, insert_dihedron should produce a closed surface: n vertices, n edges, two faces, no boundary half-edge, without panicking.", "quantifier": "for every n >= 3", "why_tests_cant": "No test calls it on all n; the failing behaviour differs between debug and release builds.", "anchors": ["src/halfedge/primitives/mod.rs:insert_dihedron", "src/primitives/polygon.rs:Make2dShape"]}
{"id": "C23", "title": "Splitting an edge by new vertices keeps the mesh consistent", "statement": "insert_vertices_into_edge(e, vs) should replace the edge by a chain through the new vertices and leave the mesh consistent, returning the half-edge starting at the previous origin.", "quantifier": "for every consistent mesh, edge and non-empty list of vertices", "why_tests_cant": "The defect depends on the degree of the origin vertex and only shows on particular meshes.", "anchors": ["src/halfedge/mesh/builder/builder.rs:insert_vertices_into_edge", "src/mesh/mesh/basics.rs:flatten_curved_edges"]}
{"id": "C24", "title": "Filling a hole with an apex vertex", "statement": "fill_hole_apex(start, p) on a hole with n >= 3 boundary half-edges of a consistent mesh adds one vertex, n edges and n triangular faces, keeps the mesh consistent and leaves no boundary half-edge on the former hole.", "quantifier": "for every hole length n", "why_tests_cant": "Loop over unbounded hole length with mutation at each step.", "anchors": ["src/operations/extrude.rs:fill_hole_apex", "src/primitives/prismatoid.rs:insert_pyramid"]}
{"id": "C25", "title": "Importing a mesh preserves it up to renaming of ids", "statement": "import_mesh of a consistent mesh in which no vertex is isolated produces a consistent mesh, together with order-preserving bijections of vertex, edge and face ids under which next, prev, twin, origin, face and representatives correspond and payloads are mapped; vertex, edge and face ids become consecutive.", "quantifier": "for every consistent mesh, including those with deleted elements", "why_tests_cant": "Depends on arbitrary gaps left by deletions.", "anchors": ["src/halfedge/mesh/builder/halfedge.rs:import_mesh"]}
{"id": "C26", "title": "Enumerating undirected edges", "statement": "twin_edges yields each undirected edge of a consistent mesh exactly once, as a (half-edge, twin) pair, so that twice the number of pairs is the number of half-edges.", "quantifier": "for every consistent mesh", "why_tests_cant": "Quantifies over all meshes.", "anchors": ["src/mesh/mesh/halfedge.rs:twin_edges"]}
{"id": "C27", "title": "Shortest paths", "statement": "shortest_path(a,b) on a consistent mesh returns a path that starts at a, ends at b, moves along edges, has the least possible number of edges, and returns None exactly when b is unreachable from a.", "quantifier": "for every consistent mesh and all live vertices a, b", "why_tests_cant": "Optimality is a statement about all alternative paths.", "anchors": ["src/mesh/mesh/topology.rs:shortest_path"]}
{"id": "C28", "title": "Adjacency, degree and Laplacian matrices", "statement": "On a consistent mesh with consecutive vertex ids the adjacency matrix is symmetric with 0/1 entries, has a 1 exactly at adjacent pairs; if no two vertices are joined by more than one edge and there are no self loops, the degree matrix is its row-sum matrix and the rows of the Laplacian sum to zero.", "quantifier": "for every consistent mesh", "why_tests_cant": "Matrix size is unbounded; the existing test checks eigenvalues of one cube.", "anchors": ["src/mesh/mesh/netsci.rs:adjacency_matrix,degrees,degree_matrix,laplacian"]}
{"id": "C29", "title": "The weighted Laplacian has zero row sums", "statement": "laplacian_euclidean should be a graph Laplacian for the Euclidean edge weights, i.e. all its rows sum to zero.", "quantifier": "for every consistent mesh and all vertex positions", "why_tests_cant": "Only the unweighted version is tested; with unit-length edges both coincide.", "anchors": ["src/mesh/mesh/netsci.rs:laplacian_euclidean,degree_matrix"]}
{"id": "C30", "title": "Rotation comparison of face vertex lists", "statement": "The list comparison used to match faces returns true exactly when the two lists are rotations of each other.", "quantifier": "for all pairs of lists, including lists with repeated entries and the empty list", "why_tests_cant": "Lists are unbounded; repeated entries and the empty list are easily missed.", "anchors": ["src/mesh/mesh/basics.rs:equal_up_to_rotation"]}
{"id": "C31", "title": "Trivial isomorphism check compares the two meshes", "statement": "If is_trivially_isomorphic reports Equivalent then corresponding half-edges of the two meshes have the same origin and target and corresponding faces have the same boundary up to rotation.", "quantifier": "for all pairs of consistent meshes", "why_tests_cant": "The counterexample needs two meshes whose ids agree but whose links differ.", "anchors": ["src/mesh/mesh/basics.rs:is_trivially_isomorphic_ex"]}
{"id": "C32", "title": "Vertex matching by similarity is an injective match", "statement": "When find_payload_isomorphism succeeds, every vertex of the first mesh is mapped to a similar vertex of the second, no two to the same one, so with equal vertex counts the map is a bijection; with a similarity relation that matches each vertex to exactly one partner it always succeeds and finds that partner.", "quantifier": "for all meshes and all similarity predicates", "why_tests_cant": "The predicate is an arbitrary user closure.", "anchors": ["src/mesh/mesh/basics.rs:find_payload_isomorphism"]}
{"id": "C33", "title": "Compacting vertices renumbers the index buffer", "statement": "dense_vertices(indices) should return one payload per live vertex and rewrite indices so that each index refers to the payload of the vertex it denoted before.", "quantifier": "for every mesh (with or without deleted vertices) and every index buffer", "why_tests_cant": "Needs a mesh with deleted vertices, which no test builds.", "anchors": ["src/halfedge/mesh/basics.rs:dense_vertices", "src/mesh/triangulation.rs:map_indices"]}
{"id": "C34", "title": "Triangulation buffer only touches its own part", "statement": "Inserting triangles, remapping indices and reading triangles through a triangulation opened on an index buffer never change indices that were in the buffer before it was opened; len() counts exactly the triangles inserted since; the i-th triangle read back is the i-th inserted.", "quantifier": "for every buffer content and every sequence of insertions", "why_tests_cant": "Histories are unbounded.", "anchors": ["src/mesh/triangulation.rs:Triangulation::{new,insert_triangle,insert_triangle_local,get_triangle,map_indices,len}"]}
{"id": "C35", "title": "Flipping a diagonal in a triangulation", "statement": "flip_edge(a,b,...) succeeds exactly when the two triangles contain the directed edges a->b and b->a; then the two triangles are replaced by the two triangles on the other diagonal of the same quadrilateral, with the same total signed area and the same outer boundary edges; on failure the buffer is unchanged and other triangles are never changed.", "quantifier": "for all buffers whose triangles have three different corners, all positions and vertex coordinates", "why_tests_cant": "All rotations of the stored triangles and all coordinates.", "anchors": ["src/mesh/triangulation.rs:flip_edge"]}
{"id": "C36", "title": "Triangulation self-checks cover all triangles added", "statement": "verify_non_degenerate_triangle, verify_no_intersections and total_edge_weight should consider every triangle added since the triangulation was opened, also when the index buffer was not empty at that time; verify_area should reject triangulations whose area differs from the polygon's.", "quantifier": "for every initial buffer length and every triangulation", "why_tests_cant": "The checks are themselves the test oracle; tests cannot reveal that they skip work.", "anchors": ["src/mesh/triangulation.rs:verify_non_degenerate_triangle,verify_no_intersections,total_edge_weight,verify_area"]}
{"id": "C37", "title": "Fan triangulation", "statement": "fan_triangulation of a face with n >= 3 vertices emits n-2 triangles, all with the first vertex as apex, whose signed areas sum to the signed area of the polygon, using every polygon edge exactly once and every diagonal exactly once in each direction; if the polygon is convex all triangles have non-negative area.", "quantifier": "for every n >= 3 and all vertex positions", "why_tests_cant": "Quantifies over all sizes and coordinates.", "anchors": ["src/tesselate/convex.rs:fan_triangulation"]}
{"id": "C38", "title": "Ear clipping", "statement": "Whenever ear clipping returns it has emitted exactly n-2 triangles on the face's vertices whose signed areas sum (up to the fixed orientation sign) to the signed area of the polygon, each emitted triangle is a convex corner containing none of the remaining vertices, and it terminates.", "quantifier": "for every n and all vertex positions", "why_tests_cant": "Area conservation for all polygons and termination of the retry loop.", "anchors": ["src/tesselate/ear_clipping.rs:ear_clipping_direct"]}
{"id": "C39", "title": "Triangulators agree on orientation", "statement": "Triangles emitted by fan, quad, dynamic-programming and ear-clipping triangulation of the same counter-clockwise face should all be counter-clockwise.", "quantifier": "for every counter-clockwise polygon", "why_tests_cant": "Only an area check with absolute values is tested.", "anchors": ["src/tesselate/ear_clipping.rs:ear_clipping_direct", "src/tesselate/convex.rs:fan_triangulation"]}
{"id": "C40", "title": "Dynamic programming finds a minimum-weight triangulation", "statement": "For every polygon with n >= 4 vertices, any weight function and any set of admissible diagonals containing the sides, if an admissible triangulation exists the dynamic program emits one with n-2 triangles whose total weight is minimal among all admissible triangulations.", "quantifier": "for every n, weight function and admissibility relation", "why_tests_cant": "Optimality over exponentially many (Catalan number) triangulations.", "anchors": ["src/tesselate/min_weight_dynamic.rs:fill_m,traceback,initialize_m,minweight_dynamic_direct"]}
{"id": "C41", "title": "Triangular table indexing is collision free", "statement": "The packed upper-triangular table used by the dynamic program maps distinct pairs i<j<n to distinct positions inside the allocated storage, and writing one entry never changes another.", "quantifier": "for every n and all index pairs", "why_tests_cant": "Quadratically many pairs for every n.", "anchors": ["src/tesselate/min_weight_dynamic.rs:TriangularStore"]}
{"id": "C42", "title": "Small faces take the shorter admissible diagonal", "statement": "For a quadrilateral the fixed-size triangulator emits two triangles covering the quadrilateral (signed areas add up), and if both diagonals are admissible it uses the shorter one.", "quantifier": "for all quadrilaterals", "why_tests_cant": "Quantifies over all coordinates.", "anchors": ["src/tesselate/fixed_n.rs:min_weight_quad,try_min_weight_small"]}
{"id": "C43", "title": "Monotone chain triangulation emits one triangle per added vertex beyond two", "statement": "Feeding k vertices of a y-monotone chain to the linear monotone triangulator, for any left/right pattern and any orientation tests, keeps the number of emitted triangles plus the number of still pending vertices equal to k; when it finishes with two pending vertices exactly k-2 triangles have been emitted, each joining the newest vertex to vertices previously seen.", "quantifier": "for every chain length, side pattern and outcome of the orientation tests", "why_tests_cant": "Unbounded input and exponentially many side patterns.", "anchors": ["src/tesselate/sweep/monotone/linear.rs"]}
{"id": "C44", "title": "Sweep status lookup stays synchronised", "statement": "After any sequence of insertions and removals in the sweep-line status, looking up by left vertex and by right vertex return the same interval whenever present, a removed interval is found by neither key, and the total number of live intervals matches.", "quantifier": "for every finite sequence of status operations", "why_tests_cant": "Two redundant indices must agree after every history.", "anchors": ["src/tesselate/sweep/status.rs:SweepLineStatus::{insert,remove_left,remove_right,peek_left,peek_right}"]}
{"id": "C45", "title": "Polygon area laws", "statement": "The signed area of a polygon is invariant under translation and under rotating the vertex list, changes sign when the list is reversed, scales with the determinant of a linear map, and is additive when the polygon is cut along a diagonal; it equals half the sum over the triangles of any fan.", "quantifier": "for all polygons in exact arithmetic", "why_tests_cant": "Algebraic identities for all n and all coordinates.", "anchors": ["src/math/polygon.rs:signed_area,area"]}
{"id": "C46", "title": "Point in triangle test", "statement": "is_inside_triangle(p,a,b,c) holds exactly when p is a convex combination of a, b, c with the boundary convention of the code, independent of the orientation of the triangle and invariant under cyclic rotation.", "quantifier": "for all points and all non-degenerate triangles in exact arithmetic", "why_tests_cant": "Continuum of inputs.", "anchors": ["src/math/vector2d.rs:is_inside_triangle,barycentric_sign"]}
{"id": "C47", "title": "Segment intersection", "statement": "intersect_line returns a point only if that point lies on both lines and, with zero tolerance, within both segments; for non-parallel segments that share a point it returns that point; the result does not depend on swapping the segments.", "quantifier": "for all segments in exact arithmetic", "why_tests_cant": "Continuum of inputs, boundary cases.", "anchors": ["src/math/line_segment.rs:intersect_line"]}
{"id": "C48", "title": "Bezier edges start and end at their vertices and reverse consistently", "statement": "point_at(0) is the origin and point_at(1) the target for every curve type, point_at stays in the convex hull of the control points for parameters in [0,1], translating all control points translates the curve, and reversing control points gives point_at(1-t).", "quantifier": "for all control points and parameters in exact arithmetic", "why_tests_cant": "Polynomial identities over a continuum.", "anchors": ["src/mesh/edge/curved.rs:CurvedEdgeType::point_at"]}
{"id": "C49", "title": "Curve flattening returns interior points in order", "statement": "flatten_casteljau returns points of the curve in increasing parameter order from origin to target, excluding both end points, for every tolerance and subdivision pattern; flatten_uniform(n) returns exactly the n-1 points at parameters i/n.", "quantifier": "for all curves, tolerances and flatness outcomes", "why_tests_cant": "Recursion depth depends on the data; ordering must hold for every recursion tree.", "anchors": ["src/mesh/edge/curved.rs:flatten_casteljau,flatten_uniform"]}
{"id": "C50", "title": "Composition of transforms", "statement": "chain(f,g) applied to a point equals applying f first and g afterwards, identity is neutral, composition is associative and with_scale/with_translation equal chaining with the corresponding elementary transform, as the transform trait documents.", "quantifier": "for all transforms and points in exact arithmetic", "why_tests_cant": "Algebraic laws over all matrices.", "anchors": ["src/math/transform.rs:TransformTrait::chain,with_scale", "src/extensions/nalgebra/math/transform_n.rs:NdAffine", "src/extensions/bevy"]}
{"id": "C51", "title": "Compensated summation is exact in exact arithmetic", "statement": "Neumaier and Kahan summation of a list equal the mathematical sum when the underlying additions are exact (so the compensation terms never introduce an error of their own).", "quantifier": "for all lists over any ordered field", "why_tests_cant": "Lists are unbounded.", "anchors": ["src/math/scalar.rs:neumaier_summation,kahan_summation"]}
{"id": "C52", "title": "Subdivision counts", "statement": "A frequency-b subdivision (b a power of two) consisting of repeated 1-to-4 splits multiplies the number of faces by the triangulation number b^2, so the final self-check of subdivision_frequency never fires.", "quantifier": "for every power of two and every triangle mesh whose split step yields four faces per face", "why_tests_cant": "Unbounded number of rounds.", "anchors": ["src/operations/subdivision.rs:subdivision_frequency,loop_subdivision,SubdivisionDescription::triangulation_number"]}
{"id": "C53", "title": "Sweep triangulator emits n-2 triangles", "statement": "If during the sweep of a simple polygon's n vertices the numbers of start and merge events satisfy the Euler relation of a single simple polygon, the sum over monotone pieces of emitted triangles is n-2.", "quantifier": "for every sequence of sweep events", "why_tests_cant": "Event sequences are unbounded.", "anchors": ["src/tesselate/sweep/sweep.rs", "src/tesselate/sweep/monotone/linear.rs"]}
{"id": "C54", "title": "Curve flattening respects the error bound", "statement": "flatten_casteljau(error) is documented to convert the edge to line segments with the given error, so every point of the curve should be within that distance of the returned polyline.", "quantifier": "for all curves and error bounds", "why_tests_cant": "The violation needs a point-symmetric (S-shaped) curve whose midpoint lies on its chord.", "anchors": ["src/mesh/edge/curved.rs:flatten_casteljau"]}
{"id": "C55", "title": "is_isomorphic is sound and complete", "statement": "Given a vertex map defined on all vertices, is_isomorphic never panics. If it reports Equivalent, every vertex, half-edge and face has a counterpart under the map that passes the comparison function (faces up to rotation of their vertices), and for simple meshes and injective maps adjacency agrees in both directions. A renamed copy of a mesh without parallel edges is always recognised under its renaming.", "quantifier": "for all consistent meshes, vertex maps and comparison functions", "why_tests_cant": "Quantifies over all pairs of meshes and all vertex maps.", "anchors": ["src/mesh/mesh/basics.rs:is_isomorphic", "src/mesh/mesh/basics.rs:equal_up_to_rotation", "src/halfedge/edge/basics.rs:face_ids"]}
{"id": "C56", "title": "Loop subdivision of closed triangle meshes", "statement": "loop_subdivision of a consistent closed triangle mesh never panics and returns a consistent closed triangle mesh. Every old vertex is kept with its payload, every edge gets one new vertex, the half-edges are multiplied by four and so are the faces: every face becomes three corner triangles and one inner triangle. With the linear interpolator the new vertex of an edge is the midpoint of its ends, with the spherical interpolator it lies on the sphere.", "quantifier": "for all consistent closed triangle meshes, payloads and interpolators", "why_tests_cant": "Quantifies over all meshes; tests only subdivide some platonic solids and check face counts.", "anchors": ["src/operations/subdivision.rs:loop_subdivision", "src/mesh/vertex/interpolator.rs", "src/halfedge/mesh/builder/semi.rs:subdivide_unsafe_try_fixup,subdivide_unsafe"]}
{"id": "C57", "title": "Loop subdivision keeps every triangle mesh consistent", "statement": "loop_subdivision of a consistent mesh all of whose faces are triangles, with or without boundary, returns a consistent mesh with four times as many faces.", "quantifier": "for all consistent meshes whose faces are triangles", "why_tests_cant": "Quantifies over all meshes; the tests have no mesh with boundary.", "anchors": ["src/operations/subdivision.rs:loop_subdivision", "src/halfedge/mesh/builder/semi.rs:subdivide_unsafe_try_fixup"]}
{"id": "C58", "title": "Closing a face by naming vertices", "statement": "close_face_vertices(prev, from, to) selects the half-edge from prev to from and the boundary half-edge into `to` whose loop passes through prev, and closes the face between them. If prev-from is a simple boundary edge, `to` is a manifold vertex on the same boundary loop and from and to are not adjacent, the call succeeds in debug and release builds, keeps the mesh consistent, and the new face lies to the left of prev-from and of the new edge from-to.", "quantifier": "for all consistent meshes and all such vertices", "why_tests_cant": "The code asks in a comment whether the manifold condition suffices; only a proof over all meshes answers that.", "anchors": ["src/halfedge/mesh/builder/halfedge.rs:close_face_vertices,close_face"]}
{"id": "C59", "title": "loft_polygon_back closes a hem of polygons", "statement": "loft_polygon_back(start, n, m, payloads) on a boundary loop of (m-1)k half-edges with (n-1)k payloads adds exactly k faces of n+m vertices between the old boundary and the new vertices, walking clockwise from the target of start. New vertices carry the payloads in order, the hole is then bounded by the new vertices, everything else is unchanged, and the returned half-edge runs from the second new vertex to the first.", "quantifier": "for all consistent meshes, boundary loops, n, m >= 2, k and payloads, in debug and release builds", "why_tests_cant": "Unbounded loop lengths and face sizes; the source file has no tests at all.", "anchors": ["src/operations/loft.rs:loft_polygon_back"]}
{"id": "C60", "title": "loft_tri adds a strip of triangles, loft_tri_closed closes it", "statement": "loft_tri along a boundary loop with N payloads adds 2(N-1) triangles that alternate between the old row of vertices and the new one, walking counter-clockwise; the new boundary runs along the strip. loft_tri_closed with as many payloads as the hole has half-edges adds 2N triangles all around, the hole is then bounded by the new vertices in order, everything else is unchanged, and the returned half-edge runs from the first new vertex to the second.", "quantifier": "for all consistent meshes, boundary loops without self-loops and payloads, in debug and release builds", "why_tests_cant": "Unbounded loop lengths; the source file has no tests at all.", "anchors": ["src/operations/loft.rs:loft_tri,loft_tri_closed"]}
{"id": "C61", "title": "loft_polygon closes a hem of polygons", "statement": "loft_polygon(start, n, m, payloads) on a boundary loop of (m-1)k half-edges with (n-1)k payloads adds exactly k faces of n+m vertices between the old boundary and the new vertices, walking counter-clockwise from the origin of start, and returns the half-edge from the second new vertex to the first.", "quantifier": "for all consistent meshes, boundary loops, n, m >= 2, k and payloads", "why_tests_cant": "Unbounded loop lengths and face sizes; the source file has no tests at all.", "anchors": ["src/operations/loft.rs:loft_polygon"]}
{"id": "C62", "title": "extrude closes a hole or replaces a face by a translated copy with side walls", "statement": "extrude(e, t) on a boundary loop of n half-edges adds one new vertex for each old one, with the transformed payload, n quadrilaterals between the old and the new loop and one face bounded by the new vertices; no boundary remains there and everything else is unchanged. extrude_face removes the face first, so that the result has n faces more. extrude_tri, extrude_tri_face and extrude_tri2 do the same with 2n triangles; extrude_tri2 transforms the interpolated payloads of neighbouring vertices.", "quantifier": "for all consistent meshes, boundary loops or faces, and transformations, in debug and release builds", "why_tests_cant": "Unbounded loop lengths; the source file has no tests at all.", "anchors": ["src/operations/extrude.rs:extrude,extrude_face,extrude_tri,extrude_tri_face,extrude_tri2"]}
{"id": "C63", "title": "prisms, pyramids, antiprisms, frustums, cuboids, tetrahedra and octahedra have the right faces", "statement": "insert_prism, insert_antiprism_iter, insert_pyramid, insert_frustum (not smooth) over polygons with n >= 3 vertices, cuboid, regular_tetrahedron and regular_octahedron never panic and add one closed component with exactly the vertices given, in order, and exactly the faces of that solid, each edge with two faces of opposite direction. Nothing else changes. In particular the numbers of vertices, edges and faces are those of the solid.", "quantifier": "for all consistent meshes, all n >= 3 and all payloads, in debug and release builds", "why_tests_cant": "Tests can only count vertices for some n.", "anchors": ["src/primitives/prismatoid.rs:insert_prism,insert_antiprism_iter,insert_pyramid,insert_frustum,cuboid,regular_tetrahedron,regular_octahedron"]}
{"id": "C64", "title": "uv_sphere is a closed grid of n rings and m columns", "statement": "uv_sphere(r, n, m) for n >= 2 and m >= 3 has n-1 rows of m vertices and two poles, m triangles at each pole, n-2 rows of m quadrilaterals between neighbouring rows, and no boundary; (n-1)m+2 vertices, (2n-1)m edges, nm faces. For n < 2 or m < 3 it panics.", "quantifier": "for all n, m and payloads, in debug and release builds", "why_tests_cant": "Unbounded n and m.", "anchors": ["src/primitives/sphere.rs:uv_sphere"]}
{"id": "C65", "title": "regular_icosahedron is an icosahedron", "statement": "regular_icosahedron has the twelve given corners, twenty triangles and thirty edges, no boundary, and the faces around each corner are those of the icosahedron.", "quantifier": "for all payloads and edge lengths, in debug and release builds", "why_tests_cant": "The number of payload values is unbounded; the mesh is built in four steps with no checks.", "anchors": ["src/primitives/sphere.rs:regular_icosahedron"]}
{"id": "C66", "title": "dodecahedron is a dodecahedron", "statement": "dodecahedron(radius) does not panic and is a consistent closed mesh with 20 vertices, 30 edges and 12 pentagons.", "quantifier": "for all radii, in debug and release builds", "why_tests_cant": "There are no tests; the failure of the assertions depends on the build mode.", "anchors": ["src/primitives/sphere.rs:dodecahedron"]}
{"id": "C67", "title": "insert_antiprism and smooth frustums add a solid", "statement": "insert_antiprism (and antiprism), and insert_frustum with smooth = true (and hence cylinder and smooth cones), add a closed component without panicking.", "quantifier": "for all consistent meshes and all polygons with at least three vertices", "why_tests_cant": "No test calls them.", "anchors": ["src/primitives/prismatoid.rs:insert_antiprism,insert_frustum,cylinder"]}
{"id": "C68", "title": "extrude_boundary extrudes all boundary edges", "statement": "extrude_boundary(t) closes every boundary loop by extruding it; no boundary remains, and old vertices and faces are unchanged.", "quantifier": "for all consistent meshes and transformations", "why_tests_cant": "Whether a loop is seen depends on which half-edge represents which face.", "anchors": ["src/operations/extrude.rs:extrude_boundary"]}
{"id": "C69", "title": "Geodesic spheres", "statement": "geodesic_icosahedron, geodesic_octahedron and geodesic_tetrahedron with radius r and 2^k subdivisions never panic and return a consistent closed triangle mesh with 20, 8 or 4 times 4^k faces. Every vertex lies on the sphere of radius r around the origin. Every face is seen counter-clockwise from outside. Other numbers of subdivisions are refused.", "quantifier": "for all radii, all powers of two (outwardness while the triangles are larger than the cut-off of slerp) and both builds", "why_tests_cant": "Quantifies over all radii and subdivisions; no test looks at the positions.", "anchors": ["src/primitives/sphere.rs:geodesic_icosahedron,geodesic_octahedron,geodesic_tetrahedron", "src/math/vector3d.rs:slerp", "src/operations/subdivision.rs"]}
{"id": "C70", "title": "Regular solids are regular", "statement": "regular_tetrahedron, regular_octahedron and regular_icosahedron return a consistent mesh in which every edge has the same length, every vertex has the same distance from the origin, and every face is seen counter-clockwise from outside; the edge length (or the circumradius of the octahedron) is the argument, and icosahedron_r2a and icosahedron_a2r convert between edge length and circumradius.", "quantifier": "for all sizes and both builds", "why_tests_cant": "Tests only count vertices and faces.", "anchors": ["src/primitives/prismatoid.rs:regular_tetrahedron,regular_octahedron", "src/primitives/sphere.rs:regular_icosahedron,icosahedron_r2a,icosahedron_a2r"]}
{"id": "C71", "title": "Normal of a face", "statement": "The normal of a face is its area vector: half the sum of the cross products of consecutive positions. For a planar polygon it is perpendicular to the plane, its length is the area, and it points to the side from which the polygon is seen counter-clockwise. It depends neither on the origin nor on the first vertex, changes sign when the loop is reversed, and for a face of a consistent mesh it is computed from the loop of the face without panicking.", "quantifier": "for all polygons, faces and consistent meshes", "why_tests_cant": "Quantifies over all polygons; no test checks a normal.", "anchors": ["src/mesh/face/face3d.rs:normal", "src/math/vector3d.rs:normal"]}
{"id": "C72", "title": "Planarity and convexity tests of faces", "statement": "is_planar accepts exactly the faces whose vertices lie in one plane (up to the tolerance), is_convex accepts exactly the convex faces, and for convex faces normal_naive has the direction of the normal.", "quantifier": "for all polygons in space and all tolerances", "why_tests_cant": "Tests only look at a few regular polygons; the accepted counterexamples need collinear first vertices or stars.", "anchors": ["src/mesh/face/face3d.rs:is_planar,is_planar2,is_convex,normal_naive", "src/tesselate/convex.rs:convex"]}
{"id": "C73", "title": "Geometry of prisms and antiprisms", "statement": "The top of a prism over a planar polygon is the base moved by the height along its normal, so that the prism encloses the volume height times area. regular_prism and regular_antiprism have two regular polygons of the given radius at the given distance, and all edges of uniform_prism and uniform_antiprism have the same length.", "quantifier": "for all planar polygons, radii, heights and numbers of sides, both builds", "why_tests_cant": "Quantifies over all polygons; tests only count vertices and faces.", "anchors": ["src/primitives/prismatoid.rs:insert_prism,regular_prism,uniform_prism,regular_antiprism,uniform_antiprism", "src/primitives/polygon.rs:regular_polygon_sidelength"]}
{"id": "C74", "title": "Geometry of the uv sphere", "statement": "Every vertex of uv_sphere(r, n, m) lies on the sphere of radius r around the origin, and every corner of every face is seen counter-clockwise from outside.", "quantifier": "for all r > 0, n >= 2, m >= 3 and both builds", "why_tests_cant": "Quantifies over all radii and resolutions; tests only count.", "anchors": ["src/primitives/sphere.rs:uv_sphere"]}
{"id": "C75", "title": "Test for the circumcircle", "statement": "determinant_4x4 is the determinant. For a counter-clockwise triangle circumcircle_contains is true exactly for the points inside its circumcircle. It does not matter from which side of an edge the test is made, and after a flip the pair of triangles is legal.", "quantifier": "for all triangles and points of an ordered field", "why_tests_cant": "Quantifies over all triangles and points; the interesting case are points on the circle.", "anchors": ["src/tesselate/sweep/monotone/delaunay.rs:determinant_4x4,determinant_3x3,circumcircle_contains"]}
{"id": "C76", "title": "Delaunay triangulator of monotone chains", "statement": "For every chain of different vertices the Delaunay triangulator runs without a failing assertion and without an endless loop, with the same result in debug and release builds. It finishes exactly where the linear triangulator does, with the same pending vertices and as many triangles. Every flip replaces two triangles by two that are not clockwise, keeps the constrained edges and does not raise the triangles lifted to the paraboloid. A sweep with it that ends without panicking covers the polygon as in C53.", "quantifier": "for all chains of different vertices, positions, orders of sides, outcomes of sign bits and both builds", "why_tests_cant": "Quantifies over all chains; the table of opposite vertices is only checked by debug assertions on the polygons that are tested.", "anchors": ["src/tesselate/sweep/monotone/delaunay.rs"]}
{"id": "C77", "title": "Monotone polygons are triangulated completely", "statement": "A polygon that is monotone in some direction is triangulated completely by the linear and by the Delaunay triangulator: adding its vertices in order and finishing succeeds, there are two triangles less than vertices, none of them is clockwise, and together they have the boundary of the polygon.", "quantifier": "for all monotone polygons, directions, sides of the bottom vertex, sign bits of zero and both builds", "why_tests_cant": "Quantifies over all monotone polygons; tests triangulate some random polygons with floating point numbers.", "anchors": ["src/tesselate/sweep/monotone/linear.rs", "src/tesselate/sweep/monotone/delaunay.rs"]}
{"id": "C78", "title": "The sweep triangulates polygons that are monotone downwards", "statement": "On a polygon whose left and right boundary descend from the topmost to the lowest corner, sweep_line_triangulation with the linear or the Delaunay triangulator succeeds, with the same result in debug and release builds. All corners but the first and the last are regular. The result has two triangles less than corners, none of them is clockwise, and together they have the boundary of the polygon.", "quantifier": "for all polygons that are monotone downwards, identifiers, tolerances, outcomes of sign bits and both builds", "why_tests_cant": "Quantifies over all monotone polygons; tests triangulate some random polygons with floating point numbers.", "anchors": ["src/tesselate/sweep/sweep.rs", "src/tesselate/sweep/status.rs", "src/tesselate/sweep/point.rs", "src/tesselate/sweep/monotone/linear.rs", "src/tesselate/sweep/monotone/delaunay.rs"]}
{"id": "C79", "title": "Monotone triangulator by dynamic programming", "statement": "A sweep with the dynamic-programming triangulator that ends without panicking covers the polygon as in C53. On a polygon that is monotone downwards and has a triangulation by permitted diagonals the sweep succeeds; with five or more corners no triangulation by permitted diagonals has a smaller total weight than the result.", "quantifier": "for all polygons, identifiers, symmetric weights, tests for diagonals and both builds", "why_tests_cant": "Quantifies over all polygons and compares with all their triangulations.", "anchors": ["src/tesselate/sweep/monotone/dynamic.rs"]}
{"id": "C80", "title": "Point in polygon", "statement": "For a point on no side, Polygon::contains is true exactly if the winding number of the polygon around the point is not zero. If the polygon has a triangulation by counter-clockwise triangles, the winding number is the number of triangles around the point, and contains is true exactly if the point is in one of the triangles. Reversing the polygon does not change the answer.", "quantifier": "for all polygons, all points on no side and all outcomes of sign bits of zero", "why_tests_cant": "Quantifies over all polygons and points; there is no test for contains.", "anchors": ["src/math/polygon.rs"]}
{"id": "C81", "title": "Valid diagonals", "statement": "If no other corner is on the line through two corners that are not neighbours, Polygon::valid_diagonal (with exact comparisons) is true exactly if the segment between them meets no side that does not start or end at them and the polygon winds around all of its inner points. With a tolerance it is true only then, if the segment is not nearly parallel to a side it meets. The dynamic program of C40 with these diagonals finds a triangulation of minimal weight among those with all diagonals inside.", "quantifier": "for all polygons, pairs of corners, outcomes of sign bits of zero, symmetric weights and both builds", "why_tests_cant": "Quantifies over all polygons and all points of a segment; the test checks the diagonals of convex polygons.", "anchors": ["src/math/polygon.rs", "src/tesselate/min_weight_dynamic.rs"]}
{"id": "C82", "title": "Triangulation of simple polygons", "statement": "Every simple polygon without three collinear corners has a triangulation with all diagonals inside. On such a polygon the minimum-weight triangulation restricted by valid_diagonal (C40, C81) does not panic, all its diagonals are inside and no triangulation with all diagonals inside has a smaller weight.", "quantifier": "for all simple polygons with at least four corners, outcomes of sign bits of zero, symmetric weights and both builds", "why_tests_cant": "Quantifies over all simple polygons and compares with all their triangulations.", "anchors": ["src/tesselate/min_weight_dynamic.rs", "src/math/polygon.rs"]}
{"id": "C83", "title": "Triangulations by inner diagonals are tilings", "statement": "In every triangulation of a simple polygon by diagonals inside, the triangles have the orientation of the polygon, no two have a common inner point, and they cover exactly the points the polygon runs around, which it does once. In particular the result of the minimum-weight triangulation on a simple counter-clockwise polygon has only strictly counter-clockwise triangles, and Polygon::contains is true for a point off the sides exactly if it is in one of them.", "quantifier": "for all simple polygons without three collinear corners, all their triangulations by inner diagonals, all points, outcomes of sign bits of zero, symmetric weights and both builds", "why_tests_cant": "Quantifies over all simple polygons, triangulations and points.", "anchors": ["src/tesselate/min_weight_dynamic.rs", "src/math/polygon.rs"]}
{"id": "C84", "title": "Ear clipping is right on simple counter-clockwise polygons", "statement": "On a simple counter-clockwise polygon no three corners of which count as collinear for the given tolerance, ear clipping never panics. It emits a triangulation of the polygon (each triangle in reversed order) by diagonals inside, every triangle is an ear (strictly convex, no other vertex of the polygon in it), no two triangles overlap, and they cover exactly the points inside.", "quantifier": "for all simple counter-clockwise polygons without nearly collinear corners, all random choices of the start, tolerances, outcomes of sign bits of zero and both builds", "why_tests_cant": "Quantifies over all simple polygons and all random sequences.", "anchors": ["src/tesselate/ear_clipping.rs"]}
{"id": "C85", "title": "The path builder draws and fills the path it is given", "statement": "Drawing strokes (lines, quadratic and cubic curves) to new vertices and closing the path with a face adds one polygon with exactly these vertices and curves and one face to the mesh; if the path has not returned to its start, closing draws the missing straight line. Importing an SVG path gives the polygon described by its segments.", "quantifier": "for all consistent meshes, points, lists of strokes, payload types and both builds", "why_tests_cant": "Quantifies over all meshes and all paths.", "anchors": ["src/mesh/mesh/path_builder.rs", "src/extensions/svg/svg.rs"]}
{"id": "C86", "title": "Laying a face into the plane keeps its shape", "statement": "For every planar face with a nonzero normal, vertices_2d, vec2s and as_polygon succeed and give the corners of the face in order, as a congruent polygon in the XY plane (all distances kept) that is counter-clockwise with the area of the face; in particular a simple face gives a simple polygon.", "quantifier": "for all consistent meshes, faces, positions, both math libraries and both builds", "why_tests_cant": "Quantifies over all faces in space.", "anchors": ["src/mesh/face/face3d.rs", "src/extensions/nalgebra/math/rotate.rs", "src/extensions/bevy/math/vec3.rs"]}
{"id": "C87", "title": "Self-intersections of faces are detected", "statement": "has_self_intersections returns true exactly for the faces two of whose sides that are not neighbours have a point in common; in particular is_simple returns true for every simple face.", "quantifier": "for all consistent meshes, faces, polygons and tolerances", "why_tests_cant": "Quantifies over all polygons.", "anchors": ["src/mesh/face/face3d.rs", "src/math/line_segment.rs"]}
{"id": "C88", "title": "Faces are triangulated", "statement": "triangulate_face emits, for every simple planar face of a mesh and every algorithm, triangles that tile the face: they use every side of the face once and every diagonal not at all or once in each direction, face the same way as the face, do not overlap, and have the area of the face.", "quantifier": "for all consistent meshes, planar simple faces, algorithms and positions", "why_tests_cant": "Quantifies over all meshes and positions.", "anchors": ["src/tesselate/mod.rs", "src/tesselate/fixed_n.rs", "src/tesselate/ear_clipping.rs", "src/tesselate/min_weight_dynamic.rs", "src/tesselate/convex.rs", "src/tesselate/sweep/mod.rs"]}
{"id": "C89", "title": "The Delaunay triangulation keeps the triangles inside the face", "statement": "From the triangles of a constrained triangulation of the corners of a face, delaunay_triangulation keeps exactly those inside the face, and passes its own checks: what it emits tiles the face.", "quantifier": "for all consistent meshes, simple planar faces, positions and constrained triangulations of the corners", "why_tests_cant": "Quantifies over all meshes, positions and triangulations.", "anchors": ["src/tesselate/delaunay.rs", "src/halfedge/face/mod.rs", "src/mesh/triangulation.rs", "src/math/vector.rs"]}
{"id": "C90", "title": "The triangulation of a mesh shows its faces", "statement": "triangulate returns an index buffer and a vertex buffer that show the faces of the mesh: the triangles of each face tile it, and the entries of the vertex buffer at the indices are the payloads of the corners.", "quantifier": "for all consistent meshes, positions and algorithms", "why_tests_cant": "Quantifies over all meshes and positions.", "anchors": ["src/mesh/mesh/triangulate.rs", "src/tesselate/mod.rs", "src/halfedge/mesh/basics.rs"]}
{"id": "C91", "title": "Flat shading gives each corner the normal of its face", "statement": "triangulate_and_generate_flat_normals_post returns buffers that show the faces of the mesh, with one vertex for each corner of a face, the normal of which is the unit normal of the face.", "quantifier": "for all consistent meshes with planar faces that are triangulated properly, with and without deleted vertices", "why_tests_cant": "Quantifies over all meshes and positions.", "anchors": ["src/mesh/mesh/triangulate.rs", "src/mesh/triangulation.rs"]}
{"id": "C92", "title": "The triangles of a closed mesh are a closed surface", "statement": "Each side of a triangle returned by triangulate is the reverse of a side of another triangle, or an edge of the boundary of the mesh: the triangles of a mesh without boundary are watertight and oriented consistently.", "quantifier": "for all consistent meshes, positions and algorithms", "why_tests_cant": "Quantifies over all meshes and positions.", "anchors": ["src/mesh/mesh/triangulate.rs", "src/tesselate/mod.rs", "src/tesselate/ear_clipping.rs"]}
{"id": "C93", "title": "The export of a polygon shows the polygon", "statement": "polygon(points) followed by triangulate returns a vertex buffer that consists of the given points in the given order and an index buffer of n-2 triangles that tile the polygon.", "quantifier": "for all planar simple polygons without three corners on a line, in debug and release builds", "why_tests_cant": "Quantifies over all polygons in space.", "anchors": ["src/primitives/polygon.rs", "src/halfedge/primitives/mod.rs", "src/mesh/mesh/triangulate.rs", "src/tesselate/mod.rs"]}
{"id": "C94", "title": "Regular polygons and stars are what they say", "statement": "regular_polygon(r, n) is a convex polygon with n corners at distance r from the origin, the sides of which have length regular_polygon_sidelength(r, n) and the area of which is regular_polygon_area(r, n). regular_star(inner, outer, n) is a polygon the sides of which do not cross, that is mapped to itself by a turn of two steps. Both face upwards and their exports show them.", "quantifier": "for all positive radii and all n >= 3", "why_tests_cant": "Quantifies over all radii and numbers of corners.", "anchors": ["src/primitives/polygon.rs", "src/halfedge/primitives/mod.rs"]}
{"id": "C95", "title": "Random stars are simple polygons that can be exported", "statement": "The points of random_star go around the origin at the radii drawn, no two sides of the polygon meet except in common corners, and the polygon made of them faces upwards and can be triangulated.", "quantifier": "for all random radii > 0 and all numbers of corners >= 3, with Bevy's and nalgebra's rotations", "why_tests_cant": "Quantifies over all outcomes of the random number generator.", "anchors": ["src/primitives/misc.rs", "src/primitives/polygon.rs"]}
{"id": "C96", "title": "Transforming a mesh", "statement": "translate, rotate, scale and transform of a mesh leave its topology alone and map every face to its image. Rotations and translations keep the volume and turn the normals of the faces; in general the volume of a watertight mesh is multiplied by the determinant and stays positive.", "quantifier": "for all well-formed meshes, all payload types and all affine maps", "why_tests_cant": "Quantifies over all meshes and all affine maps.", "anchors": ["src/mesh/mesh/transform.rs", "src/extensions/bevy/vertex_payload_3d.rs", "src/extensions/nalgebra/default_vertex_payload.rs", "src/mesh/edge/payload.rs"]}
{"id": "C97", "title": "Transforming a vertex keeps its normal correct", "statement": "After a vertex payload has been transformed, its normal is a unit vector that is perpendicular to the images of all directions to which it was perpendicular, provided it was a unit vector before.", "quantifier": "for all vertex payloads and all translations, rotations, scales and transforms of both backends", "why_tests_cant": "Quantifies over all transforms and all normals.", "anchors": ["src/extensions/bevy/vertex_payload_3d.rs", "src/extensions/nalgebra/default_vertex_payload.rs", "src/extensions/bevy/math/vec3.rs", "src/math/transformable.rs"]}
{"id": "C98", "title": "Smooth normals", "statement": "generate_smooth_normals sets the normal of every vertex to the unit vector in the direction of the mean of the unit normals of the faces around it, and changes nothing else. The normal points to the side from which all faces around can be seen, and turns with the mesh.", "quantifier": "for all well-formed meshes the faces of which have normals, in debug and release builds", "why_tests_cant": "Quantifies over all meshes and all positions.", "anchors": ["src/mesh/mesh/normals.rs", "src/halfedge/vertex/basics.rs", "src/math/vector.rs"]}
{"id": "C99", "title": "The exported triangles enclose the volume of the mesh", "statement": "The signed volume enclosed by the triangles of the exported vertex and index buffers is the volume of the mesh.", "quantifier": "for all meshes with planar faces and all buffers that show them; for all triangle meshes without degenerate triangles, all algorithms, in debug and release builds", "why_tests_cant": "Quantifies over all meshes and positions.", "anchors": ["src/mesh/mesh/triangulate.rs", "src/tesselate/mod.rs", "src/tesselate/fixed_n.rs"]}
{"id": "C100", "title": "Solids are exported as closed surfaces that enclose their volume", "statement": "The triangulation of a prism, a cuboid, a regular solid or a geodesic sphere is a closed surface (every side of a triangle is met by one in the opposite direction) with the volume of the solid: h times the area of the base, the product of the sides, l³/(6√2), 4r³/3, 5(3+√5)l³/12; positive for geodesic spheres.", "quantifier": "for all sizes, all simple base polygons, all algorithms of triangulation (prisms over pentagons or more: minimum weight), in debug and release builds", "why_tests_cant": "Quantifies over all sizes, polygons and levels of subdivision.", "anchors": ["src/primitives/prismatoid.rs", "src/primitives/sphere.rs", "src/mesh/mesh/triangulate.rs", "src/tesselate/mod.rs", "src/operations/extrude.rs"]}
{"id": "C101", "title": "Drawing a text", "statement": "layout_text adds one filled polygon per contour of the glyphs, in order; the vertices are the points of the outline scaled and moved to the pen position, which is the sum of the advances and kerns so far; every edge carries the curve of the outline in the right direction; nothing else changes.", "quantifier": "for all fonts (outlines, advances, kerns), texts and well-formed meshes, in debug and release builds", "why_tests_cant": "Quantifies over all fonts and all texts.", "anchors": ["src/mesh/mesh/fonts.rs", "src/mesh/edge/curved.rs", "src/halfedge/mesh/builder/builder.rs"]}
{"id": "C102", "title": "Replacing curved edges by polylines", "statement": "flatten_curved_edges keeps the mesh well-formed, keeps faces, vertices and half-edges, replaces every curved edge by a polyline through points of the curve in order, so that every face has its old corners and these points between them, and leaves no curved edge; to_3d / to_nd then produce a mesh with the same faces without curved edges.", "quantifier": "for all well-formed meshes, curves and tolerances, in debug and release builds", "why_tests_cant": "Quantifies over all meshes, all curves and all tolerances; the recursion depth has no fixed bound.", "anchors": ["src/mesh/mesh/basics.rs", "src/mesh/edge/curved.rs", "src/extensions/bevy/mesh2d.rs", "src/extensions/nalgebra/mesh2d.rs", "src/halfedge/mesh/builder/builder.rs"]}
{"id": "C103", "title": "From a text to triangles", "statement": "Drawing a text, flattening it and converting it to a mesh without curves gives a well-formed mesh whose faces are exactly the contours of the glyphs, in order, with the points of the outlines and of the polylines as corners; triangulating it shows exactly these polygons.", "quantifier": "for all fonts, texts, tolerances, in debug and release builds and for the rotations of both backends", "why_tests_cant": "Quantifies over all fonts, texts and tolerances.", "anchors": ["src/mesh/mesh/fonts.rs", "src/mesh/mesh/basics.rs", "src/mesh/edge/curved.rs", "src/extensions/bevy/mesh2d.rs", "src/extensions/nalgebra/mesh2d.rs", "src/halfedge/mesh/builder/halfedge.rs"]}
{"id": "C104", "title": "Spherical coordinates", "statement": "Converting a vector to spherical coordinates and back gives the vector; converting spherical coordinates in the usual range to a vector and back gives the coordinates; the radius is the length.", "quantifier": "for all vectors and all spherical coordinates (exact real arithmetic)", "why_tests_cant": "Quantifies over all vectors, including the origin and the axis.", "anchors": ["src/math/vector3d.rs"]}
{"id": "C105", "title": "Spherical interpolation follows great circles", "statement": "slerp between two unit vectors that are not opposite runs along the great circle from the first to the second with constant speed and does not depend on the order of the vectors.", "quantifier": "for all pairs of unit vectors, parameters and tolerances, in debug and release builds", "why_tests_cant": "Quantifies over all pairs of vectors and all parameters; fails only for close or opposite vectors.", "anchors": ["src/math/vector3d.rs", "src/mesh/vertex/interpolator.rs"]}
{"id": "C106", "title": "Angles between vectors", "statement": "angle_between is, in the plane, the unique angle in (-π, π] by which the first vector must be turned counter-clockwise to point in the direction of the second; in space it is the angle in [0, π] with the right cosine, is symmetric, and agrees with slerp.", "quantifier": "for all vectors that are not shorter than the tolerance", "why_tests_cant": "Quantifies over all pairs of vectors.", "anchors": ["src/math/vector.rs", "src/math/vector2d.rs", "src/math/vector3d.rs"]}
{"id": "C107", "title": "Importing an SVG document", "statement": "Importing an SVG document adds one filled polygon per visible path, in the order of the document, at the place the document says; flattened and converted, the faces are exactly the polygons of the paths, and triangulating shows them.", "quantifier": "for all documents, tolerances, consistent meshes, in debug and release builds", "why_tests_cant": "Quantifies over all documents (trees of groups and paths with curves); it fails for the usual ways of writing paths.", "anchors": ["src/extensions/svg/svg.rs", "src/mesh/mesh/path_builder.rs", "src/mesh/mesh/basics.rs", "src/mesh/edge/curved.rs"]}
{"id": "C108", "title": "Zigzag polygons", "statement": "generate_zigzag returns the corners of two parallel zigzag lines that meet at both ends. Its sides meet only where they should, its area is known, and every corner opens or closes a part of the polygon for the sweep, as its documentation intends. Inserted into a mesh it is one face with these corners.", "quantifier": "for all even numbers of corners that the assertion accepts, in exact arithmetic", "why_tests_cant": "Quantifies over all numbers of corners; the smallest accepted number divides by zero.", "anchors": ["src/primitives/misc.rs", "src/tesselate/sweep/vertex_type.rs", "src/tesselate/sweep/point.rs"]}
{"id": "C109", "title": "Bounded index types", "statement": "With an index type whose largest number marks deleted elements, every sequence of operations on the storage either panics or does exactly what unbounded numbers would do, and it does not panic because of the index type as long as no more slots are needed than the type has usable numbers.", "quantifier": "for all index types, all sequences of pushes, allocations, writes and deletions, and all elements", "why_tests_cant": "Quantifies over all sequences of operations and all sizes of index types; overflowing a 32-bit index needs billions of elements.", "anchors": ["src/math/index_type.rs", "src/util/deletable.rs", "src/halfedge/vertex/mod.rs", "src/halfedge/edge/mod.rs", "src/halfedge/face/mod.rs"]}
{"id": "C110", "title": "Meshes for Bevy", "statement": "Converting a mesh replaces everything a Bevy mesh contained by an index buffer of triangles and the positions and normals of the vertices. The triangles are those of the triangulated faces, the indices fit into the buffer, and no vertex data is lost.", "quantifier": "for all consistent meshes, index types, usages, previous contents, with smooth or flat normals", "why_tests_cant": "Quantifies over all meshes and index types; it fails for index types and usages that the tests do not use.", "anchors": ["src/extensions/bevy/mesh3d.rs", "src/extensions/bevy/vertex_payload_3d.rs", "src/mesh/mesh/triangulate.rs", "src/math/index_type.rs"]}
{"id": "C111", "title": "Printing a mesh", "statement": "The debug output of a mesh lists every edge exactly once, in ascending order, with the links of both half-edges, whatever the order of the hash map. It determines the connectivity and the payloads of the vertices. For a broken mesh it shows the error of the check.", "quantifier": "for all meshes, and all orders in which the hash map yields its entries", "why_tests_cant": "Quantifies over all meshes and over the random order of a hash map.", "anchors": ["src/halfedge/mesh/pseudo_winged.rs", "src/halfedge/mesh/check.rs", "src/halfedge/vertex/mod.rs", "src/halfedge/face/mod.rs"]}
{"id": "C112", "title": "Sweeping simple polygons", "statement": "The sweep-line triangulation with the linear triangulator ends on every simple counterclockwise polygon, with the same result in debug and release builds. It emits n - 2 counterclockwise triangles that do not overlap and cover exactly the points inside the polygon.", "quantifier": "for all simple polygons with corners at different heights, all tolerances, previous triangles and searches for intervals", "why_tests_cant": "Quantifies over all simple polygons; clockwise triangles appear only when a split follows a merge.", "anchors": ["src/tesselate/sweep/sweep.rs", "src/tesselate/sweep/monotone/linear.rs", "src/tesselate/sweep/status.rs", "src/tesselate/sweep/interval.rs", "src/tesselate/sweep/vertex_type.rs", "src/tesselate/mod.rs"]}
{"id": "C113", "title": "Ways of building a box", "statement": "Each way of building a box (vertex by vertex, by lofting, as a prism, as a cuboid) gives the same closed solid: eight vertices at the corners and six rectangles facing outwards. is_isomorphic_by_pos reports two boxes as equivalent exactly if they have the same size and the same handedness, whichever way they were built.", "quantifier": "for all positive side lengths, payload types, tolerances below the side lengths, both builds, and all ways and half turns or mirrorings of the second box", "why_tests_cant": "The tests compare unit cubes built in two ways; the claim covers all sizes, ways and payloads.", "anchors": ["examples/box.rs", "src/mesh/mesh/iso.rs", "src/mesh/mesh/basics.rs", "src/primitives/prismatoid.rs", "src/halfedge/mesh/builder/path.rs"]}
{"id": "C114", "title": "Flipping a whole mesh", "statement": "flip turns every edge of a mesh around: each half-edge takes the place of its twin while the payloads stay with the ids, the faces are still run through in the same direction, and the result is a consistent mesh. Flipping twice restores every half-edge (is_trivially_isomorphic reports the meshes as equivalent), and is_isomorphic_by_pos reports the flipped mesh as equivalent to the original one.", "quantifier": "for all consistent meshes, payload types and build modes; the comparisons by position for meshes without parallel edges whose vertices differ by more than the tolerance", "why_tests_cant": "The tests flip a triangle and a cube; the claim covers all meshes and every order in which the edges are turned, where each turn relinks the neighbours that earlier turns have renamed.", "anchors": ["src/mesh/mesh/halfedge.rs", "src/mesh/edge/halfedge.rs", "src/halfedge/edge/halfedge.rs", "src/mesh/mesh/basics.rs"]}
{"id": "C115", "title": "Queries of edges, vertices and faces", "statement": "On a consistent mesh the queries of edges, vertices and faces agree with each other: an edge is a boundary exactly if face_ids lists fewer than two faces, and a half-edge and its twin agree; its centroid is the midpoint of its ends. A vertex is a boundary exactly if some half-edge without a face starts there and exactly if it has fewer faces than edges; has_only_one_edge says whether its degree is one; it lists a face as often as the face lists it. The degrees add up to the number of half-edges; so do the numbers of edges of the faces and the number of half-edges without a face; on closed meshes num_triangles adds up accordingly.", "quantifier": "for all consistent meshes, payload types and build modes, all edges, vertices and faces", "why_tests_cant": "The tests evaluate the queries on a triangle and a cube; the claim relates them on all meshes, with dangling edges, holes and faces meeting a vertex several times.", "anchors": ["src/mesh/edge/basics.rs", "src/mesh/vertex/basics.rs", "src/mesh/face/basics.rs", "src/halfedge/edge/basics.rs", "src/halfedge/edge/halfedge.rs", "src/halfedge/vertex/basics.rs", "src/halfedge/face/mod.rs"]}
{"id": "C116", "title": "Swizzles and exchanging y and z", "statement": "The swizzles permute the coordinates as their names say, keep dot products and lengths, and keep (xyz, yzx, zxy) or reverse (xzy, yxz, zyx) cross products. flip_yz exchanges the y and z coordinate of every vertex and changes nothing else, and a second time restores the mesh. Being a reflection it turns every face over: the face normals are the reflected normals times -1, the signed volume changes its sign, and the normals stored in the vertices are left as they were.", "quantifier": "for all meshes, vertex payloads with a position, faces, tolerances and build modes", "why_tests_cant": "There are no tests for these functions; that each swizzle keeps or reverses the orientation, and what that does to all faces of all meshes, is not visible on samples.", "anchors": ["src/math/vector3d.rs", "src/halfedge/mesh/builder/vertex.rs", "src/math/position.rs", "src/mesh/face/face3d.rs"]}
{"id": "C117", "title": "Number of triangles of the sweep on simple polygons", "statement": "In a simple counterclockwise polygon without corners at the same height, the convex local maxima are one more than the reflex local minima, and the convex local minima one more than the reflex local maxima. Hence every sweep that ends on such a polygon without undecisive corners, whatever the triangulator of the monotone parts and the search for intervals, records every corner with the type it was classified as, has one start more than merges, and emits exactly n-2 triangles, which form a triangulation of the polygon (without assuming, as C53 does, the number of starts and merges).", "quantifier": "for all simple counterclockwise polygons over an ordered field without corners at the same height, tolerances, lawful triangulators, interval searches, orders of events, builds", "why_tests_cant": "The count of each type of corner depends on the shape of the whole polygon; tests count triangles of single polygons.", "anchors": ["src/tesselate/sweep/sweep.rs", "src/tesselate/sweep/vertex_type.rs", "src/tesselate/sweep/point.rs"]}
{"id": "C118", "title": "Hems of triangles built backwards", "statement": "loft_tri_back along the boundary of a hole, traversed backwards from `start`, with N > 0 payloads (N at most the number of boundary half-edges, one more with `shift`), adds N new vertices with the payloads in order and a strip of exactly 2(N-1) triangles that alternate between the old and the new vertices (with `shift`, with the other diagonals), replaces the boundary by the one along the strip and changes nothing else; it returns the boundary half-edge from the first new vertex to the target of `start`. loft_tri_back_closed with as many payloads as half-edges adds a closed hem of 2L triangles and the hole is then bounded by exactly the new vertices. Without payloads nothing happens.", "quantifier": "for all good meshes, boundary half-edges, payloads, both values of shift, both builds (debug: no boundary half-edge with equal ends, at least three payloads for the closed hem)", "why_tests_cant": "Each step re-links the boundary loop left by the previous one and the debug assertions depend on all neighbours of the last vertex; tests cover single sizes, and none covers `shift`.", "anchors": ["src/operations/loft.rs"]}
{"id": "C119", "title": "Vectors with any number of coordinates", "statement": "In the nalgebra backend, length, distance and dot product (summed by Neumaier's algorithm) of vectors with D coordinates are those of Euclidean space: the distance is a metric and |a·b| ≤ |a||b|. normalize gives the vector of length 1 in the same direction and panics on the zero vector. The constructors set the given coordinates and drop those that do not exist. For D ≠ 2 the angle between two vectors not shorter than the tolerance is the Euclidean angle. is_about holds for vectors closer than the tolerance and bounds the distance by √D times the tolerance. translate and scale are the transforms by from_translation and from_scale (also for the planar payload and the four-dimensional vectors of the Bevy backend), lerp moves in proportion to t and commutes with all transforms.", "quantifier": "for all dimensions D, vectors over the reals, tolerances > 0, transforms, interpolation parameters", "why_tests_cant": "There are no tests for these functions; the triangle inequality, commutation with all transforms and all dimensions cannot be sampled.", "anchors": ["src/extensions/nalgebra/math/vec_n.rs", "src/math/vector.rs", "src/math/transformable.rs", "src/extensions/bevy/vertex_payload_2d.rs", "src/extensions/bevy/math/vec4.rs", "src/extensions/bevy/math/mat5.rs"]}
{"id": "C120", "title": "Iterators over half-edges as state machines", "statement": "However often `next` is called, the forward and backward iterators over a loop and the iterator around a vertex yield every half-edge of the loop (wheel) exactly once, in order, and afterwards only None; the empty iterator yields nothing. The size hint of the forward iterator, an ExactSizeIterator, is at every moment the number of half-edges still to come.", "quantifier": "for all good meshes, half-edges, vertices and numbers of calls, in both builds", "why_tests_cant": "The tests consume new iterators completely; the size hint in the middle of the iteration and calls after the end are never looked at.", "anchors": ["src/halfedge/edge/iterator.rs", "src/halfedge/vertex/iterator.rs"]}
{"id": "C121", "title": "Boundary half-edge of a vertex", "statement": "outgoing_boundary_edge and ingoing_boundary_edge return a boundary half-edge starting (ending) at the vertex if there is one and None otherwise, without panicking in debug builds either.", "quantifier": "for all good meshes and live vertices, in both builds", "why_tests_cant": "They are only called while building, at vertices with exactly one such half-edge; the answer at inner vertices and at vertices on several boundaries is not tested.", "anchors": ["src/mesh/vertex/halfedge.rs"]}
{"id": "C122", "title": "Rotations of the nalgebra backend", "statement": "NdRotate gives back the matrix it was made of in every dimension. from_angle (plane) turns (1,0) to (cos, sin) and panics in other dimensions; from_axis_angle (space, unit axis) keeps the axis and turns the vectors orthogonal to it by the angle, and panics in other dimensions; both are rotations (orthogonal, determinant 1), and rotating twice is rotating by the sum of the angles. In the plane from_rotation_arc is a rotation that turns the direction of the first vector to that of the second. rotate with a rotation matrix keeps dot products, lengths and distances.", "quantifier": "for all dimensions, angles, unit axes, vectors over the reals (from_rotation_arc: not zero)", "why_tests_cant": "The test looks at four quarter turns; the composition of all angles and the preservation of all distances cannot be sampled.", "anchors": ["src/extensions/nalgebra/math/rotate.rs", "src/extensions/nalgebra/math/transform_n.rs", "src/math/transformable.rs"]}
{"id": "C123", "title": "Orders used for sorting", "statement": "The implementations of Ord obey the laws of std::cmp: `==` holds exactly if `cmp` is Equal, `cmp` is antisymmetric and transitive. This concerns OrderedFloats (numbers), EventPoint (the events of the sweep: from top to bottom, then from right to left) and SLISorter (the intervals in the b-tree: from right to left at every common height).", "quantifier": "for all numbers and NaN, all points, all triples of segments with a common height", "why_tests_cant": "No test compares NaN, events at the same height or segments that cross; transitivity is a statement about all triples.", "anchors": ["src/math/scalar.rs", "src/tesselate/sweep/point.rs", "src/tesselate/sweep/status.rs"]}
{"id": "C124", "title": "B-tree search of the sweep line", "statement": "As long as the active intervals are disjoint and their left edges have no common point, find_by_position returns the interval that contains the position and None if there is none, no matter whether it searches linearly or in the b-tree; init_btree, insert and remove_left keep the tree equal to the left edges of the active intervals in order, the assertions on insertion and removal hold, and the tree stays in order while the sweep line moves.", "quantifier": "for all statuses, trees, positions and heights of the sweep line", "why_tests_cant": "The tree is only used for polygons with more than 8 vertices, and its order depends on the heights of all active edges; tests only see a few polygons, and positions outside of all intervals hardly occur in them.", "anchors": ["src/tesselate/sweep/status.rs", "src/tesselate/sweep/interval.rs", "src/tesselate/sweep/sweep.rs"]}
{"id": "C125", "title": "Beam of a sweep line edge", "statement": "IntervalBoundaryEdge::beam returns the parameters of the only line f(y) = a*y + b through the end points of the edge, None exactly for horizontal edges, f agrees with x_at_y at all heights, and the heights of the edge satisfy the documented bound y >= c.", "quantifier": "for all edges and heights", "why_tests_cant": "The function is public but neither used nor tested; the claim is about all heights.", "anchors": ["src/tesselate/sweep/interval.rs"]}
