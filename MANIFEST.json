{"claims":[
{"property": "C01", "status": "proved", "theorems": ["Verif.StoreProps.c01_lookup", "Verif.StoreProps.c01_has", "Verif.StoreProps.c01_push_fresh", "Verif.StoreProps.c01_reserve_fresh", "Verif.StoreProps.c01_fill", "Verif.StoreProps.c01_fill_live", "Verif.StoreProps.c01_delete_iff"], "note": "All histories of store operations, all ids, any element type; set is used only on reserved slots as documented in the code."},
{"property": "C02", "status": "proved", "theorems": ["Verif.StoreProps.c02_len", "Verif.StoreProps.c02_len_filled", "Verif.StoreProps.c02_iter"], "note": ""},
{"property": "C03", "status": "proved", "theorems": ["Verif.StoreProps.c03_lt_capacity", "Verif.StoreProps.c03_capacity_eq_peak", "Verif.StoreProps.c03_grow_only_when_full"], "note": "Capacity is shown equal to the peak number of ids in use, stronger than the stated bound."},
{"property": "C04", "status": "proved", "theorems": ["Verif.MeshProps.c04_add_vertex", "Verif.MeshProps.c04_add_isolated_edge"], "note": "All consistent meshes; complete records given."},
{"property": "C05", "status": "proved", "theorems": ["Verif.MeshProps.c05_add_vertex_via_edge"], "note": "Both build modes."},
{"property": "C06", "status": "proved", "theorems": ["Verif.MeshProps.c06_add_vertex_via_vertex", "Verif.MeshProps.c06_no_edges"], "note": "A vertex with a single boundary edge is the special case of exactly one outgoing boundary half-edge."},
{"property": "C07", "status": "proved", "theorems": ["Verif.MeshProps.c07_insert_edge", "Verif.MeshProps.c07_same_loop"], "note": "c07_insert_edge asks only for what the debug assertions ask for; c07_same_loop is the stated form (one common loop, non-adjacent ends)."},
{"property": "C08", "status": "partial", "theorems": ["Verif.MeshProps.c08_insert_edge_partial", "Verif.MeshProps.c08_never_consistent", "Verif.MeshProps.c08_witness"], "note": "The code violates the property: whenever one corner lies in a face the result is inconsistent (c08_never_consistent, concrete witness c08_witness). The partial theorem covers boundary corners."},
{"property": "C09", "status": "proved", "theorems": ["Verif.MeshProps.c09_insert_edge_between"], "note": ""},
{"property": "C10", "status": "proved", "theorems": ["Verif.MeshProps.c10_close_hole"], "note": ""},
{"property": "C11", "status": "proved", "theorems": ["Verif.MeshProps.c11_close_face"], "note": ""},
{"property": "C12", "status": "proved", "theorems": ["Verif.MeshProps.c12_remove_face", "Verif.MeshProps.c12_close_then_remove", "Verif.MeshProps.c12_reuse"], "note": ""},
{"property": "C13", "status": "proved", "theorems": ["Verif.MeshProps.c13_flip_edge", "Verif.MeshProps.c13_flip_twice", "Verif.MeshProps.c13_dangling_corrupts"], "note": "For edges without dangling tip; c13_dangling_corrupts shows the restriction is needed."},
{"property": "C14", "status": "proved", "theorems": ["Verif.MeshProps.c14_programs", "Verif.MeshProps.c14_from_empty", "Verif.MeshProps.c14_even"], "note": ""},
{"property": "C15", "status": "proved", "theorems": ["Verif.MeshProps.c15_loop", "Verif.MeshProps.c15_face_edges", "Verif.MeshProps.c15_backward", "Verif.MeshProps.c15_num_edges"], "note": "All consistent meshes."},
{"property": "C16", "status": "proved", "theorems": ["Verif.MeshProps.c16_edges_out", "Verif.MeshProps.c16_edges_in", "Verif.MeshProps.c16_neighbors", "Verif.MeshProps.c16_isolated"], "note": "All consistent meshes, both build modes."},
{"property": "C17", "status": "proved", "theorems": ["Verif.MeshProps.c17_shared_edge", "Verif.MeshProps.c17_symmetric"], "note": ""},
{"property": "C18", "status": "proved", "theorems": ["Verif.MeshProps.c18_check_iff", "Verif.MeshProps.c18_complete", "Verif.MeshProps.c18_total"], "note": "Exact characterisation of acceptance on arbitrary (also malformed) meshes."},
{"property": "C19", "status": "partial", "theorems": ["Verif.MeshProps.c19_partial", "Verif.MeshProps.c19_two_wheels", "Verif.MeshProps.c19_two_loops", "Verif.MeshProps.c19_self_twins", "Verif.MeshProps.c19_missing"], "note": "The checker violates the property (c19_two_wheels, c19_two_loops). c19_partial: loops have one face, wheels one origin; c19_missing lists exactly the missing tests."},
{"property": "C20", "status": "proved", "theorems": ["Verif.MeshProps.c20_insert_path", "Verif.MeshProps.c20_short"], "note": "Complete records of the new path; both build modes."},
{"property": "C21", "status": "proved", "theorems": ["Verif.MeshProps.c21_insert_loop", "Verif.MeshProps.c21_insert_polygon"], "note": "Complete records of the new cycle; both build modes."},
{"property": "C22", "status": "partial", "theorems": ["Verif.MeshProps.c22_partial", "Verif.MeshProps.c22_debug_panics", "Verif.MeshProps.c22_release_corrupts"], "note": "The code violates the property for every input: panics in debug builds, corrupts the mesh in release builds. c22_partial shows that closing the hole at the returned half-edge itself would be right."},
{"property": "C23", "status": "partial", "theorems": ["Verif.MeshProps.c23_partial", "Verif.MeshProps.c23_consistent_iff", "Verif.MeshProps.c23_returned"], "note": "The code violates the property when the origin does not have exactly two edges (c23_consistent_iff), and the returned half-edge never starts in the previous origin (c23_returned)."},
{"property": "C24", "status": "partial", "theorems": ["Verif.MeshProps.c24_fill_hole_apex_partial", "Verif.MeshProps.c24_pinched"], "note": "Proved for holes that meet every vertex once; c24_pinched shows the code fails for a hole touching its start vertex twice."},
{"property": "C25", "status": "proved", "theorems": ["Verif.MeshProps.c25_import", "Verif.MeshProps.c25_isolated_panics"], "note": ""},
{"property": "C26", "status": "proved", "theorems": ["Verif.MeshProps.c26_twin_edges"], "note": ""},
{"property": "C27", "status": "proved", "theorems": ["Verif.MeshProps.c27_shortest_path"], "note": ""},
{"property": "C28", "status": "proved", "theorems": ["Verif.MeshProps.c28_adjacency", "Verif.MeshProps.c28_laplacian", "Verif.MeshProps.c28_sparse_panics"], "note": ""},
{"property": "C29", "status": "partial", "theorems": ["Verif.MeshProps.c29_partial", "Verif.MeshProps.c29_nonzero_rows"], "note": "The code subtracts the weighted adjacency from the unweighted degree, so rows sum to degree minus total weight (c29_partial); witness c29_nonzero_rows."},
{"property": "C30", "status": "partial", "theorems": ["Verif.MeshProps.c30_rotation_partial", "Verif.MeshProps.c30_empty"], "note": "Holds except for two empty lists, which are rotations of each other but compare as different (c30_empty)."},
{"property": "C31", "status": "partial", "theorems": ["Verif.MeshProps.c31_partial", "Verif.MeshProps.c31_reflexive", "Verif.MeshProps.c31_mirrored_star"], "note": "The code follows the other mesh's ids in the first mesh; it accepts stars with different order of leaves (c31_mirrored_star). What equivalence does imply is c31_partial."},
{"property": "C32", "status": "proved", "theorems": ["Verif.MeshProps.c32_match", "Verif.MeshProps.c32_finds"], "note": ""},
{"property": "C33", "status": "partial", "theorems": ["Verif.MeshProps.c33_compact_partial", "Verif.MeshProps.c33_sparse", "Verif.MeshProps.c33_iff", "Verif.MeshProps.c33_stale_index"], "note": "Indices are never remapped; right for all buffers iff vertex ids are consecutive (c33_iff)."},
{"property": "C34", "status": "proved", "theorems": ["Verif.GeomProps.c34_buffer", "Verif.GeomProps.c34_insert"], "note": ""},
{"property": "C35", "status": "proved", "theorems": ["Verif.GeomProps.c35_flip_edge", "Verif.GeomProps.c35_repeated_corner"], "note": "For triangles with three different corners; c35_repeated_corner shows the restriction is needed."},
{"property": "C36", "status": "partial", "theorems": ["Verif.GeomProps.c36_start_zero_partial", "Verif.GeomProps.c36_area", "Verif.GeomProps.c36_indices_used", "Verif.GeomProps.c36_indices", "Verif.GeomProps.c36_skips_all", "Verif.GeomProps.c36_skips_pairs", "Verif.GeomProps.c36_negative_triangle", "Verif.GeomProps.c36_panics", "Verif.GeomProps.c36_wrong_area"], "note": "The code violates the property for buffers that were not empty (triangles skipped, or panic), and the area check accepts anything up to twice the area (c36_area). Complete coverage proved for an empty buffer."},
{"property": "C37", "status": "proved", "theorems": ["Verif.GeomProps.c37_fan"], "note": ""},
{"property": "C38", "status": "partial", "theorems": ["Verif.GeomProps.c38_partial", "Verif.GeomProps.c38_small", "Verif.GeomProps.c38_not_an_ear", "Verif.GeomProps.c38_not_an_ear_strict", "Verif.GeomProps.c38_panics"], "note": "The code violates the property: from the third triangle on it may cut off a corner that is not an ear (c38_not_an_ear), and it panics on quadrilaterals with a vertex on a side (c38_panics). c38_partial: never hangs; if it finishes, the reversed triangles triangulate the polygon and the first two are ears."},
{"property": "C39", "status": "partial", "theorems": ["Verif.GeomProps.c39_partial", "Verif.GeomProps.c39_ear"], "note": "Ear clipping violates the property: all its triangles are reversed and their areas add up to minus the area (c39_ear). The other three are proved (c39_partial)."},
{"property": "C40", "status": "proved", "theorems": ["Verif.GeomProps.c40_optimal", "Verif.GeomProps.c40_none"], "note": ""},
{"property": "C41", "status": "proved", "theorems": ["Verif.GeomProps.c41_index", "Verif.GeomProps.c41_store"], "note": ""},
{"property": "C42", "status": "partial", "theorems": ["Verif.GeomProps.c42_covers", "Verif.GeomProps.c42_partial", "Verif.GeomProps.c42_swapped", "Verif.GeomProps.c42_longer", "Verif.GeomProps.c42_outside"], "note": "The convexity test of the first branch has its arguments swapped: in a convex counter-clockwise quadrilateral the diagonal 0-2 is never used if it is the shorter one (c42_swapped, c42_longer), and a diagonal outside a dart is used (c42_outside). Coverage and the other branch are proved."},
{"property": "C43", "status": "proved", "theorems": ["Verif.GeomProps.c43_chain", "Verif.GeomProps.c43_finish", "Verif.GeomProps.c43_boundary"], "note": ""},
{"property": "C44", "status": "partial", "theorems": ["Verif.GeomProps.c44_status_partial", "Verif.GeomProps.c44_sweep", "Verif.GeomProps.c44_collision"], "note": "Fails for arbitrary histories: a second interval inserted under a key in use leaves a stale right key (c44_collision). Proved for histories that insert under unused keys, and the sweep is shown to produce only such histories (c44_sweep)."},
{"property": "C45", "status": "proved", "theorems": ["Verif.GeomProps.c45_translate", "Verif.GeomProps.c45_rotate", "Verif.GeomProps.c45_reverse", "Verif.GeomProps.c45_linear", "Verif.GeomProps.c45_cut", "Verif.GeomProps.c45_fan", "Verif.GeomProps.c45_orientation", "Verif.GeomProps.c45_orientation_simple"], "note": ""},
{"property": "C46", "status": "partial", "theorems": ["Verif.GeomProps.c46_between_partial", "Verif.GeomProps.c46_strict_partial", "Verif.GeomProps.c46_rotate", "Verif.GeomProps.c46_plus_zero", "Verif.GeomProps.c46_orientation_dependent"], "note": "The boundary convention depends on the orientation of the triangle because the sign tests read the sign bit (c46_orientation_dependent); otherwise the test is exact between open and closed triangle."},
{"property": "C47", "status": "proved", "theorems": ["Verif.GeomProps.c47_sound", "Verif.GeomProps.c47_complete", "Verif.GeomProps.c47_swap"], "note": ""},
{"property": "C48", "status": "proved", "theorems": ["Verif.GeomProps.c48_ends", "Verif.GeomProps.c48_hull", "Verif.GeomProps.c48_translate", "Verif.GeomProps.c48_linear", "Verif.GeomProps.c48_reverse"], "note": ""},
{"property": "C49", "status": "proved", "theorems": ["Verif.GeomProps.c49_uniform", "Verif.GeomProps.c49_order", "Verif.GeomProps.c49_terminates", "Verif.GeomProps.c49_total", "Verif.GeomProps.c49_negative"], "note": ""},
{"property": "C50", "status": "partial", "theorems": ["Verif.GeomProps.c50_nd_partial", "Verif.GeomProps.c50_nd_uniform", "Verif.GeomProps.c50_nd_scale", "Verif.GeomProps.c50_mat5_partial", "Verif.GeomProps.c50_mat5_order", "Verif.GeomProps.c50_glam_partial", "Verif.GeomProps.c50_glam_order", "Verif.GeomProps.c50_bevy_partial", "Verif.GeomProps.c50_bevy_order", "Verif.GeomProps.c50_bevy_not_composition"], "note": "Of the four backends only NdAffine chains in the documented order, and its with_scale is wrong unless the scale commutes with the linear part (c50_nd_scale). Mat5, Affine2 and Transform chain in the opposite order; Mat5 and Transform do not scale earlier translations, Transform replaces them and is not even a composition (c50_*_order, c50_bevy_not_composition). What does hold is in the _partial theorems."},
{"property": "C51", "status": "proved", "theorems": ["Verif.Geom.c51_sum", "Verif.Geom.c51_vectors", "Verif.Geom.c51_stable"], "note": ""},
{"property": "C52", "status": "proved", "theorems": ["Verif.MeshProps.c52", "Verif.MeshProps.c52_refused", "Verif.MeshProps.c52_linear"], "note": ""},
{"property": "C53", "status": "partial", "theorems": ["Verif.GeomProps.c53_sweep_partial", "Verif.GeomProps.c53_linear_partial", "Verif.GeomProps.c53_no_opposite", "Verif.GeomProps.c53_panics"], "note": "Proved for every sweep that ends without a panic, including coverage of the polygon. The sweep with the linear triangulator panics on simple polygons where a split follows a left vertex (c53_panics, c53_no_opposite)."},
{"property": "C54", "status": "partial", "theorems": ["Verif.GeomProps.c54_quadratic_partial", "Verif.GeomProps.c54_s_curve"], "note": "Proved for straight and quadratic edges. Cubic edges violate it: an S-shaped edge is flattened to its chord for every bound (c54_s_curve)."},
{"property": "C55", "status": "proved", "theorems": ["Verif.MeshProps.c55_sound", "Verif.MeshProps.c55_adjacent_iff", "Verif.MeshProps.c55_complete", "Verif.MeshProps.c55_total"], "note": ""},
{"property": "C56", "status": "proved", "theorems": ["Verif.MeshProps.c56_loop", "Verif.MeshProps.c56_linear", "Verif.MeshProps.c56_sphere"], "note": ""},
{"property": "C57", "status": "partial", "theorems": ["Verif.MeshProps.c57_boundary", "Verif.MeshProps.c57_partial"], "note": "The code violates the property: subdividing a single triangle leaves 15 half-edges, twins that do not point back, and check() returns false (c57_boundary). Proved for closed meshes (c57_partial)."},
{"property": "C58", "status": "proved", "theorems": ["Verif.MeshProps.c58_finds", "Verif.MeshProps.c58_close_face_vertices"], "note": ""},
{"property": "C59", "status": "proved", "theorems": ["Verif.MeshProps.c59_loft_polygon_back"], "note": "Both build modes; a debug build needs at least three payloads (two would make parallel edges, which its assertions refuse)."},
{"property": "C60", "status": "proved", "theorems": ["Verif.MeshProps.c60_loft_tri", "Verif.MeshProps.c60_loft_tri_closed", "Verif.MeshProps.c60_loft_tri_shift", "Verif.MeshProps.c60_not_target"], "note": "The documentation of loft_tri names the wrong end of the returned half-edge (c60_not_target)."},
{"property": "C61", "status": "partial", "theorems": ["Verif.MeshProps.c61_loft_polygon_partial", "Verif.MeshProps.c61_refused", "Verif.MeshProps.c61_returned"], "note": "The code violates the property: it panics unless n = m = 2 (c61_refused), and it returns the half-edge from the first new vertex to the second (c61_returned). For n = m = 2 everything else is proved."},
{"property": "C62", "status": "proved", "theorems": ["Verif.MeshProps.c62_extrude", "Verif.MeshProps.c62_extrude_face", "Verif.MeshProps.c62_extrude_tri", "Verif.MeshProps.c62_extrude_tri_face", "Verif.MeshProps.c62_extrude_tri2"], "note": "Debug builds need at least three half-edges (two would make parallel edges, which the assertions refuse)."},
{"property": "C63", "status": "proved", "theorems": ["Verif.MeshProps.c63_prism", "Verif.MeshProps.c63_pyramid", "Verif.MeshProps.c63_antiprism_iter", "Verif.MeshProps.c63_frustum", "Verif.MeshProps.c63_cuboid", "Verif.MeshProps.c63_tetrahedron", "Verif.MeshProps.c63_bipyramid"], "note": "The translation of insert_prism is a parameter computed from the face (the normal may be undefined). c63_bipyramid is regular_octahedron over any base."},
{"property": "C64", "status": "proved", "theorems": ["Verif.MeshProps.c64_uv_sphere", "Verif.MeshProps.c64_uv_sphere_panics"], "note": ""},
{"property": "C65", "status": "proved", "theorems": ["Verif.MeshProps.c65_icosahedron"], "note": ""},
{"property": "C66", "status": "partial", "theorems": ["Verif.MeshProps.c66_dodecahedron_false", "Verif.MeshProps.c66_dodecahedron_partial"], "note": "The code violates the property: panic in debug builds, inconsistent mesh in release builds (c66_dodecahedron_false). Only the numbers of vertices, half-edges and faces are right in release builds."},
{"property": "C67", "status": "partial", "theorems": ["Verif.MeshProps.c67_antiprism", "Verif.MeshProps.c67_smooth_frustum"], "note": "The code violates the property: both always panic."},
{"property": "C68", "status": "partial", "theorems": ["Verif.MeshProps.c68_extrude_boundary", "Verif.MeshProps.c68_extrude_boundary_partial", "Verif.MeshProps.c68_extrude_boundary_false"], "note": "The code violates the property: only loops along the first edge of some face are extruded (c68_extrude_boundary_false). What it does to every mesh is c68_extrude_boundary; if every loop runs along the first edge of a face, no boundary remains."},
{"property": "C69", "status": "partial", "theorems": ["Verif.R3.c69_icosahedron", "Verif.R3.c69_octahedron", "Verif.R3.c69_tetrahedron_partial", "Verif.R3.c69_tetrahedron_false", "Verif.R3.c69_refused"], "note": "Proved for the icosahedron and the octahedron. The code violates the property for geodesic_tetrahedron: its four old corners are not on the sphere. Exact real arithmetic."},
{"property": "C70", "status": "proved", "theorems": ["Verif.R3.c70_icosahedron", "Verif.R3.c70_octahedron", "Verif.R3.c70_tetrahedron", "Verif.R3.c70_r2a"], "note": "Exact real arithmetic."},
{"property": "C71", "status": "proved", "theorems": ["Verif.R3.c71_area", "Verif.R3.c71_plane", "Verif.R3.c71_perp", "Verif.R3.c71_rotate", "Verif.R3.c71_reverse", "Verif.R3.c71_face", "Verif.R3.c71_triangle"], "note": "Exact real arithmetic. Debug builds assert planarity of faces that are not curved."},
{"property": "C72", "status": "partial", "theorems": ["Verif.R3.c72_planar", "Verif.R3.c72_planar_partial", "Verif.R3.c72_planar_collinear", "Verif.R3.c72_planar_false", "Verif.R3.c72_planar_scale", "Verif.R3.c72_convex", "Verif.R3.c72_normal_naive", "Verif.R3.c72_convex_false"], "note": "The code violates the property: faces whose first three vertices are collinear are always accepted as planar (c72_planar_false), and stars as convex (c72_convex_false). Proved: planar and strictly convex faces are accepted, and normal_naive is right for them."},
{"property": "C73", "status": "partial", "theorems": ["Verif.R3.c73_prism", "Verif.R3.c73_volume", "Verif.R3.c73_prism_volume", "Verif.R3.c73_regular_prism", "Verif.R3.c73_uniform_prism", "Verif.R3.c73_regular_antiprism", "Verif.R3.c73_uniform_antiprism_false"], "note": "The code violates the property for uniform_antiprism: the lateral edges are always too long. Everything else is proved. Exact real arithmetic."},
{"property": "C74", "status": "proved", "theorems": ["Verif.R3.c74_uv_sphere"], "note": "Exact real arithmetic."},
{"property": "C75", "status": "partial", "theorems": ["Verif.GeomProps.c75_det", "Verif.GeomProps.c75_centre", "Verif.GeomProps.c75_in_circle", "Verif.GeomProps.c75_clockwise", "Verif.GeomProps.c75_both_sides", "Verif.GeomProps.c75_flip", "Verif.GeomProps.c75_both_flipped"], "note": "The code violates the property on the circle: is_positive(+0.0) is true, so that points on the circle count as inside and both diagonals of a square are to be flipped (c75_both_flipped). Proved for all points off the circle."},
{"property": "C76", "status": "proved", "theorems": ["Verif.GeomProps.c76_chain", "Verif.GeomProps.c76_like_linear", "Verif.GeomProps.c76_enough_steps", "Verif.GeomProps.c76_constrained", "Verif.GeomProps.c76_sweep", "Verif.GeomProps.c76_panics"], "note": "Exact arithmetic. Identifiers of the vertices are assumed to be different. c76_panics: the sweep itself panics for some simple polygons, as in C53."},
{"property": "C77", "status": "proved", "theorems": ["Verif.GeomProps.c77_linear", "Verif.GeomProps.c77_delaunay", "Verif.GeomProps.dented_monotone"], "note": "Exact arithmetic. Far: no two vertices are closer than the bound below which angle returns zero (always true for the bound zero). That the sweep feeds the vertices in this order is not part of the claim."},
{"property": "C78", "status": "proved", "theorems": ["Verif.GeomProps.c78_linear", "Verif.GeomProps.c78_delaunay", "Verif.GeomProps.c78_sweep", "Verif.GeomProps.queue_exists", "Verif.GeomProps.dentedRing_monotone"], "note": "Exact arithmetic. YMonotone asks for different heights of all corners; findLinearly is used to search for intervals (c78_linear and c78_delaunay hold for every search)."},
{"property": "C79", "status": "proved", "theorems": ["Verif.GeomProps.c79_sweep_partial", "Verif.GeomProps.c79_monotone", "Verif.GeomProps.c79_panics"], "note": "Exact arithmetic. Weights are any symmetric function with values in an ordered monoid. c79_sweep_partial says nothing about sweeps that panic, and c79_panics shows that some do."},
{"property": "C80", "status": "proved", "theorems": ["Verif.GeomProps.c80_winding", "Verif.GeomProps.c80_count", "Verif.GeomProps.c80_contains", "Verif.GeomProps.c80_reverse"], "note": "Exact arithmetic, points on no side. The i32 counter does not overflow in the model."},
{"property": "C81", "status": "proved", "theorems": ["Verif.GeomProps.c81_valid", "Verif.GeomProps.c81_sound", "Verif.GeomProps.c81_general", "Verif.GeomProps.c81_minweight", "Verif.GeomProps.c81_tiny"], "note": "Exact arithmetic. With the tolerance of the code only soundness is shown, for segments that are not nearly parallel to a side they meet; c81_tiny shows that this is needed."},
{"property": "C82", "status": "proved", "theorems": ["Verif.GeomProps.c82_exists", "Verif.GeomProps.c82_minweight"], "note": "Exact arithmetic, no three collinear corners."},
{"property": "C83", "status": "proved", "theorems": ["Verif.GeomProps.c83_tiling", "Verif.GeomProps.c83_ccw", "Verif.GeomProps.c83_winding", "Verif.GeomProps.c83_contains", "Verif.GeomProps.c83_minweight"], "note": "Exact arithmetic, no three collinear corners."},
{"property": "C84", "status": "proved", "theorems": ["Verif.GeomProps.c84_ears", "Verif.GeomProps.c84_tiling", "Verif.GeomProps.c84_clockwise"], "note": "Exact arithmetic, no three corners collinear up to the tolerance; c84_clockwise shows that the orientation matters."},
{"property": "C85", "status": "partial", "theorems": ["Verif.MeshProps.c85_polygon_partial", "Verif.MeshProps.c85_svg_loop_partial", "Verif.MeshProps.c85_open_panics", "Verif.MeshProps.c85_empty", "Verif.MeshProps.c85_close_never_draws", "Verif.MeshProps.c85_start_at_edge", "Verif.MeshProps.c85_svg_open_panics", "Verif.MeshProps.c85_svg_subpaths_panic", "Verif.MeshProps.c85_existing_start"], "note": "Proved for paths of at least three new vertices that return to their start explicitly; the code panics on all open paths, on second subpaths and on existing start vertices (negations proved)."},
{"property": "C86", "status": "partial", "theorems": ["Verif.R3.c86_nalgebra_partial", "Verif.R3.c86_nalgebra_panics", "Verif.R3.c86_nalgebra_near", "Verif.R3.c86_bevy", "Verif.R3.c86_bevy_near", "Verif.R3.c86_dist", "Verif.R3.c86_area", "Verif.R3.c86_simple", "Verif.R3.c86_face", "Verif.R3.c86_bevy_face", "Verif.R3.c86_polygon", "Verif.R3.c86_nalgebra_square_panics", "Verif.R3.c86_nalgebra_face_panics", "Verif.R3.c86_agree", "Verif.R3.c86_rotation"], "note": "Proved with Bevy; with nalgebra the code panics exactly on faces whose normal is (within eps) opposite to the z axis (negation proved)."},
{"property": "C87", "status": "partial", "theorems": ["Verif.GeomProps.c87_complete_partial", "Verif.GeomProps.c87_iff", "Verif.GeomProps.c87_sound", "Verif.GeomProps.c87_simple", "Verif.GeomProps.c87_mono", "Verif.GeomProps.c87_small", "Verif.GeomProps.c87_missed"], "note": "Soundness and an exact characterisation are proved; crossings through a corner, overlapping sides and small polygons are missed (negations proved). For faces of meshes see Verif.R3.c87_face."},
{"property": "C88", "status": "partial", "theorems": ["Verif.R3.c88_laid", "Verif.R3.c88_few", "Verif.R3.c88_triangle", "Verif.R3.c88_todo", "Verif.R3.c88_quad_tiled", "Verif.R3.c88_quad", "Verif.R3.c88_quad_fails", "Verif.R3.c88_ear_partial", "Verif.R3.c88_min_weight", "Verif.R3.c88_fan", "Verif.R3.c88_sweeps_partial", "Verif.R3.c88_area"], "note": "Proved for triangles, the minimum-weight triangulation and fans; darts are not tiled by any algorithm, ears face the other way and two algorithms are missing (negations proved). For the sweeps only the boundary and the area are proved. The Delaunay triangulation is a parameter."},
{"property": "C89", "status": "partial", "theorems": ["Verif.R3.c89_delaunay_partial", "Verif.R3.c89_face_partial", "Verif.R3.c89_convex_partial", "Verif.R3.c89_fails"], "note": "Proved if no edge of the mesh joins two corners of the face except for its sides, and the corners are not closer than the tolerance; fails otherwise (negation proved). The constrained triangulation (crate spade) is a parameter."},
{"property": "C90", "status": "partial", "theorems": ["Verif.R3.c90_partial", "Verif.R3.c90_min_weight_partial", "Verif.R3.c90_fan_partial", "Verif.R3.c90_auto_partial", "Verif.R3.c90_programs", "Verif.R3.c90_fails"], "note": "Proved for meshes whose vertices are numbered without gaps and whose faces are triangulated properly; fails with gaps (negation proved)."},
{"property": "C91", "status": "proved", "theorems": ["Verif.R3.c91_flat", "Verif.R3.c91_min_weight"], "note": "Normals of faces without area are NaN in the source; such faces are not triangulated properly."},
{"property": "C92", "status": "partial", "theorems": ["Verif.R3.c92_closed", "Verif.R3.c92_algorithms_partial", "Verif.R3.c92_auto_partial", "Verif.R3.c92_ear", "Verif.R3.c92_ear_fails"], "note": "Proved for all algorithms but ear clipping (for the Delaunay triangulation with the hypotheses of C89); fails for ear clipping (negation and exact condition proved)."},
{"property": "C93", "status": "partial", "theorems": ["Verif.R3.c93_min_weight_partial", "Verif.R3.c93_fan_partial"], "note": "For minimum-weight triangulations and (convex polygons) fans. Normals that the rotation does not handle (C86) and quadrilaterals dented at the wrong diagonal (C88) are excluded: the code fails there."},
{"property": "C94", "status": "partial", "theorems": ["Verif.R3.c94_regular", "Verif.R3.c94_regular_export", "Verif.R3.c94_star", "Verif.R3.c94_star_export_partial", "Verif.R3.c94_symmetric", "Verif.R3.c94_odd_not_symmetric", "Verif.R3.c94_straight"], "note": "Proved for regular polygons; stars with an odd number of corners are not symmetric (negation and exact condition proved); the export of stars is proved if no three corners are on a line."},
{"property": "C95", "status": "partial", "theorems": ["Verif.R3.c95_points", "Verif.R3.c95_faces_down", "Verif.R3.c95_export_partial", "Verif.R3.c95_nalgebra_panics"], "note": "Points proved; the polygon faces downwards and cannot be triangulated with nalgebra (negation proved); with Bevy the export is proved if no three corners are on a line."},
{"property": "C96", "status": "partial", "theorems": ["Verif.R3.c96_topology", "Verif.R3.c96_compose", "Verif.R3.c96_identity", "Verif.R3.c96_corners", "Verif.R3.c96_watertight", "Verif.R3.c96_area", "Verif.R3.c96_normals", "Verif.R3.c96_volume", "Verif.R3.c96_payloads", "Verif.R3.c96_curve", "Verif.R3.c96_inside_out"], "note": "Everything but that the volume stays positive: maps that mirror turn the mesh inside out (negation proved)."},
{"property": "C97", "status": "partial", "theorems": ["Verif.R3.c97_rigid", "Verif.R3.c97_nd_iff", "Verif.R3.c97_bevy_iff", "Verif.R3.c97_bevyScale_iff", "Verif.R3.c97_ndScale_iff", "Verif.R3.c97_bevy_translation", "Verif.R3.c97_scale"], "note": "Proved for rigid motions; false for scales and for Bevy transforms that translate (negations and exact conditions proved)."},
{"property": "C98", "status": "partial", "theorems": ["Verif.R3.c98_smooth", "Verif.R3.c98_unit", "Verif.R3.c98_front", "Verif.R3.c98_flat", "Verif.R3.c98_rotate", "Verif.R3.c98_no_faces", "Verif.R3.c98_zero"], "note": "Everything but that the normal is a unit vector: it is not if there are no faces around the vertex or their normals cancel (negations proved)."},
{"property": "C99", "status": "proved", "theorems": ["Verif.R3.c99_volume", "Verif.R3.c99_triangles"], "note": ""},
{"property": "C100", "status": "partial", "theorems": ["Verif.R3.c100_tiled", "Verif.R3.c100_solid_partial", "Verif.R3.c100_small_partial", "Verif.R3.c100_triangles", "Verif.R3.c100_prism_partial", "Verif.R3.c100_flat_prism", "Verif.R3.c100_cuboid_partial", "Verif.R3.c100_cuboid_nalgebra", "Verif.R3.c100_tetrahedron", "Verif.R3.c100_octahedron", "Verif.R3.c100_icosahedron", "Verif.R3.c100_geodesic", "Verif.R3.c100_geodesic_octahedron"], "note": "Proved without restriction for solids made of triangles; for others if the rotation into the plane exists for all faces, which Bevy fulfils for cuboids and flat prisms; false for all cuboids with nalgebra (negation proved)."},
{"property": "C101", "status": "partial", "theorems": ["Verif.R3.c101_contour", "Verif.R3.c101_contour_partial", "Verif.R3.c101_cubic_violated", "Verif.R3.c101_glyph_partial", "Verif.R3.c101_text_partial", "Verif.R3.c101_cubic_points", "Verif.R3.c101_two_curves", "Verif.R3.c101_one_curve", "Verif.R3.c101_hole", "Verif.R3.c101_scales"], "note": "Proved for all texts whose glyphs consist of closed contours of at least three curves that do not end with an asymmetric cubic curve; false for those that do, and for contours of one or two curves (negations proved)."},
{"property": "C102", "status": "partial", "theorems": ["Verif.R3.c102_flatten_partial", "Verif.R3.c102_faces_partial", "Verif.R3.c102_toNd_partial", "Verif.R3.c102_ends", "Verif.R3.c102_on_curve", "Verif.R3.c102_degree_iff", "Verif.R3.c102_degree", "Verif.R3.c102_two_sided", "Verif.R3.c102_left"], "note": "Proved for meshes in which every vertex has two edges and no edge is curved on both sides, except that curves without inner points stay curves; false for other meshes (negations proved)."},
{"property": "C103", "status": "partial", "theorems": ["Verif.R3.c103_reversible", "Verif.R3.c103_contours_partial", "Verif.R3.c103_text_partial", "Verif.R3.c103_export_partial", "Verif.R3.c103_nalgebra_panics"], "note": "Proved for the texts of C101 (every positive tolerance); the export for polygons that are planar and simple; false for downward polygons with the rotations of nalgebra (negation proved)."},
{"property": "C104", "status": "proved", "theorems": ["Verif.R3.c104_spherical_cartesian", "Verif.R3.c104_cartesian_spherical", "Verif.R3.c104_len", "Verif.R3.c104_range"], "note": "In exact real arithmetic; atan2 is the argument of a complex number."},
{"property": "C105", "status": "partial", "theorems": ["Verif.R3.c105_slerp_partial", "Verif.R3.c105_symm", "Verif.R3.c105_run", "Verif.R3.c105_close", "Verif.R3.c105_close_false", "Verif.R3.c105_opposite", "Verif.R3.c105_assert_short", "Verif.R3.c105_assert_false"], "note": "Proved for unit vectors whose angle is at least the square root of the tolerance and less than \u03c0; false for closer vectors (negation proved), undefined for opposite vectors."},
{"property": "C106", "status": "proved", "theorems": ["Verif.R3.c106_plane", "Verif.R3.c106_unique", "Verif.R3.c106_tiny", "Verif.R3.c106_space", "Verif.R3.c106_space_symm", "Verif.R3.c106_slerp"], "note": "In exact real arithmetic; vectors shorter than the tolerance have angle 0 (c106_tiny)."},
{"property": "C107", "status": "partial", "theorems": ["Verif.R3.c107_path", "Verif.R3.c107_document_partial", "Verif.R3.c107_reverse", "Verif.R3.c107_mesh_partial", "Verif.R3.c107_export_partial", "Verif.R3.c107_other_panics", "Verif.R3.c107_subpaths_panic", "Verif.R3.c107_open_panics", "Verif.R3.c107_transform_ignored", "Verif.R3.c107_transform_violated"], "note": "Proved for documents whose visible paths explicitly return to their start and whose transformations leave them where they are; false for other transformations, and the import panics for texts, images, several contours and paths closed by Z (negations proved)."},
{"property": "C108", "status": "partial", "theorems": ["Verif.R3.c108_corners", "Verif.R3.c108_two", "Verif.R3.c108_refused", "Verif.R3.c108_apart", "Verif.R3.c108_area", "Verif.R3.c108_worst", "Verif.R3.c108_mesh"], "note": "Proved for all even numbers from 4; for 2, which the assertion accepts, the corners are no numbers (proved)."},
{"property": "C109", "status": "proved", "theorems": ["Verif.R3.c109_get", "Verif.R3.c109_has", "Verif.R3.c109_iter", "Verif.R3.c109_push", "Verif.R3.c109_set", "Verif.R3.c109_delete", "Verif.R3.c109_allocate", "Verif.R3.c109_sound", "Verif.R3.c109_complete", "Verif.R3.c109_sentinel", "Verif.R3.c109_sentinel_panics"], "note": "Bounded storage refines the unbounded storage of the model."},
{"property": "C110", "status": "partial", "theorems": ["Verif.R3.c110_replaced", "Verif.R3.c110_replaced_flat", "Verif.R3.c110_shows_partial", "Verif.R3.c110_flat_partial", "Verif.R3.c110_new_partial", "Verif.R3.c110_usage_panics", "Verif.R3.c110_render_world_panics", "Verif.R3.c110_wide_panics", "Verif.R3.c110_flat_panics", "Verif.R3.c110_uv_violated"], "note": "Proved for indices of 8, 16 and 32 bits and usages with MAIN_WORLD; the conversion panics otherwise and drops texture coordinates (negations proved)."},
{"property": "C111", "status": "partial", "theorems": ["Verif.R3.c111_pairs", "Verif.R3.c111_printed", "Verif.R3.c111_determines", "Verif.R3.c111_dangling_panics"], "note": "Proved for consistent meshes; printing a mesh with a deleted twin panics instead of showing the error (proved)."},
{"property": "C112", "status": "partial", "theorems": ["Verif.GeomProps.c112_release", "Verif.GeomProps.c112_merge_open", "Verif.GeomProps.c112_unsplit_partial", "Verif.GeomProps.c112_linear_partial", "Verif.R3.c112_face_partial", "Verif.GeomProps.c112_split_partial", "Verif.GeomProps.c112_exact", "Verif.GeomProps.c112_checked_partial", "Verif.GeomProps.c112_clockwise"], "note": "Proved for simple polygons of which no corner is a split, and with splits exactly when each split sees the chain it has to close; with a split below a merge a clockwise triangle is emitted (proved)."},
{"property": "C113", "status": "proved", "theorems": ["Verif.R3.c113_box", "Verif.R3.c113_outwards", "Verif.R3.c113_compare", "Verif.R3.c113_sizes"], "note": "cuboid_from_edges is todo!() in the source and not one of the ways."},
{"property": "C114", "status": "partial", "theorems": ["Verif.MeshProps.c114_flip_partial", "Verif.MeshProps.c114_twice_partial", "Verif.MeshProps.c114_iso_partial", "Verif.MeshProps.c114_by_pos_partial", "Verif.MeshProps.c114_dangling", "Verif.R3.c114_box"], "note": "Meshes without dangling ends; with a dangling end the code breaks the mesh (c114_dangling)."},
{"property": "C115", "status": "proved", "theorems": ["Verif.MeshProps.c115_edge", "Verif.MeshProps.c115_centroid", "Verif.MeshProps.c115_vertex", "Verif.MeshProps.c115_incidence", "Verif.MeshProps.c115_degrees", "Verif.MeshProps.c115_faces", "Verif.MeshProps.c115_closed"], "note": ""},
{"property": "C116", "status": "proved", "theorems": ["Verif.R3.c116_swizzle", "Verif.R3.c116_flip", "Verif.R3.c116_normal", "Verif.R3.c116_volume", "Verif.R3.c116_stored"], "note": ""},
{"property": "C117", "status": "proved", "theorems": ["Verif.GeomProps.c117_turning", "Verif.GeomProps.c117_sweep", "Verif.GeomProps.c117_linear", "Verif.GeomProps.c117_delaunay", "Verif.GeomProps.c117_dynamic", "Verif.GeomProps.c117_tiling"], "note": ""},
{"property": "C118", "status": "proved", "theorems": ["Verif.MeshProps.c118_loft_tri_back", "Verif.MeshProps.c118_empty", "Verif.MeshProps.c118_loft_tri_back_closed"], "note": ""},
{"property": "C119", "status": "partial", "theorems": ["Verif.GeomProps.c119_euclidean", "Verif.GeomProps.c119_normalize_partial", "Verif.GeomProps.c119_normalize_zero", "Verif.GeomProps.c119_coords", "Verif.GeomProps.c119_angle", "Verif.GeomProps.c119_about", "Verif.GeomProps.c119_transformable", "Verif.GeomProps.c119_payload2d", "Verif.GeomProps.c119_payload2d_rotate", "Verif.GeomProps.c119_vec4"], "note": "The documented panic of normalize on the zero vector does not happen in the nalgebra backend: it returns the zero vector (c119_normalize_zero). Everything else is proved over the reals; rotate of the planar payload always panics."},
{"property": "C120", "status": "partial", "theorems": ["Verif.MeshProps.c120_iterators", "Verif.MeshProps.c120_size_hint_partial", "Verif.MeshProps.c120_not_exact"], "note": "The size hint is exact only for a new iterator; after the first call of next it is one too large (c120_not_exact). What the iterators yield is proved in full."},
{"property": "C121", "status": "partial", "theorems": ["Verif.MeshProps.c121_boundary_edge_partial", "Verif.MeshProps.c121_inner_panics", "Verif.MeshProps.boundaryEdge_eq"], "note": "In debug builds both queries panic unless exactly one boundary half-edge starts at the vertex (c121_inner_panics); release builds are as stated."},
{"property": "C122", "status": "proved", "theorems": ["Verif.GeomProps.c122_new", "Verif.GeomProps.c122_angle", "Verif.GeomProps.c122_angle_panics", "Verif.GeomProps.c122_rotate", "Verif.GeomProps.c122_axis", "Verif.GeomProps.c122_axis_panics", "Verif.GeomProps.c122_arc"], "note": ""},
{"property": "C123", "status": "partial", "theorems": ["Verif.GeomProps.c123_ordered_floats_partial", "Verif.GeomProps.c123_ordered_floats_nan", "Verif.GeomProps.c123_events_partial", "Verif.GeomProps.c123_events_unlawful", "Verif.GeomProps.c123_events_nan", "Verif.GeomProps.c123_x_at_y", "Verif.GeomProps.c123_disjoint", "Verif.GeomProps.c123_intervals_partial", "Verif.GeomProps.c123_intervals_unlawful"], "note": "The laws hold on numbers (for events with respect to the equality of points) and for segments side by side. The code violates them for NaN, for == of events and of intervals, and for segments that cross."},
{"property": "C124", "status": "partial", "theorems": ["Verif.GeomProps.c124_init", "Verif.GeomProps.c124_find_partial", "Verif.GeomProps.c124_find_by_partial", "Verif.GeomProps.c124_linear", "Verif.GeomProps.c124_insert", "Verif.GeomProps.c124_remove", "Verif.GeomProps.c124_advance", "Verif.GeomProps.c124_debug_panics"], "note": "Holds without debug assertions, and with them if some interval contains the position or all are to its right. Otherwise a debug assertion fails (c124_debug_panics). Horizontal left edges are left out."},
{"property": "C125", "status": "partial", "theorems": ["Verif.GeomProps.c125_beam_partial", "Verif.GeomProps.c125_beam_bound"], "note": "The line is right for all edges; the documented bound y >= c is reversed for the edges of the sweep line."}
]}
