{
 "claims": [
  {
   "property": "C01",
   "status": "proved",
   "theorems": [
    "ENigMA.C01_defined",
    "ENigMA.C01_lookup",
    "ENigMA.C01_enumeration",
    "ENigMA.C01_readd_stale"
   ],
   "note": "The re-adding counterexample C01_readd_stale shows the proviso is needed."
  },
  {
   "property": "C02",
   "status": "proved",
   "theorems": [
    "ENigMA.C02_grown",
    "ENigMA.C02_rebuilt",
    "ENigMA.C02_stale_after_remove",
    "ENigMA.C02_counter_not_reset"
   ],
   "note": "C02_stale_after_remove and C02_counter_not_reset show what the code does after removals without rebuild."
  },
  {
   "property": "C03",
   "status": "proved",
   "theorems": [
    "ENigMA.C03_nextId_fresh"
   ],
   "note": ""
  },
  {
   "property": "C04",
   "status": "proved",
   "theorems": [
    "ENigMA.C04_addMesh_copies",
    "ENigMA.C04_addMesh_consistent"
   ],
   "note": ""
  },
  {
   "property": "C05",
   "status": "proved",
   "theorems": [
    "ENigMA.C05_solid_faces",
    "ENigMA.C05_surface_faces",
    "ENigMA.C05_faces_inward"
   ],
   "note": ""
  },
  {
   "property": "C06",
   "status": "proved",
   "theorems": [
    "ENigMA.C06_invert_involution",
    "ENigMA.C06_invert_reverses",
    "ENigMA.C06_prism_hexahedron_unchanged"
   ],
   "note": "Prisms and hexahedra are left unchanged by invert: C06_prism_hexahedron_unchanged."
  },
  {
   "property": "C07",
   "status": "proved",
   "theorems": [
    "ENigMA.C07_generateFaces_faces",
    "ENigMA.C07_generateFaces_pairs",
    "ENigMA.C07_three_faces_asymmetric"
   ],
   "note": "C07_three_faces_asymmetric shows that the proviso (no three coincident faces) is needed."
  },
  {
   "property": "C08",
   "status": "partial",
   "theorems": [
    "ENigMA.C08_mergeNodes_partial",
    "ENigMA.C08_any_order_partial",
    "ENigMA.C08_dangling_reference"
   ],
   "note": "The full statement is false: C08_dangling_reference is a mesh whose node ids are not ascending and whose element is left with a deleted node. Proved for ascending ids; C08_any_order_partial is what holds for every order."
  },
  {
   "property": "C09",
   "status": "proved",
   "theorems": [
    "ENigMA.C09_removeInvalidElements"
   ],
   "note": ""
  },
  {
   "property": "C10",
   "status": "partial",
   "theorems": [
    "ENigMA.C10_mergeElements_partial",
    "ENigMA.C10_no_representative"
   ],
   "note": "The full statement is false: C10_no_representative deletes both copies. Proved: what survives is exactly the elements without another centroid within the tolerance."
  },
  {
   "property": "C11",
   "status": "proved",
   "theorems": [
    "ENigMA.C11_removeDanglingNodes"
   ],
   "note": ""
  },
  {
   "property": "C12",
   "status": "partial",
   "theorems": [
    "ENigMA.C12_renumber_partial",
    "ENigMA.C12_stale_cross_references"
   ],
   "note": "The full statement is false for face/element cross references: C12_stale_cross_references. Proved for nodes, elements and node references."
  },
  {
   "property": "C13",
   "status": "proved",
   "theorems": [
    "ENigMA.C13_find_exact",
    "ENigMA.C13_coincident_undefined",
    "ENigMA.C13_reuse",
    "ENigMA.C13_rebuild_without_reset"
   ],
   "note": "The points must not all coincide (C13_coincident_undefined). A grid may be reset and used again any number of times (C13_reuse), but a second build() without reset() finds objects several times (C13_rebuild_without_reset)."
  },
  {
   "property": "C14",
   "status": "proved",
   "theorems": [
    "ENigMA.C14_find",
    "ENigMA.C14_small",
    "ENigMA.C14_points",
    "ENigMA.C14_sound",
    "ENigMA.C14_remove_by_id",
    "ENigMA.C14_tolerance",
    "ENigMA.C14_minus_one"
   ],
   "note": "C14_find for every legal history of insertions and removals, up to the stack bound of 1024 levels (C14_small: always met with fewer than 1024 insertions); C14_points states it with common points; C14_sound has no bound. Disagreements outside the claim: the tolerance is ignored (C14_tolerance), removal counts insertions instead of using ids (C14_remove_by_id), id -1 is lost (C14_minus_one)."
  },
  {
   "property": "C15",
   "status": "proved",
   "theorems": [
    "ENigMA.C15_history",
    "ENigMA.C15_find",
    "ENigMA.C15_inverted",
    "ENigMA.C15_tolerance",
    "ENigMA.C15_remove_box"
   ],
   "note": "Proved for every history of additions, removals and resets with non-empty boxes (C15_find for ids used as intended, C15_history for any use). Findings: boxes with minimum above maximum make the node split use uninitialised indices (C15_inverted); the tolerance of find is ignored (C15_tolerance); the box given to removeGeometricObject only steers the descent (C15_remove_box)."
  },
  {
   "property": "C16",
   "status": "partial",
   "theorems": [
    "ENigMA.C16_sound",
    "ENigMA.C16_find_partial",
    "ENigMA.C16_other_octant",
    "ENigMA.C16_subdivided",
    "ENigMA.C16_child_cells"
   ],
   "note": "Proved for at most 1000 points and tolerances up to the machine epsilon (the default 0 included): exact, in insertion order (C16_find_partial); soundness for every tree (C16_sound). False beyond: C16_other_octant (tolerance reaching into another octant), C16_subdivided (more than 1000 points in one place: none is found)."
  },
  {
   "property": "C17",
   "status": "proved",
   "theorems": [
    "ENigMA.C17_least_box",
    "ENigMA.C17_order_independent",
    "ENigMA.C17_intersects_iff",
    "ENigMA.C17_intersects_symm",
    "ENigMA.C17_contains_box_iff",
    "ENigMA.C17_grow"
   ],
   "note": ""
  },
  {
   "property": "C18",
   "status": "proved",
   "theorems": [
    "ENigMA.C18_residuals",
    "ENigMA.C18_constants",
    "ENigMA.C18_kind",
    "ENigMA.C18_row_scaling_breaks_symmetry"
   ],
   "note": "Row scaling breaks the symmetry of a symmetric system: C18_row_scaling_breaks_symmetry."
  },
  {
   "property": "C19",
   "status": "proved",
   "theorems": [
    "ENigMA.C19_setElimination",
    "ENigMA.C19_solve",
    "ENigMA.C19_other_methods",
    "ENigMA.C19_second_call_drops_equation"
   ],
   "note": "A second setElimination call on the same equation drops a free equation: C19_second_call_drops_equation."
  },
  {
   "property": "C20",
   "status": "proved",
   "theorems": [
    "ENigMA.C20_setPenaltyFactor",
    "ENigMA.C20_other_methods",
    "ENigMA.C20_deviation"
   ],
   "note": ""
  },
  {
   "property": "C21",
   "status": "proved",
   "theorems": [
    "ENigMA.C21_laplacian_rows",
    "ENigMA.C21_quadratic",
    "ENigMA.C21_constants",
    "ENigMA.C21_dirichlet_constants",
    "ENigMA.C21_symmetric",
    "ENigMA.C21_energy",
    "ENigMA.C21_unique",
    "ENigMA.C21_one_node"
   ],
   "note": ""
  },
  {
   "property": "C22",
   "status": "proved",
   "theorems": [
    "ENigMA.C22_flux",
    "ENigMA.C22_symmetric",
    "ENigMA.C22_conservation",
    "ENigMA.C22_constant",
    "ENigMA.C22_regular",
    "ENigMA.C22_triangles",
    "ENigMA.C22_planar"
   ],
   "note": "For every regular mesh (what generateFaces leaves, C22_regular), the assembled Laplacian is the sum of face fluxes (C22_flux), symmetric after weighting with the volumes (C22_symmetric), conservative (C22_conservation) and exact on constants (C22_constant). The two faces of a pair must have equal area: proved for triangular faces (C22_triangles) and, up to the sign the code gives, for planar faces (C22_planar)."
  },
  {
   "property": "C23",
   "status": "partial",
   "theorems": [
    "ENigMA.C23_sides",
    "ENigMA.C23_shared_face",
    "ENigMA.C23_boundary_neighbor_is_zero"
   ],
   "note": "Holds for faces between two cells (C23_sides, C23_shared_face). It fails for boundary faces: they answer cell 0 (C23_boundary_neighbor_is_zero)."
  },
  {
   "property": "C24",
   "status": "proved",
   "theorems": [
    "ENigMA.C24_set",
    "ENigMA.C24_after_generateFaces"
   ],
   "note": ""
  },
  {
   "property": "C25",
   "status": "proved",
   "theorems": [
    "ENigMA.C25_triangle",
    "ENigMA.C25_tetrahedron",
    "ENigMA.C25_tetrahedron_negative_volume",
    "ENigMA.C25_beam",
    "ENigMA.C25_quadrilateral"
   ],
   "note": "Needs positive measure: C25_tetrahedron_negative_volume shows the sign is wrong for the other orientation."
  },
  {
   "property": "C26",
   "status": "proved",
   "theorems": [
    "ENigMA.C26_beam",
    "ENigMA.C26_triangle",
    "ENigMA.C26_tetrahedron",
    "ENigMA.C26_quadrilateral",
    "ENigMA.C26_quadrilateral_mirrored"
   ],
   "note": "The triangle's mass matrix uses the area without the thickness that scales its diffusion matrix. The quadrilateral's entries use the Jacobian of the mirrored point: C26_quadrilateral_mirrored."
  },
  {
   "property": "C27",
   "status": "partial",
   "theorems": [
    "ENigMA.C27_triangle",
    "ENigMA.C27_tetrahedron_partial",
    "ENigMA.C27_tetrahedron_not_symmetric"
   ],
   "note": "The full statement is false for the tetrahedron: C27_tetrahedron_not_symmetric. Proved in full for the triangle; for the tetrahedron the rigid-body part."
  },
  {
   "property": "C28",
   "status": "partial",
   "theorems": [
    "ENigMA.C28_laplacian",
    "ENigMA.C28_laplacian_symmetric",
    "ENigMA.C28_laplacian_order",
    "ENigMA.C28_tetrahedra",
    "ENigMA.C28_ddt_partial",
    "ENigMA.C28_ddt_tetrahedra",
    "ENigMA.C28_ddt_total_mass",
    "ENigMA.C28_ddt_element_ids",
    "ENigMA.C28_laplacian_dofs",
    "ENigMA.C28_ddt_element_id_seven",
    "ENigMA.C28_ddt_node_ids",
    "ENigMA.C28_ddt_prisms",
    "ENigMA.C28_laplacian_no_dofs"
   ],
   "note": "laplacian: every consistent mesh, any ids. ddt: only for element ids 0..n-1 and node ids below the node count; false otherwise (C28_ddt_element_id_seven, C28_ddt_node_ids) and prisms are left out (C28_ddt_prisms). Fields with two or more degrees of freedom index the element matrix out of range (C28_laplacian_dofs); with the default of zero the matrix is zero."
  },
  {
   "property": "C29",
   "status": "proved",
   "theorems": [
    "ENigMA.C29_line",
    "ENigMA.C29_no_elements"
   ],
   "note": "Assumes the cached direction of the line is that of its end points (GLine.Ok), as after the two-point constructor; C56 shows how setStartPoint breaks it. C29_no_elements covers nu <= 0."
  },
  {
   "property": "C30",
   "status": "proved",
   "theorems": [
    "ENigMA.C30_nodes",
    "ENigMA.C30_elements",
    "ENigMA.C30_areas",
    "ENigMA.C30_conforming",
    "ENigMA.C30_corners"
   ],
   "note": "Vector areas carry both area and orientation. Only the corners 0, 1, 3 of the quadrilateral are read by the code, so C30_corners assumes a parallelogram."
  },
  {
   "property": "C31",
   "status": "proved",
   "theorems": [
    "ENigMA.C31_nodes",
    "ENigMA.C31_hexahedra",
    "ENigMA.C31_tetrahedra",
    "ENigMA.C31_volumes",
    "ENigMA.C31_conforming",
    "ENigMA.C31_corners"
   ],
   "note": "Only the corners 0, 1, 3, 4 are read by the code, so C31_corners assumes a parallelepiped. volume() is signed: it is negative for a right-handed block."
  },
  {
   "property": "C32",
   "status": "proved",
   "theorems": [
    "ENigMA.C32_box",
    "ENigMA.C32_negative_volumes",
    "ENigMA.C32_zero_size"
   ],
   "note": "C32_negative_volumes: volume() of every element of a box mesh is negative, see C25_tetrahedron_negative_volume for the consequence. C32_zero_size: a size of zero divides by zero."
  },
  {
   "property": "C33",
   "status": "partial",
   "theorems": [
    "ENigMA.C33_generate_partial",
    "ENigMA.C33_hexahedra_twisted",
    "ENigMA.C33_plane",
    "ENigMA.C33_prism_volume"
   ],
   "note": "C33_generate_partial is complete for triangles. For quadrilaterals the top nodes of the hexahedron are listed in the order 0, 3, 2, 1, so the vertical edges do not join each bottom node to its own copy: C33_hexahedra_twisted. generate does not reset the mesh of the mesher: a second call adds to it, which the theorem covers."
  },
  {
   "property": "C34",
   "status": "partial",
   "theorems": [
    "ENigMA.C34_one_node",
    "ENigMA.C34_two_nodes_partial",
    "ENigMA.C34_two_nodes_unsorted"
   ],
   "note": "C34_one_node is complete. elementsSharingNodes uses std::set_intersection on lists in order of insertion: C34_two_nodes_partial assumes increasing ids, C34_two_nodes_unsorted is a counterexample without."
  },
  {
   "property": "C35",
   "status": "proved",
   "theorems": [
    "ENigMA.C35_checkOpen",
    "ENigMA.C35_open_iff_boundary"
   ],
   "note": ""
  },
  {
   "property": "C36",
   "status": "proved",
   "theorems": [
    "ENigMA.C36_clip",
    "ENigMA.C36_clip_empty",
    "ENigMA.C36_tolerance_deviation"
   ],
   "note": "With a positive tolerance points beyond the plane are kept: C36_tolerance_deviation."
  },
  {
   "property": "C37",
   "status": "proved",
   "theorems": [
    "ENigMA.C37_projectedSum",
    "ENigMA.C37_sums",
    "ENigMA.C37_area",
    "ENigMA.C37_area_sign_depends_on_start",
    "ENigMA.C37_invert_cached",
    "ENigMA.C37_setPolyline_stale"
   ],
   "note": "The sign of the area depends on which vertex comes first (C37_area_sign_depends_on_start) and setPolyline keeps a stale cache (C37_setPolyline_stale)."
  },
  {
   "property": "C38",
   "status": "proved",
   "theorems": [
    "ENigMA.C38_contains",
    "ENigMA.C38_nonpositive_volume",
    "ENigMA.C38_volume"
   ],
   "note": "For a non-positive volume() nothing is contained: C38_nonpositive_volume."
  },
  {
   "property": "C39",
   "status": "proved",
   "theorems": [
    "ENigMA.C39_hexahedron",
    "ENigMA.C39_hexahedron_boundary",
    "ENigMA.C39_quadrilateral",
    "ENigMA.C39_prism"
   ],
   "note": ""
  },
  {
   "property": "C40",
   "status": "proved",
   "theorems": [
    "ENigMA.C40_triangulate",
    "ENigMA.C40_convex"
   ],
   "note": ""
  },
  {
   "property": "C41",
   "status": "proved",
   "theorems": [
    "ENigMA.C41_distance",
    "ENigMA.C41_plane"
   ],
   "note": ""
  },
  {
   "property": "C42",
   "status": "partial",
   "theorems": [
    "ENigMA.C42_distance_partial",
    "ENigMA.C42_outside",
    "ENigMA.C42_vertex_fallback"
   ],
   "note": "The full statement is false: C42_vertex_fallback. Proved when the foot of the perpendicular lies in the triangle; C42_outside says what is returned otherwise."
  },
  {
   "property": "C43",
   "status": "partial",
   "theorems": [
    "ENigMA.C43_sphere",
    "ENigMA.C43_sphere_contains",
    "ENigMA.C43_circle_partial",
    "ENigMA.C43_circle_undefined"
   ],
   "note": "Spheres: full. Circles: false in general (C43_circle_undefined divides by zero for a horizontal first side); proved where the slopes are defined."
  },
  {
   "property": "C44",
   "status": "partial",
   "theorems": [
    "ENigMA.C44_hull",
    "ENigMA.C44_other_planes",
    "ENigMA.C44_repeated_point"
   ],
   "note": "Proved (C44_hull) for distinct points in a plane z = const whose first three are not collinear. The full statement is false in other planes (C44_other_planes) and with repeated points (C44_repeated_point)."
  },
  {
   "property": "C45",
   "status": "proved",
   "theorems": [
    "ENigMA.C45_split",
    "ENigMA.C45_split_files",
    "ENigMA.C45_split_tolerance",
    "ENigMA.C45_tolerance_overlap"
   ],
   "note": "With a positive tolerance the pieces can overlap: C45_tolerance_overlap; C45_split_tolerance says by how much."
  },
  {
   "property": "C46",
   "status": "proved",
   "theorems": [
    "ENigMA.C46_invert_involution",
    "ENigMA.C46_build",
    "ENigMA.C46_build_more",
    "ENigMA.C46_regions",
    "ENigMA.C46_clip",
    "ENigMA.C46_add",
    "ENigMA.C46_subtract",
    "ENigMA.C46_intersect",
    "ENigMA.C46_convex_solid",
    "ENigMA.C46_build_diverges",
    "ENigMA.C46_empty_first_polygon",
    "ENigMA.C46_allPolygons_twice",
    "ENigMA.C46_add_empty",
    "ENigMA.C46_convex_faces"
   ],
   "note": "For proper polygons (vertices in the plane of their normal). build does not end for a polygon whose normal does not fit (C46_build_diverges), drops everything after a first polygon without vertices (C46_empty_first_polygon), allPolygons called twice repeats polygons (C46_allPolygons_twice), add with an empty operand reads an uninitialised value (C46_add_empty). Operands are copies in the code, so they cannot change; this is by construction of the model."
  },
  {
   "property": "C47",
   "status": "proved",
   "theorems": [
    "ENigMA.C47_removeDuplicates",
    "ENigMA.C47_removeDuplicates_fixed",
    "ENigMA.C47_invert",
    "ENigMA.C47_removeCollinear",
    "ENigMA.C47_removeCollinear_single",
    "ENigMA.C47_vertex",
    "ENigMA.C47_vertex_empty",
    "ENigMA.C47_insert_remove"
   ],
   "note": "removeCollinear on a one-vertex list reads out of range: C47_removeCollinear_single."
  },
  {
   "property": "C48",
   "status": "proved",
   "theorems": [
    "ENigMA.C48_equilibrium",
    "ENigMA.C48_collision",
    "ENigMA.C48_bounce",
    "ENigMA.C48_step",
    "ENigMA.C48_streaming",
    "ENigMA.C48_lid",
    "ENigMA.C48_rest",
    "ENigMA.C48_history"
   ],
   "note": "Collision, bounce-back, streaming, lid and whole histories: mass and momentum accounted exactly; see the theorem comments."
  },
  {
   "property": "C49",
   "status": "partial",
   "theorems": [
    "ENigMA.C49_support",
    "ENigMA.C49_continuous",
    "ENigMA.C49_mass_partial",
    "ENigMA.C49_mass_wrong",
    "ENigMA.C49_gaussian"
   ],
   "note": "Support and continuity for every kernel; total mass 1 proved for convex, quintic and spiky in two and three dimensions. False and refuted: one-dimensional masses are 2, the cubic spline has mass 4, the Gaussian jumps at 3h and has mass 1-exp(-9) in the plane."
  },
  {
   "property": "C50",
   "status": "partial",
   "theorems": [
    "ENigMA.C50_beam_partial",
    "ENigMA.C50_quadrilateral_partial",
    "ENigMA.C50_hexahedron",
    "ENigMA.C50_hexahedron_degree_partial",
    "ENigMA.C50_triangle_partial",
    "ENigMA.C50_barycentric",
    "ENigMA.C50_wrong_sums",
    "ENigMA.C50_hexahedron_27",
    "ENigMA.C50_bem"
   ],
   "note": "Proved against Mathlib's integral: beams 1,2,4,6, quadrilaterals 1,4, hexahedra 1,8 (and the sum for 27), triangles 6,12,16,17,20 integrate every polynomial of their degree. False and refuted for beam 3, quadrilateral 8, triangles 1,3,7 and all prism rules; the 27-point hexahedron rule sums correctly but repeats points."
  },
  {
   "property": "C51",
   "status": "proved",
   "theorems": [
    "ENigMA.C51_outside",
    "ENigMA.C51_clip",
    "ENigMA.C51_inward"
   ],
   "note": "C51_outside, C51_clip: iteration bound, reported fraction is that of the polyhedron returned, accuracy when it stops early. aNormalizedTolerance is not used by the code. C51_inward: for a hexahedron in the vertex order of the library's own mesher (faces pointing inwards) the volume ratio is not that of the part below the plane."
  },
  {
   "property": "C52",
   "status": "proved",
   "theorems": [
    "ENigMA.C52_fixedValue",
    "ENigMA.C52_source",
    "ENigMA.C52_last_set",
    "ENigMA.C52_elementBC",
    "ENigMA.C52_conditions",
    "ENigMA.C52_reading_is_harmless",
    "ENigMA.C52_elementBC_creates",
    "ENigMA.C52_dof_out_of_range"
   ],
   "note": ""
  },
  {
   "property": "C53",
   "status": "proved",
   "theorems": [
    "ENigMA.C53_extractBoundary"
   ],
   "note": ""
  },
  {
   "property": "C54",
   "status": "proved",
   "theorems": [
    "ENigMA.C54_setSources"
   ],
   "note": ""
  },
  {
   "property": "C55",
   "status": "proved",
   "theorems": [
    "ENigMA.C55_ddt",
    "ENigMA.C55_divergence_interior",
    "ENigMA.C55_divergence_ends_thermal",
    "ENigMA.C55_divergence_ends_generic"
   ],
   "note": ""
  },
  {
   "property": "C56",
   "status": "proved",
   "theorems": [
    "ENigMA.C56_intersects",
    "ENigMA.C56_needs_unit_normal",
    "ENigMA.C56_invert",
    "ENigMA.C56_setStart_stale"
   ],
   "note": "For a plane whose normal is not a unit vector the answer can be wrong: C56_needs_unit_normal; setStart alone leaves a stale direction: C56_setStart_stale."
  },
  {
   "property": "C57",
   "status": "proved",
   "theorems": [
    "ENigMA.C57_distanceLine",
    "ENigMA.C57_second_point_unclamped"
   ],
   "note": "The second point is not clamped to its segment: C57_second_point_unclamped, so this is not the distance of the segments."
  },
  {
   "property": "C58",
   "status": "partial",
   "theorems": [
    "ENigMA.C58_contains",
    "ENigMA.C58_contains_sound",
    "ENigMA.C58_zero_tolerance",
    "ENigMA.C58_edge_never"
   ],
   "note": "With tolerance zero only the interior and the first vertex are contained (C58_zero_tolerance), and IT_EDGE is never reported for sensible tolerances (C58_edge_never): that part of the claim is false of the code."
  },
  {
   "property": "C59",
   "status": "proved",
   "theorems": [
    "ENigMA.C59_cube"
   ],
   "note": ""
  },
  {
   "property": "C60",
   "status": "proved",
   "theorems": [
    "ENigMA.C60_volume",
    "ENigMA.C60_tetrahedron",
    "ENigMA.C60_hexahedron",
    "ENigMA.C60_prism",
    "ENigMA.C60_set_stale"
   ],
   "note": "C60_set_stale: set() on an already measured polyhedron keeps the old volume."
  },
  {
   "property": "C61",
   "status": "partial",
   "theorems": [
    "ENigMA.C61_triangle_convection",
    "ENigMA.C61_triangle_gradient",
    "ENigMA.C61_tetrahedron_gradient",
    "ENigMA.C61_tetrahedron_convection_not_constant",
    "ENigMA.C61_tetrahedron_convection_partial"
   ],
   "note": "The full statement is false for the tetrahedron's convection matrix, whose entry (3,2) uses u[2] twice: C61_tetrahedron_convection_not_constant. Proved in full for the triangle and for the gradients."
  },
  {
   "property": "C62",
   "status": "partial",
   "theorems": [
    "ENigMA.C62_hexahedron_partial",
    "ENigMA.C62_hexahedron_order",
    "ENigMA.C62_hexahedron_own_order",
    "ENigMA.C62_prism_partial",
    "ENigMA.C62_prism_weights"
   ],
   "note": "The full statement is false: C62_hexahedron_order (0.577 of the volume in the vertex order of the meshes) and C62_prism_weights (three quarters of the volume). Proved: everything up to the measure the rule gives, and exactness in the hexahedron's own order."
  },
  {
   "property": "C63",
   "status": "proved",
   "theorems": [
    "ENigMA.C63_source"
   ],
   "note": "The source is added as given per corner: it is not multiplied by the measure of the element, and prisms receive none."
  },
  {
   "property": "C64",
   "status": "partial",
   "theorems": [
    "ENigMA.C64_symmetry",
    "ENigMA.C64_gradient_partial",
    "ENigMA.C64_laplacian",
    "ENigMA.C64_scale",
    "ENigMA.C64_cubic_convex"
   ],
   "note": "gradientW along the offset equals minus the derivative of W only up to the missing factor h^2; the cubic and convex kernels differ further (C64_cubic_convex)."
  },
  {
   "property": "C65",
   "status": "partial",
   "theorems": [
    "ENigMA.C65_density",
    "ENigMA.C65_fixed",
    "ENigMA.C65_constant",
    "ENigMA.C65_maximum",
    "ENigMA.C65_cyclic",
    "ENigMA.C65_advect_partial",
    "ENigMA.C65_swapped",
    "ENigMA.C65_cyclic_rest"
   ],
   "note": "Density, prescribed values, constant fields, maximum principle and the cyclic box are complete. The motion is proved only for equal second and third velocity components: the code swaps them (C65_swapped), and moves particles at rest on a cyclic face (C65_cyclic_rest)."
  },
  {
   "property": "C66",
   "status": "partial",
   "theorems": [
    "ENigMA.C66_ddt",
    "ENigMA.C66_ddt_defined",
    "ENigMA.C66_divergence",
    "ENigMA.C66_constant",
    "ENigMA.C66_interior_partial",
    "ENigMA.C66_sign"
   ],
   "note": "ddt is proved (C66_ddt, C66_ddt_defined). For divergence the row plus the right-hand side is the sum of the fluxes (C66_divergence, C66_constant), and cells without prescribed faces are right (C66_interior_partial). The code adds prescribed faces to the right-hand side with the wrong sign for the convention A x - b of the other operators, so the claim is false for boundary cells: C66_sign and the two-cube example."
  },
  {
   "property": "C67",
   "status": "partial",
   "theorems": [
    "ENigMA.C67_cut_same",
    "ENigMA.C67_cut_cube"
   ],
   "note": "False as stated: cut returns the part on the negative side twice (C67_cut_same, for every polyhedron and plane; C67_cut_cube)."
  },
  {
   "property": "C68",
   "status": "proved",
   "theorems": [
    "ENigMA.C68_clip",
    "ENigMA.C68_area",
    "ENigMA.C68_in_plane",
    "ENigMA.C68_open"
   ],
   "note": "C68_clip, C68_area; the two cases excluded by the hypotheses are shown to be needed (C68_in_plane, C68_open)."
  },
  {
   "property": "C69",
   "status": "proved",
   "theorems": [
    "ENigMA.C69_sort"
   ],
   "note": "C69_sort."
  },
  {
   "property": "C70",
   "status": "partial",
   "theorems": [
    "ENigMA.C70_volume",
    "ENigMA.C70_both",
    "ENigMA.C70_reflex"
   ],
   "note": "Proved for every closed polyhedron with planar faces and every clip whose section is one simple loop, under the hypothesis that the new face points along the normal of the plane. The code turns the new face by its second point only: C70_reflex shows that a reflex corner there turns it inwards and the volume is wrong. Sections of several loops are not covered."
  },
  {
   "property": "C71",
   "status": "proved",
   "theorems": [
    "ENigMA.C71_root",
    "ENigMA.C71_bracket",
    "ENigMA.C71_iterations",
    "ENigMA.C71_no_sign_change"
   ],
   "note": "C71_root over the reals; C71_iterations bounds the number of passes. bisection does not check the signs at the bounds: C71_no_sign_change shows what it returns then."
  },
  {
   "property": "C72",
   "status": "partial",
   "theorems": [
    "ENigMA.C72_bracket",
    "ENigMA.C72_root",
    "ENigMA.C72_bounds"
   ],
   "note": "Proved for strictly opposite signs. The claim about a root at a bound fails: C72_bounds shows that with f(lower) = 0 and f(upper) < 0 the upper bound is returned, which is not a root, and the iteration counter is left unset."
  },
  {
   "property": "C73",
   "status": "partial",
   "theorems": [
    "ENigMA.C73_first_step",
    "ENigMA.C73_outlet_step",
    "ENigMA.C73_check_inlet",
    "ENigMA.C73_balance",
    "ENigMA.C73_iterate_partial",
    "ENigMA.C73_inlet_flux",
    "ENigMA.C73_second_step_partial",
    "ENigMA.C73_walls",
    "ENigMA.C73_outlet",
    "ENigMA.C73_reachable"
   ],
   "note": "Proved for cells with walls, pressure inlets and flow inlets from the second step on (C73_second_step_partial), for domains with walls all around also the reported error (C73_walls), and that generateFaces and set establish the hypotheses on the mesh (C73_reachable; triangles and planar convex quadrilaterals). Fails in the first step at a flow inlet (C73_first_step) and at outlets (C73_outlet, C73_outlet_step); the reported error counts boundary fluxes with the wrong sign (C73_check_inlet). The linear solver is assumed exact."
  },
  {
   "property": "C74",
   "status": "partial",
   "theorems": [
    "ENigMA.C74_constant",
    "ENigMA.C74_level",
    "ENigMA.C74_prescribed_pressure"
   ],
   "note": "Gradient of constants and the level of the pressure proved for every closed cell. The clause on prescribed pressures is false: the pressure of a pressure inlet is moved along with the rest (C74_prescribed_pressure)."
  },
  {
   "property": "C75",
   "status": "partial",
   "theorems": [
    "ENigMA.C75_rest",
    "ENigMA.C75_column",
    "ENigMA.C75_H_differs"
   ],
   "note": "A fluid at rest stays at rest: proved for every sequence of steps (C75_rest). The clause on H is false: the code sums the entries of the column times the velocity of the cell itself (C75_column, C75_H_differs)."
  },
  {
   "property": "C76",
   "status": "proved",
   "theorems": [
    "ENigMA.C76_cancel",
    "ENigMA.C76_total_volume"
   ],
   "note": ""
  },
  {
   "property": "C77",
   "status": "partial",
   "theorems": [
    "ENigMA.C77_balance",
    "ENigMA.C77_reaction",
    "ENigMA.C77_conservation",
    "ENigMA.C77_uniform_partial",
    "ENigMA.C77_through_flow"
   ],
   "note": "The equation of every cell is proved to be the balance of a separate specification (C77_balance), with action = reaction (C77_reaction) and conservation over the mesh (C77_conservation). Uniform motion is proved for boundaries that nothing flows through (C77_uniform_partial); with flow through the boundary it is false (C77_through_flow): the convection term of a boundary face has the wrong sign and a component of the normal too many."
  },
  {
   "property": "C78",
   "status": "proved",
   "theorems": [
    "ENigMA.C78_bounded",
    "ENigMA.C78_properties",
    "ENigMA.C78_step",
    "ENigMA.C78_correction_inert"
   ],
   "note": "For every history and every linear solver (C78_bounded, C78_properties, C78_step). C78_correction_inert: the correction of the weights never has an effect, because the fractions are cut off before it."
  },
  {
   "property": "C79",
   "status": "partial",
   "theorems": [
    "ENigMA.C79_filled",
    "ENigMA.C79_cut_off",
    "ENigMA.C79_balance",
    "ENigMA.C79_reaction",
    "ENigMA.C79_conservation",
    "ENigMA.C79_iterate_partial",
    "ENigMA.C79_uniform_partial"
   ],
   "note": "Balance of every cell, action = reaction and conservation are proved for exact solutions (C79_balance, C79_reaction, C79_conservation), for iterate after any history if nothing is cut off (C79_iterate_partial). False if a fraction is cut off at 0 or 1 (C79_cut_off) and for vessels with flow through the boundary (C79_filled): the stored boundary flux has the opposite sign."
  },
  {
   "property": "C80",
   "status": "partial",
   "theorems": [
    "ENigMA.C80_asymmetric",
    "ENigMA.C80_balance",
    "ENigMA.C80_reaction",
    "ENigMA.C80_conservation_partial",
    "ENigMA.C80_step"
   ],
   "note": "The balance of every cell is proved for the conductivities the solver uses; conservation of the total heat is proved for conductivity 1 and refuted for others (C80_asymmetric): each cell averages with the conductivity used at its previous face."
  },
  {
   "property": "C81",
   "status": "partial",
   "theorems": [
    "ENigMA.C81_overheats",
    "ENigMA.C81_bounds_partial",
    "ENigMA.C81_vessel_partial"
   ],
   "note": "Proved with the wall temperatures divided by the cell volume, as the solver uses them; refuted for the wall temperatures themselves (C81_overheats)."
  },
  {
   "property": "C82",
   "status": "partial",
   "theorems": [
    "ENigMA.C82_triangle",
    "ENigMA.C82_triangle_tiny",
    "ENigMA.C82_triangle_order",
    "ENigMA.C82_triangle_similar",
    "ENigMA.C82_quadrilateral",
    "ENigMA.C82_tetrahedron",
    "ENigMA.C82_prism",
    "ENigMA.C82_prism_flat",
    "ENigMA.C82_element",
    "ENigMA.C82_mesh",
    "ENigMA.C82_mesh_empty",
    "ENigMA.C82_mesh_tiny"
   ],
   "note": "Full for quadrilaterals and tetrahedra and for triangles whose sides are longer than the tolerance. False for triangles below the tolerance (C82_triangle_tiny: 4/3; C82_mesh_tiny: the least quality reported belongs to no element) and for prisms, whose height is ignored (C82_prism_flat: a prism without volume has quality one)."
  },
  {
   "property": "C83",
   "status": "partial",
   "theorems": [
    "ENigMA.C83_round_trip_partial",
    "ENigMA.C83_all_elements",
    "ENigMA.C83_again",
    "ENigMA.C83_values_partial",
    "ENigMA.C83_point_lost",
    "ENigMA.C83_values_swapped",
    "ENigMA.C83_values_exception"
   ],
   "note": "The round trip is proved for every consistent mesh whose elements have the nodes of their type (C83_round_trip_partial, C83_all_elements, C83_again). False for elements that are points, which are written as type 15 and skipped when read (C83_point_lost). Values are right only if node ids are positions (C83_values_partial): the position is used as an id (C83_values_swapped, C83_values_exception)."
  },
  {
   "property": "C84",
   "status": "proved",
   "theorems": [
    "ENigMA.C84_segments",
    "ENigMA.C84_start_missed",
    "ENigMA.C84_parallel_wrong"
   ],
   "note": "Proved for all pairs of segments that are not parallel, tolerance 0: soundness, the exact classification and exactly which common points are missed (C84_segments). Two defects are proved: a T whose foot is the start of the argument is missed although the same T is found with the argument turned around or the segments exchanged (C84_start_missed: `contains` takes the angle of a zero vector, which `angle` reports as a right angle), and parallel segments side by side are reported as crossing (C84_parallel_wrong: `contains` accepts a cone of 1 degree instead of the line). Not proved: positive tolerances; a description of the result for all parallel segments."
  },
  {
   "property": "C85",
   "status": "partial",
   "theorems": [
    "ENigMA.C85_sides",
    "ENigMA.C85_region",
    "ENigMA.C85_covered",
    "ENigMA.C85_tiling_partial"
   ],
   "note": "Proved for every returned mesh, with the beams read by the even–odd rule: parity of the triangles around each point (C85_region), coverage of the whole region (C85_covered), parity of sides (C85_sides). Missing for the full statement: that no two triangles overlap. C85_tiling_partial states the tiling with that as a hypothesis. The mesher tests a new side only against edges found in a window around it and with tolerances and angle limits, and a boundary traversed the wrong way round is not detected, so disjointness is not a consequence of the code for all inputs."
  },
  {
   "property": "C86",
   "status": "proved",
   "theorems": [
    "ENigMA.C86_triangles"
   ],
   "note": "C86_triangles, for every returned mesh."
  },
  {
   "property": "C87",
   "status": "proved",
   "theorems": [
    "ENigMA.C87_nodes",
    "ENigMA.C87_boundary_kept"
   ],
   "note": "C87_boundary_kept, C87_nodes. New nodes are tested against the bounding box only, not against the region."
  },
  {
   "property": "C88",
   "status": "proved",
   "theorems": [
    "ENigMA.C88_terminates",
    "ENigMA.C88_rounds"
   ],
   "note": "C88_terminates gives the explicit bound beams + 2·limit on each of the loops; C88_rounds shows that the fuel of the model plays no part beyond that. The R-tree search is the model of C15, total there."
  },
  {
   "property": "C89",
   "status": "partial",
   "theorems": [
    "ENigMA.C89_closed",
    "ENigMA.C89_interior_not_cleared",
    "ENigMA.C89_other_elements"
   ],
   "note": "The first part is proved (C89_closed). The second part is false of the code; C89_interior_not_cleared and C89_other_elements are counterexamples."
  },
  {
   "property": "C90",
   "status": "proved",
   "theorems": [
    "ENigMA.C90_faces",
    "ENigMA.C90_flip",
    "ENigMA.C90_region",
    "ENigMA.C90_boundary",
    "ENigMA.C90_quality"
   ],
   "note": "C90_faces (faces), C90_flip (stays a triangulation), C90_region, C90_boundary, C90_quality."
  },
  {
   "property": "C91",
   "status": "proved",
   "theorems": [
    "ENigMA.C91_relax",
    "ENigMA.C91_region",
    "ENigMA.C91_quality",
    "ENigMA.C91_hull"
   ],
   "note": "C91_relax, C91_region, C91_quality, C91_hull."
  },
  {
   "property": "C92",
   "status": "proved",
   "theorems": [
    "ENigMA.C92_faces",
    "ENigMA.C92_remesh",
    "ENigMA.C92_region",
    "ENigMA.C92_boundary",
    "ENigMA.C92_nodes",
    "ENigMA.C92_short",
    "ENigMA.C92_long"
   ],
   "note": "The flags make a single pass leave some long sides: of the two triangles at a long side one is split, possibly along another side. That is what is proved."
  },
  {
   "property": "C93",
   "status": "proved",
   "theorems": [
    "ENigMA.C93_parts",
    "ENigMA.C93_lengths"
   ],
   "note": "Beams of length zero are excluded: with only such beams generateFaces builds a hash grid of equal points (C13)."
  },
  {
   "property": "C94",
   "status": "partial",
   "theorems": [
    "ENigMA.C94_collapse_partial",
    "ENigMA.C94_long_sides",
    "ENigMA.C94_turns_over",
    "ENigMA.C94_area"
   ],
   "note": "Proved: everything but the region. The region is not kept: `C94_turns_over` gives a triangulation whose result has a triangle turned over, `C94_area` one whose result overlaps itself (an element that should go is skipped by the loop that deletes and becomes a triangle again)."
  },
  {
   "property": "C95",
   "status": "proved",
   "theorems": [
    "ENigMA.C95_applyFixedBoundary"
   ],
   "note": "Assumes that the faces do not all have the same centre, as the hash grid needs (C13)."
  },
  {
   "property": "C96",
   "status": "proved",
   "theorems": [
    "ENigMA.C96_set",
    "ENigMA.C96_add",
    "ENigMA.C96_add_itself",
    "ENigMA.C96_bounds"
   ],
   "note": "The normals that set stores are zero, so a surface exported from a mesh has zero normals (part of C96_set). add(*this) does not end (C96_add_itself)."
  },
  {
   "property": "C97",
   "status": "partial",
   "theorems": [
    "ENigMA.C97_removeInvalid",
    "ENigMA.C97_noDuplicates_partial",
    "ENigMA.C97_duplicates_throw",
    "ENigMA.C97_nested_removed"
   ],
   "note": "removeInvalidFacets and the case without duplicates are proved. The removal of duplicates fails: with exactly one pair of equal facets the function throws for every surface (C97_duplicates_throw), and a facet near a larger one is removed though it is no duplicate (C97_nested_removed)."
  },
  {
   "property": "C98",
   "status": "partial",
   "theorems": [
    "ENigMA.C98_binary",
    "ENigMA.C98_binary_mesh",
    "ENigMA.C98_binary_small"
   ],
   "note": "Holds from six facets on when the bytes that are searched hold a zero and not the word vertex before it; this is always so for a surface set from a mesh (C98_binary_mesh). With five facets or fewer load reports success and reads nothing (C98_binary_small)."
  },
  {
   "property": "C99",
   "status": "partial",
   "theorems": [
    "ENigMA.C99_ascii",
    "ENigMA.C99_ascii_small"
   ],
   "note": "Holds from two facets on. With one facet load reports success and reads nothing (C99_ascii_small)."
  },
  {
   "property": "C100",
   "status": "proved",
   "theorems": [
    "ENigMA.C100_connectivity",
    "ENigMA.C100_conforming"
   ],
   "note": "The hash grid's own conditions (C13) are hypotheses. A neighbour may be an edge of the same facet, or one of several candidates, when edges are short: C100_conforming states when this does not happen."
  },
  {
   "property": "C101",
   "status": "proved",
   "theorems": [
    "ENigMA.C101_mesh",
    "ENigMA.C101_shared",
    "ENigMA.C101_big_fan"
   ],
   "note": "C101_big_fan: with 101 facets around a vertex the walk gives up and the vertex gets two nodes; hence the bound 99 in C101_shared."
  },
  {
   "property": "C102",
   "status": "partial",
   "theorems": [
    "ENigMA.C102_steady1",
    "ENigMA.C102_steady2",
    "ENigMA.C102_steady3",
    "ENigMA.C102_fin",
    "ENigMA.C102_transient1",
    "ENigMA.C102_transient2",
    "ENigMA.C102_start2",
    "ENigMA.C102_centre",
    "ENigMA.C102_transient3_partial",
    "ENigMA.C102_start3_wrong"
   ],
   "note": "All equations and zero sides are proved. The prescribed value 1 on a side or at the start is reached only in the limit of infinitely many terms; proved are the partial sums it equals. transientHeatConduction3D lacks the sign (-1)^r: C102_start3_wrong shows that the centre of the cube starts above 3 instead of 1."
  },
  {
   "property": "C103",
   "status": "proved",
   "theorems": [
    "ENigMA.C103_burgers"
   ],
   "note": ""
  },
  {
   "property": "C104",
   "status": "proved",
   "theorems": [
    "ENigMA.C104_faces",
    "ENigMA.C104_flip",
    "ENigMA.C104_region",
    "ENigMA.C104_boundary",
    "ENigMA.C104_quality",
    "ENigMA.C104_measure"
   ],
   "note": "C104_faces shows that the hypotheses hold after generateFaces; C104_measure that the measure of quality of the code meets those of C104_quality and C105_quality."
  },
  {
   "property": "C105",
   "status": "proved",
   "theorems": [
    "ENigMA.C105_relax",
    "ENigMA.C105_region",
    "ENigMA.C105_boundary",
    "ENigMA.C105_quality"
   ],
   "note": "The hypothesis on the measure of quality holds for that of the code (C104_measure)."
  },
  {
   "property": "C106",
   "status": "partial",
   "theorems": [
    "ENigMA.C106_linear_partial",
    "ENigMA.C106_not_translated",
    "ENigMA.C106_target_outside"
   ],
   "note": "Proved for linear maps that keep volumes and qualities (rotations about an axis through the origin). False for translations: C106_not_translated gives a mesh where a node moves, while it stays in the same mesh moved by (12, 12, 12). The sum so far is multiplied by the volume and divided by four in each round (MshTetrahedronMesher_Imp.hpp:1413-1419), so the point towards which a node is moved is not the weighted mean: C106_target_outside gives a mesh in [0, 12]^3 for which it has all coordinates above 240, so that no node moves with the factor one."
  },
  {
   "property": "C107",
   "status": "partial",
   "theorems": [
    "ENigMA.C107_faces",
    "ENigMA.C107_flip_partial",
    "ENigMA.C107_region_partial",
    "ENigMA.C107_boundary_partial",
    "ENigMA.C107_quality_partial",
    "ENigMA.C107_hole",
    "ENigMA.C107_overlap"
   ],
   "note": "C107_*_partial need Mesh.Isolated; C107_hole and C107_overlap show that the property fails without it."
  },
  {
   "property": "C108",
   "status": "proved",
   "theorems": [
    "ENigMA.C108_orient"
   ],
   "note": "Hypotheses: facets triangular, ids not negative, neighbours mutual, edges without neighbours marked as such, no facet its own neighbour (what generateConnectivity gives, C100), corners of a facet further apart than the tolerance."
  },
  {
   "property": "C109",
   "status": "partial",
   "theorems": [
    "ENigMA.C109_first_facet_lost"
   ],
   "note": "The property is false of the code: C109_first_facet_lost proves that the first facet is always lost; an example shows that the call returns for a tetrahedron and what it leaves."
  },
  {
   "property": "C110",
   "status": "proved",
   "theorems": [
    "ENigMA.C110_split",
    "ENigMA.C110_terminates",
    "ENigMA.C110_ids_needed",
    "ENigMA.C110_long_edges_remain"
   ],
   "note": "Positive for ids that are positions; a wrong result is proved for other ids (C110_ids_needed), and that long edges can remain (C110_long_edges_remain)."
  },
  {
   "property": "C111",
   "status": "proved",
   "theorems": [
    "ENigMA.C111_relax",
    "ENigMA.C111_round",
    "ENigMA.C111_ids_needed"
   ],
   "note": "Positive for ids that are positions; a torn surface is proved for another order (C111_ids_needed)."
  },
  {
   "property": "C112",
   "status": "proved",
   "theorems": [
    "ENigMA.C112_collapse",
    "ENigMA.C112_round"
   ],
   "note": ""
  },
  {
   "property": "C113",
   "status": "partial",
   "theorems": [
    "ENigMA.C113_overlaps",
    "ENigMA.C113_stale",
    "ENigMA.C113_flip",
    "ENigMA.C113_keeps"
   ],
   "note": "What is flipped, and that flips improve the quality, is proved; that the surface stays the same is refuted (C113_overlaps, C113_stale)."
  },
  {
   "property": "C114",
   "status": "proved",
   "theorems": [
    "ENigMA.C114_check",
    "ENigMA.C114_features"
   ],
   "note": ""
  },
  {
   "property": "C115",
   "status": "partial",
   "theorems": [
    "ENigMA.C115_edgeProduct",
    "ENigMA.C115_laplacian",
    "ENigMA.C115_row",
    "ENigMA.C115_weak_partial",
    "ENigMA.C115_balance",
    "ENigMA.C115_no_conditions",
    "ENigMA.C115_fin",
    "ENigMA.C115_fin_hot",
    "ENigMA.C115_plate_cold"
   ],
   "note": "Proved: the exact form and load for every mesh and every set of conditions, symmetry, balance of the exchanged heat, agreement with the generic operator without conditions. The claim itself is false of the code: the diffusion matrix is negative but the convective terms are added with a positive sign, so the equation solved is the Robin problem with -h (C115_weak_partial); a fin in colder surroundings is hotter than its base, or colder than the surroundings, for every length and coefficient (C115_fin, C115_fin_hot); the same for triangles (C115_plate_cold). Beams carry their whole surface at each node, twice the amount. Conditions on quadrilaterals and solids are ignored. The conductivity of the material is not used. source does nothing."
  },
  {
   "property": "C116",
   "status": "partial",
   "theorems": [
    "ENigMA.C116_gradient",
    "ENigMA.C116_plane",
    "ENigMA.C116_plane_rigid",
    "ENigMA.C116_plane_energy",
    "ENigMA.C116_solid_partial",
    "ENigMA.C116_solid_asymmetric",
    "ENigMA.C116_solid_rigid",
    "ENigMA.C116_thickness",
    "ENigMA.C116_dofs"
   ],
   "note": "Triangles in the plane z = 0 with known thickness: proved in full, including degenerate triangles. Tetrahedra: the form has an extra term because the elasticity matrix is written with a zero where the Poisson coefficient belongs (C116_solid_partial), so the matrix is not symmetric on any mesh with non-zero total volume and non-zero Poisson coefficient (C116_solid_asymmetric) although the system is declared symmetric; rigid motions need no force. A triangle made with CMshElement(ET_TRIANGLE), as every mesher makes it, has an uninitialised thickness which laplacian reads (C116_thickness). Triangles with three degrees of freedom read outside their matrix (C116_dofs). ddt, divergence and source are empty."
  },
  {
   "property": "C117",
   "status": "partial",
   "theorems": [
    "ENigMA.C117_mean",
    "ENigMA.C117_ddt_partial",
    "ENigMA.C117_ddt_element_ids",
    "ENigMA.C117_laplacian",
    "ENigMA.C117_gradient",
    "ENigMA.C117_gradient_orientation",
    "ENigMA.C117_convection",
    "ENigMA.C117_stream_negative",
    "ENigMA.C117_gradient_solid",
    "ENigMA.C117_no_branch",
    "ENigMA.C117_thickness",
    "ENigMA.C117_gradient_component",
    "ENigMA.C117_mean_solid",
    "ENigMA.C117_ddt_solid_partial",
    "ENigMA.C117_laplacian_solid",
    "ENigMA.C117_convection_solid_partial",
    "ENigMA.C117_solid_constants"
   ],
   "note": "Plane triangle meshes: all forms are computed for all fields. gradient and the convective part of divergence carry the sign of the orientation of each triangle, so on a clockwise mesh they are the opposite of what is claimed, while ddt and laplacian do not change (C117_gradient_orientation with sigma = -1). The streamline term enters with a negative sign: a negative diffusion (C117_convection, C117_stream_negative). ddt looks elements up with their positions (C117_ddt_element_ids). laplacian reads a thickness that the typed constructor never set (C117_thickness), and the thickness scales laplacian only. gradient along z of triangles reads outside an empty matrix (C117_gradient_component). Quadrilaterals, prisms and hexahedra contribute nothing, without an error (C117_no_branch). Tetrahedra: ddt, laplacian (positive volume()), gradient and divergence are computed too; the convection of solids has one wrong velocity in the last row of the element matrix, so that constants are not in its kernel (C117_convection_solid_partial, C117_solid_constants)."
  },
  {
   "property": "C118",
   "status": "partial",
   "theorems": [
    "ENigMA.C118_new",
    "ENigMA.C118_iterate_partial",
    "ENigMA.C118_gravity",
    "ENigMA.C118_gravity_area",
    "ENigMA.C118_density",
    "ENigMA.C118_energy",
    "ENigMA.C118_rest",
    "ENigMA.C118_correct_solvable",
    "ENigMA.C118_solvable",
    "ENigMA.C118_solvable_rest"
   ],
   "note": "Every step gives a result with the prescribed values in place, and its stages satisfy the discrete equations whenever they have solutions (C118_iterate_partial); the corrections always have one (C118_correct_solvable), the others under positivity (C118_solvable, C118_solvable_rest). Rest is kept for ever (C118_rest). The claim as stated fails: gravity is added to every row unweighted, so free fall is wrong unless every shape function has integral 1 (C118_gravity, C118_gravity_area); the pressure equation lacks the density (C118_density); the streamline term destabilises (C118_energy). Initial fields are uninitialised (C118_new)."
  },
  {
   "property": "C119",
   "status": "partial",
   "theorems": [
    "ENigMA.C119_divergence",
    "ENigMA.C119_flux",
    "ENigMA.C119_not_conservative",
    "ENigMA.C119_ddt"
   ],
   "note": "The system is the generic one with each row times the value of its own cell (C119_divergence), hence fluxes and constants (C119_flux). What leaves a cell does not enter its neighbour: together they gain the difference of their values times the flux (C119_not_conservative), so the last clause fails. ddt as stated (C119_ddt). Sign of b as in C66."
  },
  {
   "property": "C120",
   "status": "partial",
   "theorems": [
    "ENigMA.C120_faces_partial",
    "ENigMA.C120_solid_partial",
    "ENigMA.C120_covered_partial",
    "ENigMA.C120_tiling_partial",
    "ENigMA.C120_surface_kept_partial",
    "ENigMA.C120_half_line",
    "ENigMA.C120_triple_lost"
   ],
   "note": "Proved for results after no upset repair (C120_solid_partial, C120_covered_partial, C120_faces_partial, C120_surface_kept_partial); C120_triple_lost shows how a repair is upset. That tetrahedra do not overlap is a hypothesis of C120_tiling_partial."
  },
  {
   "property": "C121",
   "status": "proved",
   "theorems": [
    "ENigMA.C121_tetrahedra",
    "ENigMA.C121_nodes"
   ],
   "note": "Without condition on repairs."
  },
  {
   "property": "C122",
   "status": "partial",
   "theorems": [
    "ENigMA.C122_terminates",
    "ENigMA.C122_rounds",
    "ENigMA.C122_closed",
    "ENigMA.C122_inner_not_cleared"
   ],
   "note": "C122_terminates, C122_rounds, C122_closed. The last clause fails: the list of interior nodes is not cleared (C122_inner_not_cleared)."
  },
  {
   "property": "C123",
   "status": "partial",
   "theorems": [
    "ENigMA.C123_sides_partial",
    "ENigMA.C123_region_partial",
    "ENigMA.C123_covered_partial",
    "ENigMA.C123_boundary_partial",
    "ENigMA.C123_node_moved",
    "ENigMA.C123_overlap"
   ],
   "note": "Proved under the condition that during the call no edge was cancelled against an edge that had gone before and no node was stored under an id in use. The condition is needed: C123_node_moved shows a polygon for which the last resort stores a new node under the id of a node it had found, which moves that node, and a point of the region is left out. That elements do not overlap is false: C123_overlap shows a polygon for which one triangle outside the region is stored twice, so the region is only what an odd number of elements cover."
  },
  {
   "property": "C124",
   "status": "partial",
   "theorems": [
    "ENigMA.C124_elements_partial",
    "ENigMA.C124_clockwise"
   ],
   "note": "Proved under the condition of C123. Triangles need not be counter-clockwise: C124_clockwise."
  },
  {
   "property": "C125",
   "status": "partial",
   "theorems": [
    "ENigMA.C125_terminates",
    "ENigMA.C125_rounds",
    "ENigMA.C125_closed",
    "ENigMA.C125_limit_exceeded",
    "ENigMA.C125_long_rectangle"
   ],
   "note": "The end and the refusal are proved for all calls; the limit can be exceeded by one and no more (C125_limit_exceeded), the bound is proved under the condition of C123. C125_long_rectangle: a rectangle of four beams with sides 1 and 4 and an element size of 1 makes the front leave the rectangle until the limit is reached."
  },
  {
   "property": "C126",
   "status": "proved",
   "theorems": [
    "ENigMA.C126_faces",
    "ENigMA.C126_flip",
    "ENigMA.C126_region",
    "ENigMA.C126_boundary",
    "ENigMA.C126_quality"
   ],
   "note": "For every plane mesh of triangles and convex quadrilaterals with generated faces: definedness, kinds, region, area, boundary, disjointness, quality. C126_faces shows that generateFaces gives the hypotheses."
  },
  {
   "property": "C127",
   "status": "partial",
   "theorems": [
    "ENigMA.C127_relax_partial",
    "ENigMA.C127_grid",
    "ENigMA.C127_hole"
   ],
   "note": "C127_relax_partial: it returns, changes positions only and keeps nodes in every half-space. C127_hole: all nodes of a hole, which are on the boundary, are moved, two of them to the same place, and elements are no longer convex. C127_grid: the common node of four quadrilaterals is never moved. Cause: the walk takes face (k + 1) % 3 also in a quadrilateral, and elements are judged by their first three nodes."
  },
  {
   "property": "C128",
   "status": "proved",
   "theorems": [
    "ENigMA.C128_cylinder",
    "ENigMA.C128_sphere",
    "ENigMA.C128_one_stack"
   ],
   "note": "Real arithmetic: rounding of sine and cosine is not modelled, so the planes of quadrilaterals are exact. With one stack the sphere's polygons are given two corners only (C128_one_stack); CsgSphere and CsgCylinder do not check their arguments."
  },
  {
   "property": "C129",
   "status": "partial",
   "theorems": [
    "ENigMA.C129_vtk_partial",
    "ENigMA.C129_quadrilateral",
    "ENigMA.C129_dofs",
    "ENigMA.C129_ids",
    "ENigMA.C129_tetrahedron"
   ],
   "note": "The claim holds for lines, triangles, tetrahedra, hexahedra and prisms with at most one value per node and node ids 0..n-1 in any order (C129_vtk_partial), and tetrahedra of positive volume come out positive in VTK (C129_tetrahedron). It fails otherwise: for a quadrilateral (or point element or polyhedron) save writes the size and the type but neither the number nor the nodes of the cell, so no such file can be read (C129_quadrilateral); with two or more values per node the data section is announced and empty (C129_dofs); if a number below n is not a node id, saving values at the nodes throws because nodeIndex(i) is called, although its result is not used (C129_ids). The first coordinate of the file is printed before setprecision and has 6 digits only (prt0 in C129_vtk_partial). load is a TODO that returns true and reads nothing."
  },
  {
   "property": "C130",
   "status": "partial",
   "theorems": [
    "ENigMA.C130_gnuplot_partial",
    "ENigMA.C130_exactly",
    "ENigMA.C130_wrong_rows",
    "ENigMA.C130_elements_partial"
   ],
   "note": "save uses the loop position as an id and its index as an id again: the rows are right exactly if position and id can be exchanged (ids equal positions, or are swapped in pairs): C130_gnuplot_partial, C130_exactly, C130_elements_partial. On the consistent mesh with ids 1, 2, 0 every row has the number and coordinates of one node and the value of another (C130_wrong_rows)."
  },
  {
   "property": "C131",
   "status": "proved",
   "theorems": [
    "ENigMA.C131_scaling",
    "ENigMA.C131_self_scaling",
    "ENigMA.C131_positive",
    "ENigMA.C131_self"
   ],
   "note": "Real arithmetic. For two triangles the coefficients are sums over 20 points with decimal weights: their accuracy is not claimed, and since the decimals of the barycentric coordinates do not add up to one exactly, invariance under translation is not exact and not claimed."
  },
  {
   "property": "C132",
   "status": "proved",
   "theorems": [
    "ENigMA.C132_equations",
    "ENigMA.C132_constant",
    "ENigMA.C132_ids",
    "ENigMA.C132_other_types"
   ],
   "note": "The solver is given the matrix with -1/2 on the diagonal, so constants are solutions only for surfaces whose normals point inward (C132_constant): with outward normals the sum of h is about -1/2. The position of an element is used as its id (C132_ids), and with an element that is not a triangle the matrix is singular (C132_other_types). ddt, divergence and source of this operator are empty in the code. Division by the area of a degenerate triangle is not distinguished."
  },
  {
   "property": "C133",
   "status": "proved",
   "theorems": [
    "ENigMA.C133_near",
    "ENigMA.C133_of_mesh",
    "ENigMA.C133_unbuilt",
    "ENigMA.C133_rebuild"
   ],
   "note": "Calling `build()` a second time without `set()` makes the search return faces several times (C133_rebuild): the cell counters of the grid are not cleared. A search after `set()` without `build()` is undefined or empty (C133_unbuilt). The mesh must not change between `build` and the search."
  },
  {
   "property": "C134",
   "status": "partial",
   "theorems": [
    "ENigMA.C134_false_alarm",
    "ENigMA.C134_flipped",
    "ENigMA.C134_flipped_missed",
    "ENigMA.C134_sound_partial",
    "ENigMA.C134_found",
    "ENigMA.C134_neighbours",
    "ENigMA.C134_segment",
    "ENigMA.C134_segment_sound"
   ],
   "note": "Complete for positive tolerance and triangles in general position (C134_found), right for neighbours (C134_neighbours) and for segments (C134_segment, C134_segment_sound). Sound with tolerance 0 only when the first triangle is not strictly on one side of the plane of the second: the second early test compares the second triangle with its own plane, so it never fires, and the last part accepts corners whose projections are inside; C134_false_alarm gives two disjoint triangles reported as crossing in one order of the arguments and not in the other. Two triangles in one plane (not through the origin) with opposite orientation are compared by |d1 - d2|, which is 2|d|: they count as not coplanar and only containment is found (C134_flipped), so a six-pointed star is missed (C134_flipped_missed). Coplanar triangles with the same orientation inherit the faults of the segment test (C84)."
  },
  {
   "property": "C135",
   "status": "proved",
   "theorems": [
    "ENigMA.C135_exchange",
    "ENigMA.C135_volume",
    "ENigMA.C135_facet_normals",
    "ENigMA.C135_normals"
   ],
   "note": "The facets of the exported file all carry the normal zero (C135_facet_normals), so that a file saved from it has zero normals; reading back does not use them. fromSTL appends to the polygons already in the solid."
  },
  {
   "property": "C136",
   "status": "partial",
   "theorems": [
    "ENigMA.C136_positions",
    "ENigMA.C136_no_tolerance",
    "ENigMA.C136_short_moves",
    "ENigMA.C136_closed_partial",
    "ENigMA.C136_round_trip"
   ],
   "note": "All parts hold except the last: edges are closed one after the other and closing an edge moves the end of the edge before it. C136_closed_partial proves the last part when no two unpaired edges share a node; C136_round_trip shows that around a single triangle, with all edges short enough, two edges are as long afterwards as the second edge was."
  },
  {
   "property": "C137",
   "status": "proved",
   "theorems": [
    "ENigMA.C137_mesh_box",
    "ENigMA.C137_element_box",
    "ENigMA.C137_scale"
   ],
   "note": "The centroids stored by calculateElementCentroid and calculateFaceCentroid are not part of this model; scale does not refresh them."
  },
  {
   "property": "C138",
   "status": "partial",
   "theorems": [
    "ENigMA.C138_complete",
    "ENigMA.C138_flow",
    "ENigMA.C138_not_symmetric",
    "ENigMA.C138_missing",
    "ENigMA.C138_mismatch",
    "ENigMA.C138_source"
   ],
   "note": "Holds for generic and thermal fields of finite differences, finite elements and finite volumes, and for flow fields of finite volumes (C138_complete) and, without the divergence of one field, of finite elements (C138_flow). Not otherwise: C138_missing shows that a field without operators silently gives the empty system, C138_mismatch that ddt - laplacian fails for structural finite elements and for boundary elements and laplacian + divergence for flow fields of finite elements, C138_source that a source works for generic finite elements only."
  },
  {
   "property": "C139",
   "status": "partial",
   "theorems": [
    "ENigMA.C139_history",
    "ENigMA.C139_fraction",
    "ENigMA.C139_quiet",
    "ENigMA.C139_stale",
    "ENigMA.C139_area_added",
    "ENigMA.C139_stale_cube",
    "ENigMA.C139_area_added_cube",
    "ENigMA.C139_missing_face",
    "ENigMA.C139_clipped_face"
   ],
   "note": "Proved: for every sequence of calls about faces that are there, recalculated volume, surface area, original volume, face areas and normals are those of the shape asked for (C139_history); after a clip the recalculated volume is the reported fraction of the original volume, within the tolerance if the search converged (C139_fraction); a recalculated volume stays right until the next clip or switch (C139_quiet). The code violates the property in four ways: volume and surface area once calculated are reported unchanged after a clip or switch unless a recalculation is forced (C139_stale, C139_stale_cube); a surface area once calculated never sees faces added later, even if forced, because the flag is not handed on (C139_area_added, C139_area_added_cube); asking for the area of a face that is not there inserts an empty face that appears after the next clip (C139_missing_face); the face returned by clippedFace keeps its first area (C139_clipped_face). Recalculating face areas of the clipped shape, and centroids, are outside the theorem."
  },
  {
   "property": "C140",
   "status": "partial",
   "theorems": [
    "ENigMA.C140_ball_measure",
    "ENigMA.C140_polygon",
    "ENigMA.C140_polygon_moves",
    "ENigMA.C140_polyhedron_moves",
    "ENigMA.C140_tetrahedron",
    "ENigMA.C140_polygon_mass",
    "ENigMA.C140_polyhedron_mass",
    "ENigMA.C140_replaced",
    "ENigMA.C140_polyhedron_box",
    "ENigMA.C140_sphere_box",
    "ENigMA.C140_circle_box",
    "ENigMA.C140_circle_normal"
   ],
   "note": "Proved: the centroid of a closed polygon is the mean of its vertices whichever it starts with (C140_polygon), centroids move with the shape and stay in every half-space containing it (C140_polygon_moves, C140_polyhedron_moves), a tetrahedron turned into a polyhedron keeps its centroid (C140_tetrahedron), the box of a polyhedron is the least box (C140_polyhedron_box), the volume of a sphere and area of a circle are the Lebesgue measures of the points they contain (C140_ball_measure). The code violates the rest: a box of a sphere or circle contains it only if its centre is the origin (C140_sphere_box, C140_circle_box), the normal of a circle lies in its plane (C140_circle_normal), the centroid is not the centre of mass of a trapezoid or a pyramid (C140_polygon_mass, C140_polyhedron_mass), and a face added again under its id is counted twice (C140_replaced). The surface area 4 pi r^2 is modelled but not compared with a surface measure."
  },
  {
   "property": "C141",
   "status": "partial",
   "theorems": [
    "ENigMA.C141_three",
    "ENigMA.C141_missed",
    "ENigMA.C141_mixed",
    "ENigMA.C141_mixed_beam",
    "ENigMA.C141_first",
    "ENigMA.C141_said",
    "ENigMA.C141_sparse_partial",
    "ENigMA.C141_neighbours"
   ],
   "note": "Proved for meshes of triangles: the search always answers, and a yes comes from two triangles with meeting boxes that the test of two triangles (C134) says to share more than a corner (C141_said); if the box of each triangle meets at most one other, the answer is yes exactly then (C141_sparse_partial); in general one other triangle is tested for each triangle, no more (C141_first). The code violates the property in three ways: the counters are not set back between candidates, so after the first candidate nothing is tested and a crossing is missed (C141_three, C141_missed); triangles that share an edge count as crossing, so with a positive tolerance sound surfaces are said to cross themselves (C141_neighbours); in meshes with other elements the vertices of a triangle without vertices are read (C141_mixed, C141_mixed_beam). Missing: meshes of beams only, which follow the same scheme."
  },
  {
   "property": "C142",
   "status": "partial",
   "theorems": [
    "ENigMA.C142_steady_partial",
    "ENigMA.C142_not_the_line",
    "ENigMA.C142_error",
    "ENigMA.C142_one_end"
   ],
   "note": "The code violates the property: at an end node the prescribed value is taken to be the value one step outside the rod, and the node's own unknown, which differs from it, is thrown away only after the solution. C142_steady_partial: the inner values are those of the line from a, one step before the first node, to b, one step after the last: a + (b - a)(i + 1)/(n + 1) instead of a + (b - a) i/(n - 1). C142_not_the_line: from four nodes on, with different values, the first inner value is never that of the line between the ends. C142_error: the error is at most |b - a|/(n + 1), so it vanishes with first order under refinement. C142_one_end: with one end prescribed and the other free the result is exact."
  },
  {
   "property": "C143",
   "status": "proved",
   "theorems": [
    "ENigMA.C143_error",
    "ENigMA.C143_forgets",
    "ENigMA.C143_ratio",
    "ENigMA.C143_limit",
    "ENigMA.C143_step",
    "ENigMA.C143_bounds",
    "ENigMA.C143_insulated"
   ],
   "note": "C143_step (each step has exactly one result and it balances heat at every node), C143_bounds (maximum principle for any number of steps and any step length), C143_insulated (total heat conserved), C143_forgets and C143_ratio (two runs with the same prescribed ends approach each other like powers of a ratio below one), C143_limit (what a long run tends to: with both ends prescribed a straight line, but one that meets the prescribed values k/dx² / (rc/dt + k/dx²) steps outside the rod, so the limit depends on the time step and differs from the steady result of C142), C143_error (error against any smooth solution of the heat equation: elapsed time times (M2 dt/2 + k/rc M4 h²/12), plus h times the largest slope, the last term because of the value taken one step outside a prescribed end). Applied to the decaying sine with any number of intervals as a concrete case. Exact arithmetic; the linear solver is assumed to solve solvable systems."
  },
  {
   "property": "C144",
   "status": "proved",
   "theorems": [
    "ENigMA.C144_patch_tetrahedra",
    "ENigMA.C144_patch_triangles",
    "ENigMA.C144_patch_beams",
    "ENigMA.C144_least_energy"
   ],
   "note": "C144_least_energy (existence for every mesh and every set of prescribed values, also none; least energy; strict, hence uniqueness and independence of the solver, when anchored), C144_patch_tetrahedra, C144_patch_triangles (plane mesh, one orientation), C144_patch_beams (rod with any lengths). Applied to a rod of three uneven beams, a fan of four triangles and a star of four tetrahedra. Without convective edges (C115 covers those). Exact arithmetic; the linear solver is assumed to solve solvable systems."
  },
  {
   "property": "C145",
   "status": "proved",
   "theorems": [
    "ENigMA.C145_overshoot",
    "ENigMA.C145_energy",
    "ENigMA.C145_forgets",
    "ENigMA.C145_limit",
    "ENigMA.C145_step",
    "ENigMA.C145_insulated"
   ],
   "note": "C145_step, C145_insulated (heat kept), C145_energy, C145_forgets (differences: squared integral never grows, energy falls like 1/n), C145_limit (every node approaches the steady temperature of C144 like powers of a ratio below one that does not depend on the initial values; contrast with the finite difference program, whose limit is not the steady result, C143_limit), C145_overshoot (what fails: a rod of one beam at 1 with one end set to 0 gets 3/(2 + 6 dt) at the other end, above 1 for dt < 1/6). Elements must be numbered 0, 1, ... and node ids lie below the number of nodes (C28_ddt_element_ids, C28_ddt_node_ids show what happens otherwise). Exact arithmetic; the linear solver is assumed to solve solvable systems."
  },
  {
   "property": "C146",
   "status": "proved",
   "theorems": [
    "ENigMA.C146_steady",
    "ENigMA.C146_bounds",
    "ENigMA.C146_through",
    "ENigMA.C146_linear"
   ],
   "note": "C146_steady (existence, uniqueness), C146_bounds, C146_through, C146_linear (the faces of a cell all seen from outside or all from inside). Examples: three cubes in a row. The linear solver is a parameter: any that solves a system which has a solution."
  },
  {
   "property": "C147",
   "status": "partial",
   "theorems": [
    "ENigMA.C147_wrong_sign",
    "ENigMA.C147_numbering",
    "ENigMA.C147_forgets",
    "ENigMA.C147_limit_partial",
    "ENigMA.C147_not_steady",
    "ENigMA.C147_step_partial",
    "ENigMA.C147_boundary_cell",
    "ENigMA.C147_bounds",
    "ENigMA.C147_insulated",
    "ENigMA.C147_boundary_value"
   ],
   "note": "Holds (when the sign of the program fits the orientation of the cells): C147_step_partial, C147_bounds, C147_insulated, C147_boundary_value, C147_forgets, C147_limit_partial. Fails: in a cell with a fixed face the old temperature is ignored and the fixed value taken instead (C147_boundary_cell), so heat there is lost every step and the limit is not the steady result (C147_not_steady). calculateVolume is negative for cells whose faces are seen counterclockwise from inside, as generateFaces makes them for the numbering of CMshBasicMesher; laplacian divides by it and changes sign: with - k laplacian(T) (heat1d) temperatures of such cells grow like (s/(s-k))^n instead of evening out (C147_wrong_sign, C147_numbering); only with + k laplacian(T) (fvmheat) do the results hold there."
  },
  {
   "property": "C148",
   "status": "partial",
   "theorems": [
    "ENigMA.C148_step_partial",
    "ENigMA.C148_ends",
    "ENigMA.C148_balance",
    "ENigMA.C148_moment",
    "ENigMA.C148_stable",
    "ENigMA.C148_undershoot"
   ],
   "note": "What fails is proved: the ends keep their initial values through any number of steps (C148_ends), since ddt and divergence leave their rows as T = old value and 0, and no condition is applied; and the bounds of the initial field are left after one step with any step length (C148_undershoot), as the central difference does."
  },
  {
   "property": "C149",
   "status": "partial",
   "theorems": [
    "ENigMA.C149_step_partial",
    "ENigMA.C149_steps",
    "ENigMA.C149_bounds",
    "ENigMA.C149_worthless_share",
    "ENigMA.C149_bond",
    "ENigMA.C149_quote",
    "ENigMA.C149_calculate",
    "ENigMA.C149_outside",
    "ENigMA.C149_maturity",
    "ENigMA.C149_negative"
   ],
   "note": "What fails is proved: C149_bond (the generic divergence puts 1 on the diagonal of its end rows, so r*S*V appears there instead of r*S*dV/dS), C149_negative (one step on two nodes gives -99 for the right to sell at 300 what is worth 201), C149_outside (V.u(-1) is read for a share price below the line; no price is printed at or above its upper end)."
  },
  {
   "property": "C150",
   "status": "partial",
   "theorems": [
    "ENigMA.C150_step_partial",
    "ENigMA.C150_bounds",
    "ENigMA.C150_steps",
    "ENigMA.C150_cyclic",
    "ENigMA.C150_uniform",
    "ENigMA.C150_backward"
   ],
   "note": "What fails is proved: C150_uniform and C150_backward. The generic divergence puts 1 on the diagonal of its end rows, so u*u appears there instead of u*du/dx."
  },
  {
   "property": "C151",
   "status": "partial",
   "theorems": [
    "ENigMA.C151_mesher",
    "ENigMA.C151_step_partial",
    "ENigMA.C151_steps",
    "ENigMA.C151_linear",
    "ENigMA.C151_inlet",
    "ENigMA.C151_balance",
    "ENigMA.C151_energy",
    "ENigMA.C151_uneven"
   ],
   "note": "What fails is proved: C151_inlet (no value is prescribed where the flow enters) and C151_uneven (a singular system on an uneven line)."
  },
  {
   "property": "C152",
   "status": "partial",
   "theorems": [
    "ENigMA.C152_step_partial",
    "ENigMA.C152_steps",
    "ENigMA.C152_conserved",
    "ENigMA.C152_energy",
    "ENigMA.C152_uniform",
    "ENigMA.C152_piles"
   ],
   "note": "What fails is proved: C152_conserved (nothing leaves), C152_uniform (exactly when a uniform temperature is kept) and C152_piles (the last cube)."
  },
  {
   "property": "C153",
   "status": "proved",
   "theorems": [
    "ENigMA.C153_patch",
    "ENigMA.C153_result",
    "ENigMA.C153_unbalanced",
    "ENigMA.C153_least_energy",
    "ENigMA.C153_clapeyron",
    "ENigMA.C153_reciprocity",
    "ENigMA.C153_superposition",
    "ENigMA.C153_rigid"
   ],
   "note": "C153_unbalanced: an unbalanced load gets a result although no equilibrium exists. Solids (tetrahedra) have an asymmetric matrix (C116_solid_asymmetric), and triangles made with the constructor that takes a type have no thickness (C116_thickness)."
  },
  {
   "property": "C154",
   "status": "partial",
   "theorems": [
    "ENigMA.C154_result_partial",
    "ENigMA.C154_poisson_partial",
    "ENigMA.C154_refinement",
    "ENigMA.C154_energy"
   ],
   "note": "The source operator adds the value once per corner of every element, without the measure of the element. C154_result_partial says what the program minimises on every mesh; C154_poisson_partial is the full property for meshes whose elements measure as many units as they have corners; C154_refinement shows that otherwise the result is wrong by the factor 2n/L on every rod and diverges as the mesh is refined. C154_energy: the sum the torsion example inverts is never positive for the source 2 it uses, whereas an angle of twist per torque is positive."
  },
  {
   "property": "C155",
   "status": "proved",
   "theorems": [
    "ENigMA.C155_converges",
    "ENigMA.C155_heat",
    "ENigMA.C155_constant"
   ],
   "note": "C155_converges is for every system, C155_heat for meshes; C155_constant gives the exact error on a rod for every factor, length and number of beams. Conditions on edges are not included in C155_heat (C155_converges applies to any system)."
  },
  {
   "property": "C156",
   "status": "partial",
   "theorems": [
    "ENigMA.C156_rest",
    "ENigMA.C156_bounds",
    "ENigMA.C156_limit",
    "ENigMA.C156_mass",
    "ENigMA.C156_heat_created"
   ],
   "note": "Missing: conservation of heat and independence of the mass, which the code violates; C156_heat_created and C156_mass prove that."
  },
  {
   "property": "C157",
   "status": "proved",
   "theorems": [
    "ENigMA.C157_join",
    "ENigMA.C157_no_crack",
    "ENigMA.C157_lost"
   ],
   "note": "Unlike C08, no order of the node ids is assumed: meshes that fit cannot form the chains behind C08_dangling_reference."
  },
  {
   "property": "C158",
   "status": "proved",
   "theorems": [
    "ENigMA.C158_closed",
    "ENigMA.C158_watertight",
    "ENigMA.C158_volume"
   ],
   "note": ""
  },
  {
   "property": "C159",
   "status": "proved",
   "theorems": [
    "ENigMA.C159_hexahedron",
    "ENigMA.C159_box",
    "ENigMA.C159_watertight",
    "ENigMA.C159_volume"
   ],
   "note": ""
  },
  {
   "property": "C160",
   "status": "partial",
   "theorems": [
    "ENigMA.C160_step",
    "ENigMA.C160_history",
    "ENigMA.C160_walls_ignored",
    "ENigMA.C160_cavity",
    "ENigMA.C160_leaks",
    "ENigMA.C160_mirror"
   ],
   "note": "Mass is not conserved although the border is marked as wall: C160_walls_ignored shows that the marks have no effect, C160_leaks gives a cavity that loses U^2/54 of its mass in two steps."
  },
  {
   "property": "C161",
   "status": "proved",
   "theorems": [
    "ENigMA.C161_plate_bounds",
    "ENigMA.C161_plate",
    "ENigMA.C161_cooling",
    "ENigMA.C161_plate_linear",
    "ENigMA.C161_rod",
    "ENigMA.C161_settles",
    "ENigMA.C161_plate_bounds_rectangles"
   ],
   "note": "Over exact arithmetic, for any solver that solves solvable systems. The bounds are for rectangles only; the tolerance has to be at most the width of a cell (with more cells the loop prescribes more nodes)."
  },
  {
   "property": "C162",
   "status": "proved",
   "theorems": [
    "ENigMA.C162_clamped",
    "ENigMA.C162_stretched"
   ],
   "note": "Over exact arithmetic, for any solver that solves solvable systems."
  },
  {
   "property": "C163",
   "status": "proved",
   "theorems": [
    "ENigMA.C163_linear",
    "ENigMA.C163_bounds",
    "ENigMA.C163_settles"
   ],
   "note": "Over exact arithmetic, for any solver that solves solvable systems. For hexahedra whose volume() is positive (in the sign convention of the code, see C31), as C144 requires, and with decomposition into tetrahedra; the bounds are for boxes only."
  },
  {
   "property": "C164",
   "status": "partial",
   "theorems": [
    "ENigMA.C164_linear",
    "ENigMA.C164_bounds",
    "ENigMA.C164_time",
    "ENigMA.C164_time_wrong"
   ],
   "note": "Over exact arithmetic, for any solver that solves solvable systems. Steady results: proved (C164_linear, C164_bounds). Time steps: the property fails; C164_time says for every number of steps what is computed instead, the temperatures for the conductivity multiplied by (6 V)², V the volume of a tetrahedron (FemTetrahedron_Imp.hpp:108-109 scales the gradients only if the volume is positive), and C164_time_wrong that these are other temperatures for every single cell of negative volume other than -1."
  }
 ]
}