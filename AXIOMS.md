# Axioms of each theorem

Printed by `#print axioms`; one section per set of axioms.

## propext, Classical.choice, Quot.sound

`C01_defined`, `C01_lookup`, `C01_enumeration`, `C01_readd_stale`, `C02_grown`, `C02_rebuilt`, `C02_stale_after_remove`, `C02_counter_not_reset`, `C03_nextId_fresh`, `C04_addMesh_copies`, `C04_addMesh_consistent`, `C05_faces_inward`, `C06_invert_reverses`, `C07_generateFaces_faces`, `C07_generateFaces_pairs`, `C07_three_faces_asymmetric`, `C08_mergeNodes_partial`, `C08_any_order_partial`, `C08_dangling_reference`, `C09_removeInvalidElements`, `C10_mergeElements_partial`, `C10_no_representative`, `C11_removeDanglingNodes`, `C12_renumber_partial`, `C12_stale_cross_references`, `C13_find_exact`, `C13_coincident_undefined`, `C13_reuse`, `C13_rebuild_without_reset`, `C14_find`, `C14_small`, `C14_points`, `C14_sound`, `C14_remove_by_id`, `C14_tolerance`, `C15_history`, `C15_find`, `C15_inverted`, `C15_tolerance`, `C15_remove_box`, `C16_find_partial`, `C16_other_octant`, `C16_subdivided`, `C16_child_cells`, `C17_least_box`, `C17_intersects_iff`, `C17_intersects_symm`, `C17_grow`, `C18_residuals`, `C18_constants`, `C18_row_scaling_breaks_symmetry`, `C19_setElimination`, `C19_solve`, `C19_second_call_drops_equation`, `C20_setPenaltyFactor`, `C20_deviation`, `C21_laplacian_rows`, `C21_quadratic`, `C21_constants`, `C21_dirichlet_constants`, `C21_symmetric`, `C21_energy`, `C21_unique`, `C21_one_node`, `C22_flux`, `C22_symmetric`, `C22_conservation`, `C22_constant`, `C22_regular`, `C22_triangles`, `C22_planar`, `C23_shared_face`, `C23_boundary_neighbor_is_zero`, `C24_set`, `C24_after_generateFaces`, `C25_triangle`, `C25_tetrahedron`, `C25_tetrahedron_negative_volume`, `C25_beam`, `C25_quadrilateral`, `C26_beam`, `C26_triangle`, `C26_tetrahedron`, `C26_quadrilateral`, `C26_quadrilateral_mirrored`, `C27_triangle`, `C27_tetrahedron_partial`, `C27_tetrahedron_not_symmetric`, `C28_laplacian`, `C28_laplacian_symmetric`, `C28_laplacian_order`, `C28_tetrahedra`, `C28_ddt_partial`, `C28_ddt_tetrahedra`, `C28_ddt_total_mass`, `C28_ddt_element_ids`, `C28_laplacian_dofs`, `C28_ddt_element_id_seven`, `C28_ddt_node_ids`, `C28_ddt_prisms`, `C28_laplacian_no_dofs`, `C29_line`, `C29_no_elements`, `C30_nodes`, `C30_elements`, `C30_areas`, `C30_conforming`, `C30_corners`, `C31_nodes`, `C31_hexahedra`, `C31_tetrahedra`, `C31_volumes`, `C31_conforming`, `C31_corners`, `C32_box`, `C32_negative_volumes`, `C32_zero_size`, `C33_generate_partial`, `C33_plane`, `C33_prism_volume`, `C34_one_node`, `C34_two_nodes_partial`, `C34_two_nodes_unsorted`, `C35_open_iff_boundary`, `C36_clip`, `C36_clip_empty`, `C36_tolerance_deviation`, `C37_projectedSum`, `C37_sums`, `C37_area`, `C37_area_sign_depends_on_start`, `C37_invert_cached`, `C37_setPolyline_stale`, `C38_contains`, `C38_nonpositive_volume`, `C38_volume`, `C39_hexahedron`, `C39_hexahedron_boundary`, `C39_prism`, `C40_triangulate`, `C40_convex`, `C41_distance`, `C41_plane`, `C42_distance_partial`, `C42_outside`, `C42_vertex_fallback`, `C43_sphere`, `C43_sphere_contains`, `C43_circle_partial`, `C43_circle_undefined`, `C44_hull`, `C44_other_planes`, `C44_repeated_point`, `C45_split`, `C45_split_files`, `C45_split_tolerance`, `C45_tolerance_overlap`, `C46_build`, `C46_build_more`, `C46_regions`, `C46_clip`, `C46_add`, `C46_subtract`, `C46_intersect`, `C46_convex_solid`, `C46_build_diverges`, `C46_convex_faces`, `C47_removeDuplicates`, `C47_removeCollinear`, `C47_insert_remove`, `C48_equilibrium`, `C48_collision`, `C48_step`, `C48_streaming`, `C48_lid`, `C48_rest`, `C48_history`, `C49_support`, `C49_continuous`, `C49_mass_partial`, `C49_mass_wrong`, `C49_gaussian`, `C50_beam_partial`, `C50_quadrilateral_partial`, `C50_hexahedron`, `C50_hexahedron_degree_partial`, `C50_triangle_partial`, `C50_barycentric`, `C50_wrong_sums`, `C50_hexahedron_27`, `C50_bem`, `C51_outside`, `C51_clip`, `C51_inward`, `C52_fixedValue`, `C52_source`, `C52_last_set`, `C52_elementBC`, `C52_conditions`, `C52_reading_is_harmless`, `C52_elementBC_creates`, `C52_dof_out_of_range`, `C53_extractBoundary`, `C55_ddt`, `C55_divergence_interior`, `C55_divergence_ends_thermal`, `C55_divergence_ends_generic`, `C56_intersects`, `C56_needs_unit_normal`, `C56_invert`, `C56_setStart_stale`, `C57_distanceLine`, `C57_second_point_unclamped`, `C58_contains`, `C58_contains_sound`, `C58_zero_tolerance`, `C58_edge_never`, `C59_cube`, `C60_volume`, `C60_tetrahedron`, `C60_hexahedron`, `C60_prism`, `C60_set_stale`, `C61_triangle_convection`, `C61_triangle_gradient`, `C61_tetrahedron_gradient`, `C61_tetrahedron_convection_not_constant`, `C61_tetrahedron_convection_partial`, `C62_hexahedron_partial`, `C62_hexahedron_order`, `C62_hexahedron_own_order`, `C62_prism_partial`, `C62_prism_weights`, `C63_source`, `C64_symmetry`, `C64_gradient_partial`, `C64_laplacian`, `C64_scale`, `C64_cubic_convex`, `C65_density`, `C65_maximum`, `C65_advect_partial`, `C65_swapped`, `C66_ddt`, `C66_ddt_defined`, `C66_divergence`, `C66_constant`, `C66_interior_partial`, `C66_sign`, `C67_cut_same`, `C67_cut_cube`, `C68_clip`, `C68_area`, `C68_in_plane`, `C68_open`, `C69_sort`, `C70_volume`, `C70_both`, `C70_reflex`, `C71_root`, `C71_bracket`, `C71_iterations`, `C71_no_sign_change`, `C72_bracket`, `C72_root`, `C73_first_step`, `C73_outlet_step`, `C73_check_inlet`, `C73_balance`, `C73_iterate_partial`, `C73_inlet_flux`, `C73_second_step_partial`, `C73_walls`, `C73_outlet`, `C73_reachable`, `C74_constant`, `C74_level`, `C74_prescribed_pressure`, `C75_rest`, `C75_H_differs`, `C76_cancel`, `C76_total_volume`, `C77_balance`, `C77_reaction`, `C77_conservation`, `C77_uniform_partial`, `C77_through_flow`, `C78_bounded`, `C78_properties`, `C78_step`, `C78_correction_inert`, `C79_filled`, `C79_cut_off`, `C79_balance`, `C79_conservation`, `C79_iterate_partial`, `C79_uniform_partial`, `C80_asymmetric`, `C80_balance`, `C80_reaction`, `C80_conservation_partial`, `C80_step`, `C81_overheats`, `C81_bounds_partial`, `C81_vessel_partial`, `C82_triangle`, `C82_triangle_tiny`, `C82_triangle_order`, `C82_triangle_similar`, `C82_quadrilateral`, `C82_tetrahedron`, `C82_prism`, `C82_prism_flat`, `C82_element`, `C82_mesh`, `C82_mesh_empty`, `C82_mesh_tiny`, `C83_round_trip_partial`, `C83_all_elements`, `C83_again`, `C83_point_lost`, `C83_values_swapped`, `C83_values_exception`, `C84_segments`, `C84_start_missed`, `C84_parallel_wrong`, `C85_sides`, `C85_region`, `C85_covered`, `C85_tiling_partial`, `C86_triangles`, `C87_nodes`, `C87_boundary_kept`, `C88_terminates`, `C88_rounds`, `C89_closed`, `C89_interior_not_cleared`, `C89_other_elements`, `C90_faces`, `C90_flip`, `C90_region`, `C90_boundary`, `C90_quality`, `C91_relax`, `C91_region`, `C91_quality`, `C91_hull`, `C92_faces`, `C92_remesh`, `C92_region`, `C92_boundary`, `C92_nodes`, `C92_short`, `C92_long`, `C93_parts`, `C93_lengths`, `C94_collapse_partial`, `C94_long_sides`, `C94_turns_over`, `C94_area`, `C95_applyFixedBoundary`, `C96_set`, `C96_add`, `C96_add_itself`, `C96_bounds`, `C97_removeInvalid`, `C97_noDuplicates_partial`, `C97_duplicates_throw`, `C97_nested_removed`, `C98_binary`, `C98_binary_mesh`, `C98_binary_small`, `C99_ascii`, `C99_ascii_small`, `C100_connectivity`, `C100_conforming`, `C101_mesh`, `C101_shared`, `C101_big_fan`, `C102_steady1`, `C102_steady2`, `C102_steady3`, `C102_fin`, `C102_transient1`, `C102_transient2`, `C102_start2`, `C102_centre`, `C102_transient3_partial`, `C102_start3_wrong`, `C103_burgers`, `C104_faces`, `C104_flip`, `C104_region`, `C104_boundary`, `C104_quality`, `C104_measure`, `C105_relax`, `C105_region`, `C105_boundary`, `C105_quality`, `C106_linear_partial`, `C106_not_translated`, `C106_target_outside`, `C107_faces`, `C107_flip_partial`, `C107_region_partial`, `C107_boundary_partial`, `C107_quality_partial`, `C107_hole`, `C107_overlap`, `C108_orient`, `C109_first_facet_lost`, `C110_split`, `C110_terminates`, `C110_ids_needed`, `C110_long_edges_remain`, `C111_relax`, `C111_round`, `C111_ids_needed`, `C112_collapse`, `C112_round`, `C113_overlaps`, `C113_stale`, `C113_flip`, `C113_keeps`, `C114_check`, `C114_features`, `C115_edgeProduct`, `C115_laplacian`, `C115_row`, `C115_weak_partial`, `C115_balance`, `C115_no_conditions`, `C115_fin`, `C115_fin_hot`, `C115_plate_cold`, `C116_gradient`, `C116_plane`, `C116_plane_rigid`, `C116_plane_energy`, `C116_solid_partial`, `C116_solid_asymmetric`, `C116_solid_rigid`, `C116_thickness`, `C116_dofs`, `C117_mean`, `C117_ddt_partial`, `C117_ddt_element_ids`, `C117_laplacian`, `C117_gradient`, `C117_gradient_orientation`, `C117_convection`, `C117_stream_negative`, `C117_gradient_solid`, `C117_no_branch`, `C117_thickness`, `C117_gradient_component`, `C117_mean_solid`, `C117_ddt_solid_partial`, `C117_laplacian_solid`, `C117_convection_solid_partial`, `C117_solid_constants`, `C118_new`, `C118_iterate_partial`, `C118_gravity`, `C118_gravity_area`, `C118_density`, `C118_energy`, `C118_rest`, `C118_correct_solvable`, `C118_solvable`, `C118_solvable_rest`, `C119_divergence`, `C119_flux`, `C119_not_conservative`, `C119_ddt`, `C120_faces_partial`, `C120_solid_partial`, `C120_covered_partial`, `C120_tiling_partial`, `C120_surface_kept_partial`, `C120_half_line`, `C120_triple_lost`, `C121_tetrahedra`, `C121_nodes`, `C122_terminates`, `C122_rounds`, `C122_closed`, `C122_inner_not_cleared`, `C123_sides_partial`, `C123_region_partial`, `C123_covered_partial`, `C123_boundary_partial`, `C123_node_moved`, `C123_overlap`, `C124_elements_partial`, `C124_clockwise`, `C125_terminates`, `C125_rounds`, `C125_closed`, `C125_limit_exceeded`, `C125_long_rectangle`, `C126_faces`, `C126_flip`, `C126_region`, `C126_boundary`, `C126_quality`, `C127_relax_partial`, `C127_grid`, `C127_hole`, `C128_cylinder`, `C128_sphere`, `C128_one_stack`, `C129_vtk_partial`, `C129_quadrilateral`, `C129_dofs`, `C129_ids`, `C129_tetrahedron`, `C130_gnuplot_partial`, `C130_exactly`, `C130_wrong_rows`, `C130_elements_partial`, `C131_scaling`, `C131_self_scaling`, `C131_positive`, `C131_self`, `C132_equations`, `C132_constant`, `C132_ids`, `C132_other_types`, `C133_near`, `C133_of_mesh`, `C133_unbuilt`, `C133_rebuild`, `C134_false_alarm`, `C134_flipped`, `C134_flipped_missed`, `C134_sound_partial`, `C134_found`, `C134_neighbours`, `C134_segment`, `C134_segment_sound`, `C135_exchange`, `C135_volume`, `C135_facet_normals`, `C135_normals`, `C136_positions`, `C136_no_tolerance`, `C136_short_moves`, `C136_closed_partial`, `C136_round_trip`, `C137_mesh_box`, `C137_element_box`, `C138_complete`, `C138_flow`, `C138_missing`, `C138_source`, `C139_history`, `C139_fraction`, `C139_quiet`, `C139_stale`, `C139_area_added`, `C139_stale_cube`, `C139_area_added_cube`, `C139_missing_face`, `C139_clipped_face`, `C140_ball_measure`, `C140_polygon`, `C140_polygon_moves`, `C140_polyhedron_moves`, `C140_tetrahedron`, `C140_polygon_mass`, `C140_polyhedron_mass`, `C140_replaced`, `C140_polyhedron_box`, `C140_sphere_box`, `C140_circle_box`, `C140_circle_normal`, `C141_three`, `C141_missed`, `C141_mixed`, `C141_mixed_beam`, `C141_first`, `C141_said`, `C141_sparse_partial`, `C141_neighbours`, `C142_steady_partial`, `C142_not_the_line`, `C142_error`, `C142_one_end`, `C143_error`, `C143_forgets`, `C143_ratio`, `C143_limit`, `C143_step`, `C143_bounds`, `C143_insulated`, `C144_patch_tetrahedra`, `C144_patch_triangles`, `C144_patch_beams`, `C144_least_energy`, `C145_overshoot`, `C145_energy`, `C145_forgets`, `C145_limit`, `C145_step`, `C145_insulated`, `C146_steady`, `C146_bounds`, `C146_through`, `C146_linear`, `C147_wrong_sign`, `C147_numbering`, `C147_forgets`, `C147_limit_partial`, `C147_not_steady`, `C147_step_partial`, `C147_boundary_cell`, `C147_bounds`, `C147_insulated`, `C147_boundary_value`, `C148_step_partial`, `C148_ends`, `C148_balance`, `C148_moment`, `C148_stable`, `C148_undershoot`, `C149_step_partial`, `C149_steps`, `C149_bounds`, `C149_worthless_share`, `C149_bond`, `C149_quote`, `C149_calculate`, `C149_outside`, `C149_maturity`, `C149_negative`, `C150_step_partial`, `C150_bounds`, `C150_steps`, `C150_uniform`, `C150_backward`, `C151_mesher`, `C151_step_partial`, `C151_steps`, `C151_linear`, `C151_inlet`, `C151_balance`, `C151_energy`, `C151_uneven`, `C152_step_partial`, `C152_steps`, `C152_conserved`, `C152_energy`, `C152_uniform`, `C152_piles`, `C153_patch`, `C153_result`, `C153_unbalanced`, `C153_least_energy`, `C153_clapeyron`, `C153_reciprocity`, `C153_superposition`, `C153_rigid`, `C154_result_partial`, `C154_poisson_partial`, `C154_refinement`, `C154_energy`, `C155_converges`, `C155_heat`, `C155_constant`, `C156_rest`, `C156_bounds`, `C156_limit`, `C156_mass`, `C156_heat_created`, `C157_join`, `C157_no_crack`, `C157_lost`, `C158_closed`, `C158_watertight`, `C158_volume`, `C159_hexahedron`, `C159_box`, `C159_watertight`, `C159_volume`, `C160_step`, `C160_history`, `C160_walls_ignored`, `C160_cavity`, `C160_leaks`, `C160_mirror`, `C161_plate_bounds`, `C161_plate`, `C161_cooling`, `C161_plate_linear`, `C161_rod`, `C161_settles`, `C161_plate_bounds_rectangles`, `C162_clamped`, `C162_stretched`, `C163_linear`, `C163_bounds`, `C163_settles`, `C164_linear`, `C164_bounds`, `C164_time`, `C164_time_wrong`

## propext, Quot.sound

`C05_solid_faces`, `C05_surface_faces`, `C14_minus_one`, `C16_sound`, `C17_order_independent`, `C17_contains_box_iff`, `C18_kind`, `C19_other_methods`, `C20_other_methods`, `C23_sides`, `C33_hexahedra_twisted`, `C35_checkOpen`, `C39_quadrilateral`, `C46_invert_involution`, `C46_empty_first_polygon`, `C46_allPolygons_twice`, `C46_add_empty`, `C48_bounce`, `C54_setSources`, `C65_fixed`, `C65_constant`, `C65_cyclic`, `C65_cyclic_rest`, `C72_bounds`, `C75_column`, `C79_reaction`, `C83_values_partial`, `C137_scale`, `C138_not_symmetric`, `C138_mismatch`, `C150_cyclic`

## propext

`C06_invert_involution`, `C06_prism_hexahedron_unchanged`, `C47_removeDuplicates_fixed`, `C47_invert`, `C47_removeCollinear_single`, `C47_vertex`, `C47_vertex_empty`
