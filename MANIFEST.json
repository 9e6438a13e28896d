{
 "claims": [
  {
   "property": "C01",
   "status": "proved",
   "theorems": [
    "Jagua.C01_operations_never_panic",
    "Jagua.C01_queries_never_panic",
    "Jagua.C01_same_as_fresh_engine",
    "Jagua.C01_registered_hazards",
    "Jagua.C01_collecting_depends_on_history"
   ],
   "note": "Preconditions: distinct entities, only registered entities are deregistered. C01_collecting_depends_on_history shows why collecting queries are excluded."
  },
  {
   "property": "C02",
   "status": "proved",
   "theorems": [
    "Jagua.C02_never_panics",
    "Jagua.C02_ordered_and_counted",
    "Jagua.C02_strongest",
    "Jagua.C02_get"
   ],
   "note": "for every sequence of operations on the list of hazards of a node, whatever position the binary search returns among equals"
  },
  {
   "property": "C03",
   "status": "proved",
   "theorems": [
    "Jagua.C03_edge_not_missed",
    "Jagua.C03_circle_not_missed",
    "Jagua.C03_rect_not_missed"
   ],
   "note": "Two parallel segments never collide for the elementary test of the library, so for edge queries only hazard edges that are not parallel to the query are covered; circle and rectangle queries have no such exception."
  },
  {
   "property": "C04",
   "status": "proved",
   "theorems": [
    "Jagua.C04_no_phantom"
   ],
   "note": "over every ordered field with exact comparisons; C68 has tolerant comparisons and C70 rounded arithmetic"
  },
  {
   "property": "C05",
   "status": "proved",
   "theorems": [
    "Jagua.C05_accepted_is_feasible",
    "Jagua.C05_inside_bin_outside_items",
    "Jagua.C05_query_decides_feasibility"
   ],
   "note": "Exact arithmetic. Shapes: closed polygons with correct bounding box, no side folding back onto its neighbour, pole of inaccessibility inside."
  },
  {
   "property": "C06",
   "status": "proved",
   "theorems": [
    "Jagua.C06_rejection_justified",
    "Jagua.C06_nothing_relevant"
   ],
   "note": "Weaker shape assumptions than C05: outlines may touch, cross or fold."
  },
  {
   "property": "C07",
   "status": "proved",
   "theorems": [
    "Jagua.C07_reported_is_relevant",
    "Jagua.C07_collected_is_relevant",
    "Jagua.C07_irrelevant_monotone"
   ],
   "note": "for the engine in every reachable state"
  },
  {
   "property": "C08",
   "status": "proved",
   "theorems": [
    "Jagua.C08_buffer_extended"
   ],
   "note": "for the engine in every reachable state and every buffer"
  },
  {
   "property": "C09",
   "status": "partial",
   "theorems": [
    "Jagua.C09_collecting_misses_hazard",
    "Jagua.C09_collects_something_partial",
    "Jagua.C09_complete_without_overlap_partial"
   ],
   "note": "Violated: with overlapping hazards a crossed hazard is not collected (witness C09_collecting_misses_hazard). Proved: something is collected iff poly_collides, and completeness for non-overlapping hazards."
  },
  {
   "property": "C10",
   "status": "proved",
   "theorems": [
    "Jagua.C10_edge",
    "Jagua.C10_circle",
    "Jagua.C10_point",
    "Jagua.C10_outside_box",
    "Jagua.C10_outside_box_ignores_irrelevant"
   ],
   "note": "Inside the box exact; outside the box True is unconditional, also when the bin exterior is irrelevant (C10_outside_box_ignores_irrelevant)."
  },
  {
   "property": "C11",
   "status": "proved",
   "theorems": [
    "Jagua.C11_snapshot_round_trip",
    "Jagua.C11_restore_keeps_reused_entity"
   ],
   "note": "Entities must determine hazards; C11_restore_keeps_reused_entity shows that this is needed."
  },
  {
   "property": "C12",
   "status": "proved",
   "theorems": [
    "Jagua.C12_lazy_eq_instant",
    "Jagua.C12_commit_invisible",
    "Jagua.C12_lazy_reuse_keeps_old_shape"
   ],
   "note": "Entities must determine hazards; C12_lazy_reuse_keeps_old_shape shows that this is needed."
  },
  {
   "property": "C13",
   "status": "proved",
   "theorems": [
    "Jagua.C13_no_dangling"
   ],
   "note": "invariant over all sequences of engine operations; addresses of shapes are part of the model"
  },
  {
   "property": "C14",
   "status": "partial",
   "theorems": [
    "Jagua.C14_never_too_small_partial",
    "Jagua.C14_mixed_removal_fails",
    "Jagua.C14_smallest_partial",
    "Jagua.C14_gap_fails",
    "Jagua.C14_rectangular_bins_partial"
   ],
   "note": "Proved for all histories: the value is always the distance to a hazard registered now (never too small). Proved for histories without instant removal while the grid is dirty, on grids whose cells cover the box of the poles: the value is the smallest distance, up to twice the error of the square root (C14_smallest_partial). For rectangular bins without holes and exact arithmetic, the conditions on the grid hold and the value is exactly the smallest distance (C14_rectangular_bins_partial). Missing because false: mixed lazy and instant removals (C14_mixed_removal_fails) and grids with gaps (C14_gap_fails)."
  },
  {
   "property": "C15",
   "status": "proved",
   "theorems": [
    "Jagua.C15_dirty_grid_cannot_be_read",
    "Jagua.C15_from_new"
   ],
   "note": "Reading fails exactly while a lazy deregistration is pending, for every operation sequence from a new engine."
  },
  {
   "property": "C16",
   "status": "proved",
   "theorems": [
    "Jagua.C16_start",
    "Jagua.C16_visits_once",
    "Jagua.C16_never_panics",
    "Jagua.C16_terminates",
    "Jagua.C16_complete"
   ],
   "note": "Fill over grids built by Grid::new, arbitrary reports"
  },
  {
   "property": "C17",
   "status": "proved",
   "theorems": [
    "Jagua.C17_index_bijection",
    "Jagua.C17_construction",
    "Jagua.C17_ranges",
    "Jagua.C17_neighbors"
   ],
   "note": "for every list of elements the grid is built from and every interval"
  },
  {
   "property": "C18",
   "status": "proved",
   "theorems": [
    "Jagua.C18_discarded_cell",
    "Jagua.C18_no_collision_free_placement",
    "Jagua.C18_with_item_filter"
   ],
   "note": "For every reachable engine with a readable grid, exact comparisons and a square root that never rounds down; poles of registered hazards lie in their shapes, dynamic hazards are universal (placed items)."
  },
  {
   "property": "C19",
   "status": "proved",
   "theorems": [
    "Jagua.C19_demand",
    "Jagua.C19_placed_quantities",
    "Jagua.C19_operations_do_not_panic"
   ],
   "note": "All sequences of operations that meet BPOp.Pre; direct mutation through the public layouts field is excluded."
  },
  {
   "property": "C20",
   "status": "proved",
   "theorems": [
    "Jagua.C20_stock",
    "Jagua.C20_layouts_use_instance_bins",
    "Jagua.C20_templates_with_stock"
   ],
   "note": "Stock is a natural number in the model; taking a bin with no stock is a panic, which the theorems exclude under BPOp.Pre."
  },
  {
   "property": "C21",
   "status": "proved",
   "theorems": [
    "Jagua.C21_incremental"
   ],
   "note": "Up to the order of hazards inside a snapshot and the addresses of shapes."
  },
  {
   "property": "C22",
   "status": "proved",
   "theorems": [
    "Jagua.C22_restore",
    "Jagua.C22_order_may_change",
    "Jagua.C22_overplaced_solution_panics",
    "Jagua.C22_strip_restore"
   ],
   "note": "Order of layouts is not kept (C22_order_may_change). With overflow checks (debug builds) restoring a solution with more copies than demanded panics (C22_overplaced_solution_panics), so the theorem asks for the demand in that case."
  },
  {
   "property": "C23",
   "status": "partial",
   "theorems": [
    "Jagua.C23_undo_partial",
    "Jagua.C23_last_item_option_is_stale",
    "Jagua.C23_last_item_by_template",
    "Jagua.C23_fails_panic",
    "Jagua.C23_fails_other_layout"
   ],
   "note": "False for the last item of a layout: the layout is removed and the returned index is stale (C23_last_item_option_is_stale, C23_fails_panic, C23_fails_other_layout). Proved for all other items, and the working replacement through the bin type is proved."
  },
  {
   "property": "C24",
   "status": "proved",
   "theorems": [
    "Jagua.C24_demand",
    "Jagua.C24_placed_quantities",
    "Jagua.C24_effects",
    "Jagua.C24_operations_do_not_panic"
   ],
   "note": "Strip packing state machine with place, remove, all strip modifications, fit, solutions and restore; demand conserved in every reachable state, and admissible operations do not panic."
  },
  {
   "property": "C25",
   "status": "partial",
   "theorems": [
    "Jagua.C25_modify_strip",
    "Jagua.C25_resized_strip",
    "Jagua.C25_fit_strip_partial",
    "Jagua.C25_fit_after_checked_placements_partial",
    "Jagua.C25_empty_strip_panics",
    "Jagua.C25_nonpositive_width_rejected"
   ],
   "note": "Proved for strips with at least one item lying inside the strip (which holds whenever placements are checked): fit keeps all items and sets the exact width. Missing: the empty strip, where fitting panics (C25_empty_strip_panics). Exact arithmetic; the strip's pole centre is assumed inside the rectangle."
  },
  {
   "property": "C26",
   "status": "proved",
   "theorems": [
    "Jagua.C26_operations",
    "Jagua.C26_hazards_are_the_placed_items",
    "Jagua.C26_placed_items_come_from_the_catalogue",
    "Jagua.C26_engine_like_fresh",
    "Jagua.C26_lookup"
   ],
   "note": "invariant over all sequences of layout operations"
  },
  {
   "property": "C27",
   "status": "partial",
   "theorems": [
    "Jagua.C27_restore_partial",
    "Jagua.C27_from_snapshot",
    "Jagua.C27_snapshot_is_invisible",
    "Jagua.C27_change_bin_is_not_undone"
   ],
   "note": "Restore after change_bin leaves the new bin (C27_change_bin_is_not_undone); proved for every history without change_bin, and in full for from_snapshot."
  },
  {
   "property": "C28",
   "status": "proved",
   "theorems": [
    "Jagua.C28_edge_collides_iff_share_point",
    "Jagua.C28_parallel_never_reported",
    "Jagua.C28_edge_collides_comm",
    "Jagua.C28_location_on_both"
   ],
   "note": "Exact arithmetic over any ordered field."
  },
  {
   "property": "C29",
   "status": "proved",
   "theorems": [
    "Jagua.C29_rect_point",
    "Jagua.C29_rect_rect",
    "Jagua.C29_rect_edge",
    "Jagua.C29_relation",
    "Jagua.C29_almost_relation_exact"
   ],
   "note": "over every ordered field with exact comparisons; C68 has the tolerant test of a point"
  },
  {
   "property": "C30",
   "status": "proved",
   "theorems": [
    "Jagua.C30_circle_point",
    "Jagua.C30_circle_edge",
    "Jagua.C30_circle_rect",
    "Jagua.C30_circle_circle"
   ],
   "note": "over every ordered field, with squared distances"
  },
  {
   "property": "C31",
   "status": "proved",
   "theorems": [
    "Jagua.C31_closest_point"
   ],
   "note": "over every ordered field, with squared distances"
  },
  {
   "property": "C32",
   "status": "partial",
   "theorems": [
    "Jagua.C32_rect_sq_distance",
    "Jagua.C32_border_distance_partial",
    "Jagua.C32_inside_not_squared"
   ],
   "note": "Outside the rectangle exact. Inside, the code returns the distance where the square is promised; shown by a counterexample."
  },
  {
   "property": "C33",
   "status": "proved",
   "theorems": [
    "Jagua.C33_quadrants_cover",
    "Jagua.C33_quadrants_disjoint",
    "Jagua.C33_neighbour_table",
    "Jagua.C33_inflate",
    "Jagua.C33_bounding_rectangle"
   ],
   "note": "over every ordered field"
  },
  {
   "property": "C34",
   "status": "proved",
   "theorems": [
    "Jagua.C34_test_is_even_odd",
    "Jagua.C34_constant_off_boundary",
    "Jagua.C34_outside_box",
    "Jagua.C34_direction_independent",
    "Jagua.C34_rectangle",
    "Jagua.C34_equivariant"
   ],
   "note": "The test is the even-odd interior; also independent of the ray direction and equivariant under rigid motions."
  },
  {
   "property": "C35",
   "status": "proved",
   "theorems": [
    "Jagua.C35_construct_iff",
    "Jagua.C35_counterclockwise",
    "Jagua.C35_bounding_box",
    "Jagua.C35_area_invariant"
   ],
   "note": "Includes region preservation when the vertex order is reversed, and the bounding box."
  },
  {
   "property": "C36",
   "status": "proved",
   "theorems": [
    "Jagua.C36_centered",
    "Jagua.C36_centroid_equivariant",
    "Jagua.C36_triangle"
   ],
   "note": "Centroid formula also checked against equivariance and triangles."
  },
  {
   "property": "C37",
   "status": "proved",
   "theorems": [
    "Jagua.C37_composition_in_order",
    "Jagua.C37_rigid_motion",
    "Jagua.C37_inverse_undoes",
    "Jagua.C37_group",
    "Jagua.C37_decompose_compose",
    "Jagua.C37_compose_decompose",
    "Jagua.C37_buffer_same_as_fresh",
    "Jagua.C37_buffer_reuse",
    "Jagua.C37_region_moves_along",
    "Jagua.C37_transform_twice"
   ],
   "note": "Over the reals with Mathlib's sin, cos, arg. Rotation angles agree up to whole turns after decompose."
  },
  {
   "property": "C38",
   "status": "proved",
   "theorems": [
    "Jagua.C38_round_trip",
    "Jagua.C38_round_trip_back",
    "Jagua.C38_same_placement",
    "Jagua.C38_same_region"
   ],
   "note": "Over the reals; angles up to whole turns."
  },
  {
   "property": "C39",
   "status": "partial",
   "theorems": [
    "Jagua.C39_hull_points",
    "Jagua.C39_hull_indices",
    "Jagua.C39_hull_contains_partial",
    "Jagua.C39_hull_contains_iff",
    "Jagua.C39_hull_contains_two",
    "Jagua.C39_hull_convex_partial",
    "Jagua.C39_hull_can_miss_points",
    "Jagua.C39_single_point",
    "Jagua.C39_diameter_attained",
    "Jagua.C39_diameter_partial",
    "Jagua.C39_diameter_can_be_too_small"
   ],
   "note": "Hull points and indices for all lists. Containment, convexity and diameter hold exactly when the lowest leftmost and the highest rightmost point come first or last among their ties (C39_hull_contains_iff); false otherwise: C39_hull_can_miss_points."
  },
  {
   "property": "C40",
   "status": "proved",
   "theorems": [
    "Jagua.C40_inflate",
    "Jagua.C40_deflate",
    "Jagua.C40_tolerance",
    "Jagua.C40_vertices",
    "Jagua.C40_moves",
    "Jagua.C40_least_change",
    "Jagua.C40_complete"
   ],
   "note": "Whole simplification loop, generic ordered field. Area direction, tolerance, number of vertices, kind of the steps, greedy choice, and that it stops only when no step is left. Deflation for tolerances up to 2."
  },
  {
   "property": "C41",
   "status": "partial",
   "theorems": [
    "Jagua.C41_bounding_circle_partial",
    "Jagua.C41_bound_can_be_too_small",
    "Jagua.C41_bound_can_panic",
    "Jagua.C41_surrogate_bounding_circle",
    "Jagua.C41_generate_surrogate"
   ],
   "note": "Proved when the first circle is the largest (as for poles, C41_surrogate_bounding_circle); false otherwise: C41_bound_can_be_too_small, C41_bound_can_panic."
  },
  {
   "property": "C42",
   "status": "proved",
   "theorems": [
    "Jagua.C42_filter_exact",
    "Jagua.C42_irrelevant_list",
    "Jagua.C42_filtered_query"
   ],
   "note": "for every filter, including combined ones, and every reachable engine"
  },
  {
   "property": "C43",
   "status": "proved",
   "theorems": [
    "Jagua.C43_surrogate_sound",
    "Jagua.C43_fail_fast_same_answer",
    "Jagua.C43_inside_after_transform"
   ],
   "note": "Assumes poles and piers lie in the shape (see C47 for the generation of poles)."
  },
  {
   "property": "C44",
   "status": "proved",
   "theorems": [
    "Jagua.C44_bin_packing",
    "Jagua.C44_strip_packing",
    "Jagua.C44_too_high_item",
    "Jagua.C44_bin_packing_rounds",
    "Jagua.C44_giving_up"
   ],
   "note": "For every random stream and configuration, with rigid rotations and exact comparisons: layouts of a solution are feasible, demand and stock are respected; strip packing places every copy in a strip of the given height. Also shown: rounds for bin packing are bounded, what giving up on an item means, and that a strip search for an item as high as the strip never ends."
  },
  {
   "property": "C45",
   "status": "partial",
   "theorems": [
    "Jagua.C45_tightening_is_lossless",
    "Jagua.C45_samples_are_drawable",
    "Jagua.C45_samples_lie_in_the_bin",
    "Jagua.C45_search_completes_partial",
    "Jagua.C45_can_run_out"
   ],
   "note": "Losslessness is proved for every sequence of improvements. That sampling never runs out of cells is false: C45_can_run_out is a witness. C45_search_completes_partial shows completion when the generator never hits the lower end of its range; missing: the general case, which is false."
  },
  {
   "property": "C46",
   "status": "proved",
   "theorems": [
    "Jagua.C46_uniform_samples",
    "Jagua.C46_local_search_samples",
    "Jagua.C46_found_placements",
    "Jagua.C46_same_turn",
    "Jagua.C46_empty_list_panics"
   ],
   "note": "Uniform samples, local search samples and found placements; the same turn means equal up to whole turns with the real functions."
  },
  {
   "property": "C47",
   "status": "proved",
   "theorems": [
    "Jagua.C47_pole_order",
    "Jagua.C47_pole_number",
    "Jagua.C47_pole_is_inner_circle",
    "Jagua.C47_search_terminates",
    "Jagua.C47_pole_is_largest",
    "Jagua.C47_no_pole_iff",
    "Jagua.C47_thin_triangle_panics",
    "Jagua.C47_rectangles_have_poles",
    "Jagua.C47_surrogate_poles"
   ],
   "note": "Poles are positive inner discs that do not overlap, found by a search that always ends and returns the largest among the grid centres; exactly when no centre is free it panics (C47_thin_triangle_panics shows this for thin triangles). C47_pole_number and C47_pole_order: how many poles a surrogate has and in which order. Square root exact, or rounded down for the soundness parts."
  },
  {
   "property": "C48",
   "status": "proved",
   "theorems": [
    "Jagua.C48_bin_hazards",
    "Jagua.C48_area",
    "Jagua.C48_outside_is_occupied"
   ],
   "note": "for every outer shape, holes and quality zones the constructor is called with"
  },
  {
   "property": "C49",
   "status": "proved",
   "theorems": [
    "Jagua.C49_place_in_layout",
    "Jagua.C49_place_in_new_layout",
    "Jagua.C49_remove"
   ],
   "note": "in every reachable state of the bin packing problem, for placements that are not already there"
  },
  {
   "property": "C50",
   "status": "proved",
   "theorems": [
    "Jagua.C50_quantities",
    "Jagua.C50_n_items_placed",
    "Jagua.C50_missing",
    "Jagua.C50_is_complete",
    "Jagua.C50_completeness",
    "Jagua.C50_usage",
    "Jagua.C50_problem_matches_solution",
    "Jagua.C50_strip"
   ],
   "note": "Usage needs bins with non-zero area."
  },
  {
   "property": "C51",
   "status": "proved",
   "theorems": [
    "Jagua.C51_free_points_in_cells",
    "Jagua.C51_no_placement_lost"
   ],
   "note": "Strictly increasing square root assumed. Without any universal static hazard the generator drops all cells; bins always have one."
  },
  {
   "property": "C52",
   "status": "proved",
   "theorems": [
    "Jagua.C52_inflate",
    "Jagua.C52_deflate",
    "Jagua.C52_step",
    "Jagua.C52_placement"
   ],
   "note": "Whole loop, generic ordered field, exact comparisons of intersections. Simple polygons are defined independently in Spec/Simple.lean; the result is simple, the direction is shown on the regions, and the loop never panics on simple polygons."
  },
  {
   "property": "C53",
   "status": "proved",
   "theorems": [
    "Jagua.C53_centered_check",
    "Jagua.C53_items",
    "Jagua.C53_bins",
    "Jagua.C53_strip",
    "Jagua.C53_total",
    "Jagua.C53_refused",
    "Jagua.C53_two_unlimited_bins",
    "Jagua.C53_cost_ignored"
   ],
   "note": "Reading succeeds for all sound instances and is faithful; refused inputs; two disagreements (overflow for two unlimited bins in logging debug builds, cost ignored) proved."
  },
  {
   "property": "C54",
   "status": "proved",
   "theorems": [
    "Jagua.C54_bin_layout",
    "Jagua.C54_bin_packing",
    "Jagua.C54_strip_packing"
   ],
   "note": "End to end: parser, optimizer and writer, against the shapes of the input; also for any feasible layout in a bin."
  },
  {
   "property": "C55",
   "status": "proved",
   "theorems": [
    "Jagua.C55_samples_determined",
    "Jagua.C55_search_keeps_the_best",
    "Jagua.C55_best_free_sample",
    "Jagua.C55_first_layout"
   ],
   "note": "With C55_best_free_sample in terms of the plane (exact arithmetic, surrogate inside the shape); C55_search_keeps_the_best in terms of the engine's answers for any arithmetic."
  },
  {
   "property": "C56",
   "status": "proved",
   "theorems": [
    "Jagua.C56_bin_packing",
    "Jagua.C56_strip_packing",
    "Jagua.C56_optimizer_bins",
    "Jagua.C56_optimizer_strip",
    "Jagua.C56_empty_layout_refused"
   ],
   "note": "For solutions of reachable problems, and for the whole way from the instance file to the solution read again. Layouts must not be empty (C56_empty_layout_refused shows why) and no two copies of an item may be at the same place; both hold for the optimizer."
  },
  {
   "property": "C57",
   "status": "partial",
   "theorems": [
    "Jagua.C57_engine",
    "Jagua.C57_queries",
    "Jagua.C57_layout",
    "Jagua.C57_change_bin_and_restore_panics",
    "Jagua.C57_same_placement_twice_panics",
    "Jagua.C57_bin_packing",
    "Jagua.C57_strip_packing",
    "Jagua.C57_grid_partial",
    "Jagua.C57_grid_fails"
   ],
   "note": "Proved for the engine, its queries, bin packing and strip packing problems, and layouts unless a snapshot of another bin is restored; for the proximity grid if its cells cover the box of the items without gaps and square roots are exact. False in the code otherwise: restoring a snapshot after change_bin panics (C57_change_bin_and_restore_panics), and so can registering an item in a bin with a hole (C57_grid_fails). The checks at the construction of circles and surrogates are not modelled."
  },
  {
   "property": "C58",
   "status": "partial",
   "theorems": [
    "Jagua.C58_layout_partial",
    "Jagua.C58_bin_packing_partial",
    "Jagua.C58_strip_packing_partial",
    "Jagua.C58_quality_panics",
    "Jagua.C58_quadtree",
    "Jagua.C58_overlays",
    "Jagua.C58_blend",
    "Jagua.C58_colors",
    "Jagua.C58_surrogates"
   ],
   "note": "Full claim is false: an item with base quality N_QUALITIES or more is accepted by the parser and makes drawing panic after the solution was written (C58_quality_panics). Proved for items with smaller base qualities, with exact arithmetic and abstract trigonometry; the text of the document is not modelled, only what it draws."
  },
  {
   "property": "C59",
   "status": "proved",
   "theorems": [
    "Jagua.C59_layout_check",
    "Jagua.C59_item_check",
    "Jagua.C59_engine_checks",
    "Jagua.C59_copies_pass"
   ],
   "note": "Exact arithmetic; shapes are proper polygons. The same item may not be placed twice with the same transformation (the debug build refuses this): C59_copies_pass shows that in a release build the check of the layout does not notice such copies."
  },
  {
   "property": "C60",
   "status": "proved",
   "theorems": [
    "Jagua.C60_boxes",
    "Jagua.C60_refined_along_outlines",
    "Jagua.C60_numbers"
   ],
   "note": "Exact arithmetic. Whether a node is divided whose box is met by an outline only at its border is left open by the statement (the code decides it differently in different cases)."
  },
  {
   "property": "C61",
   "status": "partial",
   "theorems": [
    "Jagua.C61_inside_partial",
    "Jagua.C61_inside_convex",
    "Jagua.C61_surrogate_inside_partial",
    "Jagua.C61_generation_succeeds",
    "Jagua.C61_far_shapes_panic",
    "Jagua.C61_greedy_choice",
    "Jagua.C61_pier_outside",
    "Jagua.C61_pier_outside_chosen",
    "Jagua.C61_false_alarm"
   ],
   "note": "Piers are as many as requested and lie in the shape if the shape is convex or the outline crosses scan lines in the middle of sides only (C61_inside_partial, C61_inside_convex); with C47 the whole surrogate lies in the shape. Missing: scan lines through vertices, where the claim is false (C61_pier_outside, C61_pier_outside_chosen, C61_false_alarm). Generation succeeds around the origin (C61_generation_succeeds) and panics far from it (C61_far_shapes_panic). Choice is greedy for the loss (C61_greedy_choice)."
  },
  {
   "property": "C62",
   "status": "partial",
   "theorems": [
    "Jagua.C62_point_distances",
    "Jagua.C62_polygon_distance",
    "Jagua.C62_circle_distance",
    "Jagua.C62_circle_edge_distance",
    "Jagua.C62_circle_border",
    "Jagua.C62_polygon_border",
    "Jagua.C62_rect_border_partial",
    "Jagua.C62_rect_border_wrong",
    "Jagua.C62_circle_border_to_circle_partial",
    "Jagua.C62_circle_border_to_circle_wrong",
    "Jagua.C62_circle_border_to_edge_partial",
    "Jagua.C62_circle_border_to_edge_wrong",
    "Jagua.C62_diameters",
    "Jagua.C62_edge_border"
   ],
   "note": "Distances to points, edges, circles and polygons, distances to borders of polygons and circles, and diameters are proved. Missing, because false: points inside a rectangle (C62_rect_border_wrong) and circles or edges that overlap a circle (C62_circle_border_to_circle_wrong, C62_circle_border_to_edge_wrong) for distance_from_border; the _partial theorems cover the other cases."
  },
  {
   "property": "C63",
   "status": "proved",
   "theorems": [
    "Jagua.C63_reading",
    "Jagua.C63_run",
    "Jagua.C63_finished",
    "Jagua.C63_pictures"
   ],
   "note": "The grid that guides the sampling and the one that is drawn are parameters that are assumed to be functions of the layout up to addresses (MEnv.GridOfLayout, MEnv.DrawnGridOfLayout); C77_grid_of_layout and C77_same_outcome do without the first assumption."
  },
  {
   "property": "C64",
   "status": "partial",
   "theorems": [
    "Jagua.C64_bin_packing",
    "Jagua.C64_strip_packing",
    "Jagua.C64_pictures_partial",
    "Jagua.C64_pictures_panic"
   ],
   "note": "The part on solutions is proved in full; pictures cannot be drawn if an item has a base quality of N_QUALITIES (C64_pictures_panic)."
  },
  {
   "property": "C65",
   "status": "proved",
   "theorems": [
    "Jagua.C65_area",
    "Jagua.C65_layout",
    "Jagua.C65_written",
    "Jagua.C65_overlapping_holes"
   ],
   "note": "Over the reals, with Lebesgue measure. Holes are assumed to lie inside the bin and apart from each other; C65_overlapping_holes shows what happens otherwise. With simplification, the theorem on written files is for bins without holes."
  },
  {
   "property": "C66",
   "status": "proved",
   "theorems": [
    "Jagua.C66_used_bin_cost",
    "Jagua.C66_get_layout",
    "Jagua.C66_placed_qtys",
    "Jagua.C66_bin_qtys_are_left",
    "Jagua.C66_occupied_range",
    "Jagua.C66_occupied_range_empty",
    "Jagua.C66_bin_qtys_not_used"
   ],
   "note": "The documentation of Solution::bin_qtys says quantity of bins used; it is the stock left (C66_bin_qtys_are_left, C66_bin_qtys_not_used). Sums of u64 values are taken in the natural numbers."
  },
  {
   "property": "C67",
   "status": "partial",
   "theorems": [
    "Jagua.C67_engine_is_built_partial",
    "Jagua.C67_flat_bins_fail",
    "Jagua.C67_narrow_bins_fail"
   ],
   "note": "Built whenever the bin without holes has at least 1/400 of the area of the square around it, in exact arithmetic. False in general: C67_flat_bins_fail (all bins at least 35 sqrt(N) times as wide as high, N >= 1700 cells)."
  },
  {
   "property": "C68",
   "status": "proved",
   "theorems": [
    "Jagua.C68_almost_in_rectangle",
    "Jagua.C68_point_test",
    "Jagua.C68_objects",
    "Jagua.C68_query_decides_feasibility",
    "Jagua.C68_surrogate_decides_feasibility",
    "Jagua.C68_small_shapes_slip_in",
    "Jagua.C68_covered_item_missed",
    "Jagua.C68_layout_check",
    "Jagua.C68_item_check",
    "Jagua.C68_written_solution",
    "Jagua.C68_quick_checks",
    "Jagua.C68_optimizer"
   ],
   "note": "over every comparison that is reflexive and identifies only numbers at most ε apart on the range of the coordinates; C68_small_shapes_slip_in and C68_covered_item_missed show that the provisos are needed"
  },
  {
   "property": "C69",
   "status": "proved",
   "theorems": [
    "Jagua.C69_general_position",
    "Jagua.C69_single_precision",
    "Jagua.C69_edges",
    "Jagua.C69_point_in_polygon",
    "Jagua.C69_circles",
    "Jagua.C69_box_edge",
    "Jagua.C69_boxes",
    "Jagua.C69_near_misses"
   ],
   "note": "Forward error analysis in the standard model of floating point arithmetic without limits on exponents; C69_single_precision shows that 24 digits with ties to even are an instance. C69_near_misses shows the two kinds of wrong answers in single precision."
  },
  {
   "property": "C70",
   "status": "proved",
   "theorems": [
    "Jagua.C70_overlap_missed",
    "Jagua.C70_query_decides_feasibility"
   ],
   "note": "Built on C69. The example checks all hypotheses for an engine in single precision, with a colliding, a contained and a free query shape. C70_overlap_missed is an engine in single precision that overlooks a large overlap because an edge runs along the diagonal of a cell."
  },
  {
   "property": "C71",
   "status": "proved",
   "theorems": [
    "Jagua.C71_operations_never_fail",
    "Jagua.C71_no_surrogate_fails",
    "Jagua.C71_shapes_can_be_registered"
   ],
   "note": "C71_operations_never_fail for every reachable engine; C71_shapes_can_be_registered: what loading produces meets its conditions; C71_no_surrogate_fails: the condition on surrogates is needed. That the engine is created at all is C67."
  },
  {
   "property": "C72",
   "status": "partial",
   "theorems": [
    "Jagua.C72_hull_of_shapes_partial",
    "Jagua.C72_placed_shapes_are_ready",
    "Jagua.C72_hull_of_shapes_fails"
   ],
   "note": "C72_hull_of_shapes_partial: never panics, consists of vertices, and contains all vertices if no two different vertices are leftmost and no two rightmost, given right hulls of the single shapes (C39). Stored hulls stay right when shapes are moved. Missing because false: C72_hull_of_shapes_fails (three rectangles above one another; the hull loses a corner)."
  },
  {
   "property": "C73",
   "status": "proved",
   "theorems": [
    "Jagua.C73_placed_corners",
    "Jagua.C73_placed_shapes",
    "Jagua.C73_overlap_is_shallow",
    "Jagua.C73_sticks_out_little",
    "Jagua.C73_accepted_placements",
    "Jagua.C73_written_corners",
    "Jagua.C73_written_items_apart",
    "Jagua.C73_items_are_centered"
   ],
   "note": "For the standard model of rounding (no overflow or underflow) and trigonometric functions of stated accuracy; the accuracy itself is a hypothesis, shown satisfiable for single precision. Polygons need not be simple. Together with C70 for what an engine accepts."
  },
  {
   "property": "C74",
   "status": "proved",
   "theorems": [
    "Jagua.C74_placeable_iff_offered",
    "Jagua.C74_place_and_take_back",
    "Jagua.C74_stock",
    "Jagua.C74_placed_quantities",
    "Jagua.C74_restore",
    "Jagua.C74_usage"
   ],
   "note": "Both kinds of problems, all reachable states. Excluded from the round trip: empty layouts that a caller registered in a bin packing problem, because removing the last item closes the layout (see C49)."
  },
  {
   "property": "C75",
   "status": "proved",
   "theorems": [
    "Jagua.C75_placed_was_tested",
    "Jagua.C75_layouts_were_filled",
    "Jagua.C75_allowed_rotation",
    "Jagua.C75_placed_near_tested",
    "Jagua.C75_unturned_exactly",
    "Jagua.C75_nearly_feasible",
    "Jagua.C75_solutions_nearly_feasible",
    "Jagua.C75_placed_elsewhere",
    "Jagua.C75_solution_overlaps"
   ],
   "note": "Bin packing. With errors bounded as stated; that shapes in the tests are in general position is a hypothesis, because C70 fails without it. That the placed shape is the tested one is false in single precision: C75_placed_elsewhere, C75_solution_overlaps."
  },
  {
   "property": "C76",
   "status": "proved",
   "theorems": [
    "Jagua.C76_strip_was_vetted",
    "Jagua.C76_vetted_nearly_feasible",
    "Jagua.C76_strip_nearly_feasible"
   ],
   "note": "That the shapes in the tests are in general position is a hypothesis as in C75; also that no two things in an engine are equal, since the engine removes by equality."
  },
  {
   "property": "C77",
   "status": "proved",
   "theorems": [
    "Jagua.C77_grids_up_to_date",
    "Jagua.C77_grids_up_to_date_strip",
    "Jagua.C77_updates_never_fail",
    "Jagua.C77_updates_never_fail_strip",
    "Jagua.C77_grid_of_layout",
    "Jagua.C77_same_solution",
    "Jagua.C77_same_outcome"
   ],
   "note": "The grids of bins are modelled as made when the optimizer starts; the code makes them when the instance is read. For strips the theorem says nothing about runs from scratch whose first or last strip admits no grid (C67 shows that there are such strips)."
  },
  {
   "property": "C78",
   "status": "proved",
   "theorems": [
    "Jagua.C78_room_is_searched",
    "Jagua.C78_giving_up",
    "Jagua.C78_strip_states",
    "Jagua.C78_strip_with_room"
   ],
   "note": "Exact arithmetic; runs with the grids the code keeps, for bin packing and strip packing. Whether a sample hits is not claimed."
  },
  {
   "property": "C79",
   "status": "proved",
   "theorems": [
    "Jagua.C79_grid_changes_nothing_else",
    "Jagua.C79_when_readable",
    "Jagua.C79_operations_never_fail",
    "Jagua.C79_flush",
    "Jagua.C79_no_place_lost"
   ],
   "note": "Grid forgotten: same behaviour; total; readable iff nothing waits; flush; every fitting place can be drawn (exact arithmetic)."
  },
  {
   "property": "C80",
   "status": "proved",
   "theorems": [
    "Jagua.C80_grid_changes_nothing_else",
    "Jagua.C80_when_readable",
    "Jagua.C80_grid_never_fails",
    "Jagua.C80_flush",
    "Jagua.C80_no_place_lost"
   ],
   "note": "Histories are an inductive relation over all operations of the problem and flushing; the first two theorems hold over any arithmetic."
  },
  {
   "property": "C81",
   "status": "proved",
   "theorems": [
    "Jagua.C81_grid_changes_nothing_else",
    "Jagua.C81_when_readable",
    "Jagua.C81_never_fails",
    "Jagua.C81_flush",
    "Jagua.C81_no_place_lost"
   ],
   "note": "Histories are an inductive relation over all operations of the problem, registering layouts made by the caller, and flushing; the first four theorems hold over any arithmetic."
  },
  {
   "property": "C82",
   "status": "partial",
   "theorems": [
    "Jagua.C82_printed_code_partial",
    "Jagua.C82_printed_code_close",
    "Jagua.C82_rounding_hides_collisions"
   ],
   "note": "False for positions with more than six decimals (witness C82_rounding_hides_collisions); proved for positions that are printed exactly, and closeness for all others."
  }
 ]
}