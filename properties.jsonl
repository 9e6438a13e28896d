{"id": "C01", "title": "Collision answers do not depend on history", "statement": "After any sequence of registering, deregistering (instantly or lazily), reactivating, committing and restoring hazards, no operation or query panics and the collision detection engine answers every yes/no and every three-valued collision query exactly like an engine freshly built from the hazards that are currently registered. (Which of several overlapping hazards a collecting query finds may depend on history.)", "quantifier": "every finite sequence of engine operations with pairwise distinct hazard entities, every query shape, every list of irrelevant hazards, every quadtree depth", "why_tests_cant": "There are infinitely many update histories; a stale node, a forgotten activation or a wrongly dropped subtree shows up only after a particular interleaving.", "anchors": ["jagua-rs/src/collision_detection/quadtree/qt_node.rs: QTNode::register_hazard, deregister_hazard, activate_hazard, deactivate_hazard", "jagua-rs/src/util/assertions.rs: layout_qt_matches_fresh_qt"]}
{"id": "C02", "title": "The strongest hazard of a node is really the strongest", "statement": "At any time the hazard list of a node is ordered by activeness and then by presence, its active counter equals the number of active entries, and asking for the strongest hazard returns an active, relevant hazard of maximal presence, or nothing exactly when no active relevant hazard exists. No index out of range or underflow can occur.", "quantifier": "every sequence of add, remove, activate and deactivate calls and every list of irrelevant entities", "why_tests_cant": "The order is maintained incrementally by binary search on an order with many ties; tests see only a few interleavings.", "anchors": ["jagua-rs/src/collision_detection/quadtree/qt_hazard_vec.rs: QTHazardVec::add, remove, strongest, activate_hazard, deactivate_hazard"]}
{"id": "C03", "title": "Quadtree collision query never misses an intersecting edge", "statement": "If the quadtree reports no collision for a query shape lying in the tree's bounding box, then no edge of any registered, active, relevant hazard collides with the shape.", "quantifier": "every tree built by the public operations, every edge/rectangle/circle query, every irrelevant list", "why_tests_cant": "A miss depends on how the edge falls with respect to all quadrant borders on all levels.", "anchors": ["jagua-rs/src/collision_detection/quadtree/qt_node.rs: QTNode::collides", "jagua-rs/src/collision_detection/quadtree/qt_hazard.rs: QTHazard::constrict", "jagua-rs/src/collision_detection/quadtree/qt_partial_hazard.rs: PartialQTHaz::collides_with"]}
{"id": "C04", "title": "Quadtree collision query never reports a phantom", "statement": "If the quadtree reports a collision with an entity, that entity belongs to a registered, active hazard that is not in the irrelevant list, and the query shape shares a point with the closed region the hazard occupies.", "quantifier": "every tree built by the public operations, every query, every irrelevant list", "why_tests_cant": "False positives come from wrong inside/outside propagation between quadrants, which depends on the full geometry.", "anchors": ["jagua-rs/src/collision_detection/quadtree/qt_node.rs: QTNode::collides", "jagua-rs/src/collision_detection/quadtree/qt_hazard.rs: QTHazard::constrict"]}
{"id": "C05", "title": "A placement accepted by poly_collides is geometrically feasible", "statement": "If poly_collides returns false for a shape, the interior of the shape is disjoint from the region of every relevant hazard: it overlaps no placed item, no hole and no relevant quality zone, and lies entirely inside the bin.", "quantifier": "every bin polygon, every set of hazards, every polygon whose pole of inaccessibility lies inside it, exact arithmetic", "why_tests_cant": "It is a statement about all points of the plane and all polygons; it needs the parity argument for ray casting and cannot be sampled.", "anchors": ["jagua-rs/src/collision_detection/cd_engine.rs: CDEngine::poly_collides, poly_collides_by_edge_intersection, poly_collides_by_containment, poly_or_hazard_are_contained"]}
{"id": "C06", "title": "A rejection by poly_collides is justified", "statement": "If poly_collides returns true then the shape leaves the engine's bounding box or shares a point with the closed region of some relevant hazard.", "quantifier": "every engine state, every shape, exact arithmetic", "why_tests_cant": "Over-rejection is caused by rare geometric configurations.", "anchors": ["jagua-rs/src/collision_detection/cd_engine.rs: CDEngine::poly_collides"]}
{"id": "C07", "title": "Irrelevant hazards are never reported", "statement": "No query ever returns or adds an entity listed as irrelevant, and adding entities to the irrelevant list never creates a collision.", "quantifier": "every engine state, query and irrelevant list", "why_tests_cant": "Universal over lists and states.", "anchors": ["jagua-rs/src/collision_detection/quadtree/qt_node.rs: collides, collect_collisions", "jagua-rs/src/collision_detection/cd_engine.rs: hazards_within, collect_poly_collisions, collect_surrogate_collisions"]}
{"id": "C08", "title": "Collecting queries respect the caller's buffer", "statement": "The collecting queries keep everything that was in the detected buffer, in order, only append, never append an entity that was already there, never append an entity twice, and never leave an irrelevant entity behind.", "quantifier": "every engine state, shape, irrelevant list and initial buffer", "why_tests_cant": "The implementation temporarily pushes the irrelevant entities and drains a range; an off-by-one corrupts user data only for certain buffers.", "anchors": ["jagua-rs/src/collision_detection/cd_engine.rs: collect_poly_collisions, collect_surrogate_collisions, hazards_within"]}
{"id": "C09", "title": "Collecting all collisions is complete", "statement": "collect_poly_collisions gathers every relevant hazard whose edges intersect the polygon; in particular it finds something whenever poly_collides reports a collision.", "quantifier": "every engine state, shape and irrelevant list", "why_tests_cant": "Completeness ranges over all configurations of overlapping hazards.", "anchors": ["jagua-rs/src/collision_detection/cd_engine.rs: collect_poly_collisions", "jagua-rs/src/collision_detection/quadtree/qt_node.rs: collect_collisions"]}
{"id": "C10", "title": "Three-valued quick checks are conservative", "statement": "When a quick check answers True a collision exists, when it answers False none exists with the hazard regions, and only Indeterminate leaves it open. Edges and circles leaving the engine's box are always answered True, which is justified whenever the bin exterior is relevant.", "quantifier": "every tree built by public operations, every point/edge/circle and hazard", "why_tests_cant": "Conservativeness is a universal claim about the tree's presence labels.", "anchors": ["jagua-rs/src/collision_detection/quadtree/qt_node.rs: definitely_collides, definitely_collides_with", "jagua-rs/src/collision_detection/cd_engine.rs: point_definitely_collides_with, edge_definitely_collides, circle_definitely_collides"]}
{"id": "C11", "title": "Engine snapshot and restore round trip", "statement": "Restoring a snapshot after any further operations gives an engine with the same hazards, no pending deregistrations, and the same answers to all queries as at the time the snapshot was taken.", "quantifier": "every engine state, every sequence of operations between snapshot and restore", "why_tests_cant": "The restore path has four ways to bring a hazard back or drop it, chosen by history.", "anchors": ["jagua-rs/src/collision_detection/cd_engine.rs: CDEngine::create_snapshot, restore"]}
{"id": "C12", "title": "Lazy and instant deregistration are indistinguishable", "statement": "Deregistering a hazard lazily or instantly, and committing pending deregistrations at any moment, never changes the answer of a collision query, now or after any later operations, as long as an entity always stands for the same hazard.", "quantifier": "every engine state and query", "why_tests_cant": "Needs all interleavings of lazy deregistrations with later registrations of the same entity.", "anchors": ["jagua-rs/src/collision_detection/cd_engine.rs: deregister_hazard, commit_deregisters, register_hazard"]}
{"id": "C13", "title": "No dangling shape references", "statement": "Every partially present hazard stored in the quadtree refers to a shape that is still owned by the engine, so the liveness expectation can never fail.", "quantifier": "every sequence of engine operations", "why_tests_cant": "A weak pointer dies only after particular histories (e.g. re-registering a lazily removed entity with a new shape object).", "anchors": ["jagua-rs/src/collision_detection/quadtree/qt_partial_hazard.rs: PartialQTHaz::shape_arc", "jagua-rs/src/util/assertions.rs: qt_contains_no_dangling_hazards"]}
{"id": "C14", "title": "Flushed proximity grid is exact and history independent", "statement": "Whenever the hazard proximity grid can be read, the stored distance of each cell is the distance from the centre of the cell to some hazard that is registered now, and it is the smallest such distance, i.e. the value of a grid computed from scratch from the current hazards.", "quantifier": "every sequence of register, deregister, flush and restore operations", "why_tests_cant": "Values are updated incrementally by a flood fill; staleness shows only after particular histories.", "anchors": ["jagua-rs/src/collision_detection/hpg/hazard_proximity_grid.rs", "jagua-rs/src/collision_detection/hpg/hpg_cell.rs"]}
{"id": "C15", "title": "A dirty proximity grid cannot be read", "statement": "Between a lazy deregistration and the next flush, commit or restore, reading the grid returns an error; after them it succeeds.", "quantifier": "every sequence of engine operations", "why_tests_cant": "History property.", "anchors": ["jagua-rs/src/collision_detection/cd_engine.rs: haz_prox_grid, flush_haz_prox_grid", "jagua-rs/src/collision_detection/hpg/hazard_proximity_grid.rs: is_dirty"]}
{"id": "C16", "title": "Boundary fill visits each cell at most once and terminates", "statement": "The flood fill returns every grid cell at most once, stops after at most as many steps as there are cells, and reports only existing indices.", "quantifier": "every grid size, seed box and report sequence", "why_tests_cant": "Worklist algorithms have unboundedly many schedules of reports.", "anchors": ["jagua-rs/src/collision_detection/hpg/boundary_fill.rs: BoundaryFillHPG"]}
{"id": "C17", "title": "Grid indexing is a bijection and range queries cover", "statement": "Row/column and linear index conversions are mutually inverse inside the grid and rejected outside; the row and column range queries return in-bounds ranges covering all rows and columns in the interval; neighbours are exactly the adjacent cells.", "quantifier": "every grid dimension, every index, every coordinate range", "why_tests_cant": "Universal arithmetic facts with off-by-one risks at borders.", "anchors": ["jagua-rs/src/collision_detection/hpg/grid.rs"]}
{"id": "C18", "title": "Cells discarded by the proximity grid cannot host the item", "statement": "If a grid cell reports it cannot accommodate an item, no placement whose pole of inaccessibility centre lies in that cell is collision free.", "quantifier": "every cell, hazard set, item shape and rotation", "why_tests_cant": "Geometric claim over a continuum of placements.", "anchors": ["jagua-rs/src/collision_detection/hpg/hpg_cell.rs: HPGCell::could_accommodate_item, hazard_proximity"]}
{"id": "C19", "title": "Demand is conserved in bin packing", "statement": "At any moment, for every item type, the reported missing quantity equals the demanded quantity minus the number of copies present in the layouts.", "quantifier": "every sequence of place, remove, register/deregister layout, create solution and restore operations", "why_tests_cant": "Counters are maintained incrementally in seven places.", "anchors": ["jagua-rs/src/entities/problems/bin_packing.rs", "jagua-rs/src/entities/problems/problem_generic.rs: register_included_item, deregister_included_item"]}
{"id": "C20", "title": "Bin stock is conserved", "statement": "At any moment, for every bin type, the remaining stock plus the number of layouts using that bin type equals the stock of the instance, and stock never becomes negative.", "quantifier": "every sequence of public bin packing operations", "why_tests_cant": "Histories mixing implicit layout creation, implicit removal and restore.", "anchors": ["jagua-rs/src/entities/problems/bin_packing.rs: register_bin, deregister_bin, place_item, remove_item, restore_to_solution"]}
{"id": "C21", "title": "Incremental solution creation equals full creation", "statement": "Creating a solution with the previous solution as a hint yields the same solution as creating it without a hint.", "quantifier": "every history between the two solutions", "why_tests_cant": "The hint reuses stale snapshots for layouts believed unmodified.", "anchors": ["jagua-rs/src/entities/problems/bin_packing.rs: create_solution, layout_has_changed"]}
{"id": "C22", "title": "Restoring a solution restores the problem", "statement": "After restoring a solution the problem has exactly the layouts of the solution (same ids, bins and placed items), the same missing quantities and the same bin stock as when the solution was created, both on the incremental and on the rebuild path.", "quantifier": "every history after creating the solution", "why_tests_cant": "Two code paths, and the incremental one depends on tracked modification flags.", "anchors": ["jagua-rs/src/entities/problems/bin_packing.rs: restore_to_solution", "jagua-rs/src/entities/problems/strip_packing.rs: restore_to_solution"]}
{"id": "C23", "title": "The placing option returned by a removal undoes the removal", "statement": "Placing an item with the option returned by remove_item brings the problem back to the configuration before the removal.", "quantifier": "every problem state and every placed item", "why_tests_cant": "Depends on whether the removal emptied a layout and shifted the layout indices.", "anchors": ["jagua-rs/src/entities/problems/problem_generic.rs: remove_item", "jagua-rs/src/entities/problems/bin_packing.rs: remove_item, place_item"]}
{"id": "C24", "title": "Demand is conserved in strip packing", "statement": "At any moment, also after resizing or fitting the strip, the missing quantity of each item equals demand minus placed copies.", "quantifier": "every sequence of strip packing operations including strip modifications", "why_tests_cant": "Strip modification rebuilds layout and counters and may drop items.", "anchors": ["jagua-rs/src/entities/problems/strip_packing.rs"]}
{"id": "C25", "title": "Fitting the strip keeps all items", "statement": "Fitting the strip never removes an item and makes the strip exactly the occupied width times one plus the tolerance, centred around the items; its internal assertion cannot fail.", "quantifier": "every strip layout whose items lie inside the strip", "why_tests_cant": "Geometric and arithmetic claim for all layouts.", "anchors": ["jagua-rs/src/entities/problems/strip_packing.rs: fit_strip, modify_strip_centered, occupied_range"]}
{"id": "C26", "title": "A layout and its collision engine always agree", "statement": "In every layout the dynamic hazards of its collision engine correspond one to one to the placed items, and looking up the key for a hazard reported by the engine finds the corresponding placed item.", "quantifier": "every sequence of place, remove, change bin, snapshot and restore operations", "why_tests_cant": "Two structures updated separately; must agree after any history.", "anchors": ["jagua-rs/src/entities/layout.rs"]}
{"id": "C27", "title": "Layout snapshot and restore round trip", "statement": "Restoring a layout from a snapshot taken earlier reproduces bin, placed items and collision answers of that moment.", "quantifier": "every history between snapshot and restore", "why_tests_cant": "History property; includes changing the bin in between.", "anchors": ["jagua-rs/src/entities/layout.rs: create_snapshot, restore, from_snapshot, change_bin"]}
{"id": "C28", "title": "Edge intersection is exact for non-parallel edges", "statement": "Two non-parallel edges are reported as colliding exactly when they share a point, and the returned location lies on both edges; parallel edges are never reported.", "quantifier": "all pairs of edges, exact arithmetic", "why_tests_cant": "Continuum of inputs.", "anchors": ["jagua-rs/src/geometry/primitives/edge.rs: edge_intersection, collides_at"]}
{"id": "C29", "title": "Rectangle collision tests are exact", "statement": "Rectangle against point, rectangle and edge tests return true exactly when the closed sets share a point; the relation between two rectangles is the set relation.", "quantifier": "all rectangles, points, edges, exact arithmetic", "why_tests_cant": "Continuum of inputs with touching cases.", "anchors": ["jagua-rs/src/geometry/primitives/aa_rectangle.rs"]}
{"id": "C30", "title": "Circle collision tests are exact", "statement": "Circle against point, edge, rectangle and circle tests return true exactly when the closed sets share a point.", "quantifier": "all circles and shapes, exact arithmetic", "why_tests_cant": "Continuum of inputs.", "anchors": ["jagua-rs/src/geometry/primitives/circle.rs"]}
{"id": "C31", "title": "Closest point on an edge is the minimiser", "statement": "The closest point on an edge lies on the edge and no point of the edge is closer; the squared distance is the minimum.", "quantifier": "all edges and points", "why_tests_cant": "Continuum.", "anchors": ["jagua-rs/src/geometry/primitives/edge.rs: closest_point_on_edge, sq_distance"]}
{"id": "C32", "title": "Distances to a rectangle's border are distances", "statement": "distance_from_border of a rectangle returns the distance from the point to the border, and sq_distance_from_border its square.", "quantifier": "all rectangles and points", "why_tests_cant": "Continuum; interior and exterior are computed by different formulas.", "anchors": ["jagua-rs/src/geometry/primitives/aa_rectangle.rs: sq_distance_from_border, distance_from_border"]}
{"id": "C33", "title": "Quadrants tile the rectangle", "statement": "The four quadrants of a rectangle cover it, overlap only on borders, are congruent, and the neighbour table lists exactly the quadrants sharing a side; inflating to a square contains the original and is square. The bounding rectangle of two rectangles is the smallest rectangle that contains both.", "quantifier": "all rectangles", "why_tests_cant": "Continuum.", "anchors": ["jagua-rs/src/geometry/primitives/aa_rectangle.rs: quadrants, QUADRANT_NEIGHBOR_LAYOUT, inflate_to_square, bounding_rectangle"]}
{"id": "C34", "title": "Point in polygon test is constant off the boundary", "statement": "Two points connected by a segment that does not meet the polygon's boundary get the same inside/outside answer, and points outside the bounding box are outside.", "quantifier": "all closed polygons with any number of vertices, all points", "why_tests_cant": "Ray casting has degenerate vertex cases; universal over polygons.", "anchors": ["jagua-rs/src/geometry/primitives/simple_polygon.rs: CollidesWith<Point>"]}
{"id": "C35", "title": "Polygon construction yields counterclockwise positive area", "statement": "A constructed polygon has strictly positive signed area, the same vertex set as the input, and its area is invariant under rigid transformations.", "quantifier": "all vertex lists", "why_tests_cant": "Continuum, any length.", "anchors": ["jagua-rs/src/geometry/primitives/simple_polygon.rs: SimplePolygon::new, calculate_area"]}
{"id": "C36", "title": "Centering puts the centroid in the origin", "statement": "After center_around_centroid the centroid is the origin, and the returned transformation is the one applied.", "quantifier": "all polygons with non-zero area", "why_tests_cant": "Algebraic identity over all polygons.", "anchors": ["jagua-rs/src/geometry/primitives/simple_polygon.rs: centroid, center_around_centroid"]}
{"id": "C37", "title": "Transformations form a group of rigid motions", "statement": "Applying a composed transformation equals applying the parts in order; inverse undoes; compositions of rotations and translations preserve distances; decomposing and composing gives the same map.", "quantifier": "all sequences of rotations and translations, all points", "why_tests_cant": "Algebraic identities over a continuum.", "anchors": ["jagua-rs/src/geometry/transformation.rs", "jagua-rs/src/geometry/d_transformation.rs"]}
{"id": "C38", "title": "External and internal coordinates round trip", "statement": "Converting a placement to absolute (file) coordinates and back yields the same placement, and the item occupies the same region relative to the bin in both representations.", "quantifier": "all placements, item and bin pretransformations", "why_tests_cant": "Algebraic identity over a continuum; an order mistake is invisible for centred shapes without rotation.", "anchors": ["jagua-rs/src/io/parser.rs: internal_to_absolute_transform, absolute_to_internal_transform"]}
{"id": "C39", "title": "Convex hull contains all points", "statement": "The convex hull of a point list consists of input points and contains all input points.", "quantifier": "all finite point lists", "why_tests_cant": "Degenerate collinear and equal-x cases.", "anchors": ["jagua-rs/src/geometry/convex_hull.rs"]}
{"id": "C40", "title": "Polygon simplification respects its direction and tolerance", "statement": "Simplifying for inflation never decreases the area, for deflation never increases it, the relative area change stays within the tolerance, and at least three vertices remain.", "quantifier": "all polygons and modes, all tolerances from 0 on (for deflation up to 2; a deflation cannot remove more than the whole area)", "why_tests_cant": "Iterative greedy algorithm over all polygons.", "anchors": ["jagua-rs/src/util/polygon_simplification.rs"]}
{"id": "C41", "title": "Bounding circle contains all circles", "statement": "The bounding circle of a list of circles contains every circle of the list. Generating the surrogate of a polygon leaves its outline, area, bounding box and pole as they are, and the bounding circle in the surrogate contains all its poles.", "quantifier": "all nonempty lists of circles", "why_tests_cant": "Incremental construction; order dependent.", "anchors": ["jagua-rs/src/geometry/primitives/circle.rs: Circle::bounding_circle"]}
{"id": "C42", "title": "Hazard filters select exactly the matching hazards", "statement": "The generated irrelevant list contains exactly the entities the filter matches; combined filters are unions; the quality filter matches exactly zones of at least the cutoff quality.", "quantifier": "all filters and hazard lists", "why_tests_cant": "Universal over lists.", "anchors": ["jagua-rs/src/collision_detection/hazard_filter.rs"]}
{"id": "C43", "title": "Surrogate fail-fast checks are sound", "statement": "If the surrogate of a shape collides, the shape itself collides, so the fail-fast check never rejects a feasible placement.", "quantifier": "all shapes whose surrogate lies inside them, all transformations and engine states", "why_tests_cant": "Continuum.", "anchors": ["jagua-rs/src/collision_detection/cd_engine.rs: surrogate_collides, surrogate_or_poly_collides", "jagua-rs/src/geometry/fail_fast/sp_surrogate.rs"]}
{"id": "C44", "title": "The LBF optimizer only produces feasible layouts", "statement": "Every item placed by the left-bottom-fill optimizer passed the collision check against all relevant hazards at the moment of placement, so in the final solution items are pairwise disjoint and inside their bins; demand is never exceeded.", "quantifier": "every instance, configuration and random number stream", "why_tests_cant": "Random streams are unbounded.", "anchors": ["lbf/src/lbf_optimizer.rs"]}
{"id": "C45", "title": "Tightening the sampler is lossless", "statement": "Removing grid cells when a better placement is found only discards cells that cannot produce a strictly better placement, and sampling never runs out of cells.", "quantifier": "every item, cell set and sequence of improvements", "why_tests_cant": "Depends on geometry of cells and costs.", "anchors": ["lbf/src/samplers/hpg_sampler.rs: HPGSampler::tighten, sample"]}
{"id": "C46", "title": "Sampled rotations are allowed rotations", "statement": "Every rotation sampled for an item belongs to its allowed set (modulo a full turn).", "quantifier": "every item, reference rotation and random stream", "why_tests_cant": "Random streams unbounded.", "anchors": ["lbf/src/samplers/rotation_distr.rs", "lbf/src/samplers/ls_sampler.rs"]}
{"id": "C47", "title": "Pole of inaccessibility is a valid inner circle", "statement": "The generated pole has its centre inside the polygon, does not cross any edge, and does not overlap previously generated poles; the search terminates. The poles of a surrogate are as many as it takes to cover the wanted part of the area, up to the configured number, and come in the order of their weight.", "quantifier": "all polygons and previous poles", "why_tests_cant": "Branch and bound search over a continuum.", "anchors": ["jagua-rs/src/geometry/fail_fast/poi.rs"]}
{"id": "C48", "title": "Bin hazards describe the bin exactly", "statement": "A bin's engine contains exactly one exterior hazard for the contour, one per hole and one per inferior quality zone, all uniquely identified, and the region outside the contour is treated as occupied everywhere in the engine's bounding box.", "quantifier": "all bins, holes and quality zones", "why_tests_cant": "Universal over bins; the exterior region is a complement.", "anchors": ["jagua-rs/src/entities/bin.rs: Bin::new, generate_bin_hazards", "jagua-rs/src/collision_detection/quadtree/qt_hazard.rs: constrict"]}
{"id": "C49", "title": "Handles address the item they were given for", "statement": "Placing an item returns a layout and a key that was free; looking them up gives exactly the placed item, moved as requested; nothing else in the problem changes. Removing by the handle gives back that item and no other; a layout disappears exactly when its last item is removed.", "quantifier": "every reachable problem state, item, transformation and layout or bin type", "why_tests_cant": "Keys are reused with versions and layouts are created and removed implicitly.", "anchors": ["jagua-rs/src/entities/problems/bin_packing.rs: place_item, remove_item", "jagua-rs/src/entities/layout.rs: place_item, remove_item"]}
{"id": "C50", "title": "A solution reports what its snapshots contain", "statement": "The placed quantities, missing quantities, completeness, number of items and usage of a solution are those of the items in its layout snapshots, and the debug check that problem and solution match never fails.", "quantifier": "every solution created in any history", "why_tests_cant": "The numbers are derived from counters of the problem, the snapshots from the layouts or from an older solution.", "anchors": ["jagua-rs/src/entities/solution.rs", "jagua-rs/src/util/assertions.rs: problem_matches_solution, layouts_match", "jagua-rs/src/entities/problems/problem_generic.rs: placed_item_qtys, usage"]}
{"id": "C51", "title": "The grid loses no placement", "statement": "Every point of the bounding box of the engine that is outside the closed forbidden regions of the bin exterior and the holes lies in a cell of the hazard proximity grid, and not on the right or upper edge of the cell, from which no sample is drawn, unless it is on that edge of the box. So for every placement that the polygon query accepts, there is a cell that contains the centre of the item's pole of inaccessibility, and this cell does not refuse the item.", "quantifier": "every engine with a grid in every reachable state, every bin with at least one universal hazard, every cell count, every item and quality; in exact arithmetic with a strictly increasing square root that is never too small, and poles inside their shapes", "why_tests_cant": "Cells near the border of the bin are dropped while the grid is generated; a sampler that only looks at the cells silently never finds placements in dropped ones.", "anchors": ["jagua-rs/src/collision_detection/hpg/grid_generator.rs", "jagua-rs/src/collision_detection/hpg/hazard_proximity_grid.rs: new", "jagua-rs/src/collision_detection/hpg/hpg_cell.rs: could_accommodate_item"]}
{"id": "C52", "title": "Simplification is safe", "statement": "Simplifying a polygon whose boundary does not touch or cross itself never panics and gives such a polygon again. With inflation (used for items, holes and zones) the result covers the original for every tolerance; with deflation (used for the outline of bins) and a tolerance below one it lies in the original. So a placement that is collision free and inside the bin for the simplified shapes is so for the original ones.", "quantifier": "every simple polygon, every tolerance (below one for deflation), every candidate that passes the validity check, every rigid motion", "why_tests_cant": "The validity check looks at single edges only; that no other part of the outline can slip into the triangle that is added or cut off is a global argument about simple polygons, for which tests have only samples.", "anchors": ["jagua-rs/src/util/polygon_simplification.rs: simplify_shape, candidate_is_valid, execute_candidate", "jagua-rs/src/io/parser.rs: convert_json_simple_poly"]}
{"id": "C53", "title": "Instances are read faithfully", "statement": "Reading an instance of simple shapes succeeds. The items and bins have the order, numbers, quantities, qualities, values and allowed rotations of the input. All shapes of a bin are moved by one translation, every item by its own, and these are recorded; with centering, the centroid is then the origin, so that the check for centered shapes passes. Without simplification the shapes are the given ones; with it, items, holes and zones only grow and outlines of bins only shrink. What cannot be represented is refused.", "quantifier": "every instance with simple shapes, every configuration of the parser (tolerance below one), every supply of addresses", "why_tests_cant": "Tests read a few files and look at counts; that nothing is lost, swapped or moved apart concerns every shape, quality and combination of holes and zones.", "anchors": ["jagua-rs/src/io/parser.rs: parse, parse_item, parse_bin, convert_json_simple_poly, pretransform_item, pretransform_bin", "jagua-rs/src/io/json_instance.rs", "jagua-rs/src/util/assertions.rs: all_bins_and_items_centered"]}
{"id": "C54", "title": "The written solution solves the given instance", "statement": "If the optimizer solves a parsed instance, the solution can be written, and the written transformations, applied to the shapes of the input (before simplification and centering), give a feasible solution of the given problem: items turned only as allowed, apart from each other, inside the given bin, off its holes and off zones of too low a quality, not more copies than demanded and not more bins than in stock; for strips, inside the strip from the origin with the written width and the given height, with exactly the demanded copies. More generally, every layout that is feasible for the library is written as a layout that is feasible for the input.", "quantifier": "every instance with simple shapes, every configuration (for bins with a simplification tolerance below 100%), every run of the optimizer that ends, every feasible layout; in exact arithmetic, with surrogates that keep to their shapes", "why_tests_cant": "The chain simplification - centering - optimization - decomposition - writing has many coordinate systems; a mistake in one of them shows only in some instances, and no test checks exported positions against the original shapes.", "anchors": ["jagua-rs/src/io/parser.rs: compose_json_solution, internal_to_absolute_transform", "lbf/src/lbf_optimizer.rs: solve", "jagua-rs/src/io/json_solution.rs"]}
{"id": "C55", "title": "The search of a layout keeps the best sample", "statement": "A search of a layout draws as many samples as configured. If it returns no placement, every uniform sample collided; if it returns a placement, that is one of the samples drawn, it is free of collisions, and no other collision-free sample (of the uniform sampling or the local search) is cheaper, the cost being ten times the rightmost plus the topmost coordinate of the placed shape. The layouts are searched in order and the first one that offers a placement is taken.", "quantifier": "every item, layout, configuration and random number generator; in terms of the engine's answers for any arithmetic, in terms of the plane for simple shapes in exact arithmetic", "why_tests_cant": "The samples are random; a search that forgets a good sample or takes a worse one still returns valid placements, so only the quality of solutions suffers and no test fails.", "anchors": ["lbf/src/lbf_optimizer.rs: sample_layout, find_lbf_placement", "lbf/src/lbf_cost.rs"]}
{"id": "C56", "title": "A written solution can be read again and gives the same solution", "statement": "When a solution is written to JSON and read again for the same instance, reading succeeds and gives the same layouts in the same order: the same items at the same places in the same bins (in a strip: with the strip and its items moved to the origin), with the same usage, the same counts of placed items and the same bins left. This holds for every solution taken from a problem whose layouts are not empty and hold no two copies of an item at the same place, and so for every solution of the optimizer. A layout without items can be written, but not read.", "quantifier": "all instances, all states reachable by operations on a problem, all runs of the optimizer, all rotations and translations of items; in exact arithmetic with exact rotations, and for the optimizer simple shapes and a simplification tolerance below 100%", "why_tests_cant": "tests compare a few solutions; writing and reading change the frame of reference of every item and bin, so a wrong order of the transformations shows only for particular combinations of turned items and centred bins, and the counts depend on the whole history of the problem", "anchors": ["jagua-rs/src/io/parser.rs: compose_json_solution, build_solution_from_json, internal_to_absolute_transform, absolute_to_internal_transform"]}
{"id": "C57", "title": "A debug build behaves like a release build", "statement": "The code checks itself in debug builds (the quadtree has no dangling or doubly registered hazards, the counters and the order of the hazards of a node are right, a layout after placing, removing or restoring has the same quadtree as a freshly built one, a problem and its solutions match, the proximity grid has no cell that misses a registered item). For callers that meet their obligations, none of these checks ever fails: building an engine, a layout or a problem and every operation on it has the same outcome in a debug build as in a release build, and queries have the same answers. Conversely, a debug build detects that an item is placed twice with the same transformation.", "quantifier": "all engines, layouts, bin packing and strip packing problems, all sequences of operations, all queries", "why_tests_cant": "The assertions run only on the states that tests reach; that they never fail is a statement about all histories of lazy removals, snapshots and restored solutions.", "anchors": ["jagua-rs/src/util/assertions.rs", "jagua-rs/src/collision_detection/cd_engine.rs", "jagua-rs/src/collision_detection/quadtree/qt_hazard_vec.rs", "jagua-rs/src/collision_detection/hpg/hazard_proximity_grid.rs: register_hazard", "jagua-rs/src/entities/layout.rs", "jagua-rs/src/entities/problems/bin_packing.rs", "jagua-rs/src/entities/problems/strip_packing.rs"]}
{"id": "C58", "title": "The picture shows the solution", "statement": "Every layout of a solution can be drawn as SVG without a panic, and a program that displays the picture shows the layout in the coordinates of the input: the outline of the bin (or something inside it, if shapes are simplified) with its holes and quality zones, completely in view, and every placed item exactly once, at the position and rotation that the JSON output gives. For a solution of the optimizer what is seen is a packing: the drawn items are apart, inside the drawn bin (for a strip: the rectangle from the origin with the written width and the given height) and off the drawn holes and zones of too low a quality. The picture of the quadtree covers the box of the engine; green rectangles are free of hazards and red ones are inside a hazard. Surrogates are drawn where the items are. A color of the theme is read back as it was written.", "quantifier": "all sound instances, parser configurations, histories of layouts, solutions of the optimizer, drawing options and themes; all colors", "why_tests_cant": "That a picture agrees with the written output for every rotation, centering and simplification depends on the composition of several transformations; a test looks at a few pictures.", "anchors": ["lbf/src/io/layout_to_svg.rs", "lbf/src/io/svg_export.rs", "lbf/src/io/svg_util.rs", "lbf/src/main.rs", "jagua-rs/src/io/parser.rs: pretransform_bin, pretransform_item, internal_to_absolute_transform"]}
{"id": "C59", "title": "The checks a caller can run give the right answer", "statement": "The public checks of layouts and engines never panic and are exact. layout_is_collision_free says yes exactly if all placed items lie inside the bin, off the holes, off the zones of too low a quality and apart from each other, for every layout that can be reached by placing, removing, saving, restoring and changing the bin (whether these led to collisions or not). item_to_place_does_not_collide says yes exactly if adding the item keeps a collision-free layout free of collisions. In every reachable engine the activation flags in the quadtree agree, and deactivated hazards are present exactly while deregistrations are uncommitted; after a commit there are none.", "quantifier": "all reachable layouts and engines, all items with a simple shape and a surrogate inside it, all transformations; no item placed twice with the same transformation; the checks of layouts in exact arithmetic", "why_tests_cant": "The checks are what tests use to decide whether a layout is right; that they have neither false alarms nor blind spots concerns all layouts.", "anchors": ["jagua-rs/src/util/assertions.rs: layout_is_collision_free, item_to_place_does_not_collide, qt_contains_no_dangling_hazards, qt_hz_entity_activation_consistent, qt_node_contains_no_deactivated_hazards", "jagua-rs/src/collision_detection/cd_engine.rs: has_uncommitted_deregisters"]}
{"id": "C60", "title": "The quadtree is refined along the outlines of hazards", "statement": "The boxes of the nodes of an engine's quadtree are obtained by halving the box of the engine, at most to the depth the engine was made with; its leaves cover the box without overlapping. A node below the root is divided only if the outline of a hazard (registered, or with an uncommitted deregistration) meets its box, and every node above the maximal depth through whose inside such an outline passes is divided. The reported number of nodes is the number of nodes and at most (4^(depth+1) - 1) / 3; the reported smallest node dimension is the width of the nodes at the maximal depth and less than that of all others.", "quantifier": "all engines reachable by any sequence of operations, all depths, all polygons (what surrounds the box, like a bin, being at least as wide or as high as it); the second sentence in exact arithmetic", "why_tests_cant": "Resolution and size of the tree after any history of lazy deregistrations, reactivations and restores can only be sampled by tests.", "anchors": ["jagua-rs/src/collision_detection/quadtree/qt_node.rs", "jagua-rs/src/collision_detection/quadtree/qt_hazard.rs: constrict", "jagua-rs/src/collision_detection/cd_engine.rs: number_of_nodes, smallest_qt_node_dimension, bbox, quadtree", "jagua-rs/src/geometry/primitives/aa_rectangle.rs: quadrants"]}
{"id": "C61", "title": "Piers lie in their shape and cover it greedily", "statement": "The line segments (piers) that a shape is first tested with are as many as requested and lie in the shape, so that together with the poles they never report a collision that the shape does not have. Every pier is the candidate with the smallest loss given those chosen before. For shapes around their centroid generation succeeds.", "quantifier": "all polygons, any number of scan lines and directions, any poles, any number of piers", "why_tests_cant": "Whether a segment leaves the shape depends on how scan lines meet vertices; tests with a few shapes do not meet vertices.", "anchors": ["jagua-rs/src/geometry/fail_fast/piers.rs", "jagua-rs/src/geometry/fail_fast/sp_surrogate.rs: new"]}
{"id": "C62", "title": "Distances are smallest distances", "statement": "The distance that a shape reports to a point, an edge or a circle is the smallest distance between points of the two, and zero exactly if they meet. The distance to a border is the smallest distance to a point of the border, together with the side on which the query lies. The squared variants give the squares of the plain ones. The diameter of a rectangle, an edge or a circle is the largest distance between two of its points.", "quantifier": "all points, edges, rectangles, circles and polygons", "why_tests_cant": "That no point of the shape is closer than the reported distance is a statement about infinitely many points, for every shape and query.", "anchors": ["jagua-rs/src/geometry/geo_traits.rs: DistanceFrom", "jagua-rs/src/geometry/primitives/circle.rs", "jagua-rs/src/geometry/primitives/edge.rs", "jagua-rs/src/geometry/primitives/aa_rectangle.rs", "jagua-rs/src/geometry/primitives/simple_polygon.rs"]}
{"id": "C63", "title": "A run with a given seed is reproducible", "statement": "If a seed is configured, two runs of the program on the same instance with the same configuration do the same: both fail, or both write the same solution; and the pictures they write are the same as well, including that of the quadtree. Where the allocator puts the shapes, which of several equal elements a binary search finds, and the entropy of the machine have no influence on what is written.", "quantifier": "all instances, configurations with a seed, memory layouts and search results", "why_tests_cant": "Two runs that agree say nothing about other memory layouts, other standard libraries or other instances; reproducibility is a statement about pairs of runs.", "anchors": ["lbf/src/main.rs: main", "lbf/src/lbf_config.rs: LBFConfig::prng_seed", "lbf/src/lbf_optimizer.rs: LBFOptimizer::solve", "jagua-rs/src/collision_detection/quadtree/qt_hazard_vec.rs: QTHazardVec::add", "jagua-rs/src/io/parser.rs: Parser::parse"]}
{"id": "C64", "title": "What the program writes solves the given instance", "statement": "If the program finishes, the written solution solves the instance in the input file: items are copies of given items turned as allowed, apart from each other, inside given bins or the strip and off holes and bad zones; demands and stocks are respected. For every layout a picture is written, in the same order, and it shows this layout in the coordinates of the input.", "quantifier": "all sound instances, configurations, random numbers and seeds", "why_tests_cant": "It spans reading, simplification, centering, optimization, and writing, for all instances and all random choices.", "anchors": ["lbf/src/main.rs: main", "jagua-rs/src/io/parser.rs", "lbf/src/lbf_optimizer.rs", "lbf/src/io/layout_to_svg.rs"]}
{"id": "C65", "title": "Reported areas and usages are true areas and fractions", "statement": "The area of a shape made from a simple polygon is the area of the part of the plane it covers, and stays so when it is turned and moved. For bins whose holes lie inside and do not overlap, the usage of a layout is the area covered by the items divided by the area of the bin without its holes, at most one. The usages in the written file are these fractions for the given shapes (never less than them if shapes are simplified), per layout and for the whole solution.", "quantifier": "all simple polygons over the reals; all feasible layouts; all runs of the program on sound instances", "why_tests_cant": "Area is the Lebesgue measure of a set with infinitely many points; that a sum of signed products equals it, and that sums of areas are areas of unions, holds for all polygons and all feasible layouts only by proof.", "anchors": ["jagua-rs/src/geometry/primitives/simple_polygon.rs: calculate_area", "jagua-rs/src/entities/bin.rs: Bin::new", "jagua-rs/src/entities/layout.rs: usage", "jagua-rs/src/entities/problems/problem_generic.rs: usage", "jagua-rs/src/io/parser.rs: compose_json_solution"]}
{"id": "C66", "title": "What a problem reports about itself between operations", "statement": "At any time, the reported cost of used bins is the value of each bin type times the number of bins missing from its stock; the reported placed quantities are the copies in the layouts; the layouts that can be looked up are the existing ones and one empty template per bin type. For strip packing the occupied range is the smallest horizontal interval containing all placed items, and there is none exactly if nothing is placed. The bin quantities of a solution are the stock left.", "quantifier": "all reachable problems", "why_tests_cant": "The numbers are kept up to date incrementally by every operation; that they agree with the layouts holds after all sequences of operations, including restoring solutions.", "anchors": ["jagua-rs/src/entities/problems/problem_generic.rs: used_bin_cost, placed_item_qtys, get_layout", "jagua-rs/src/entities/problems/strip_packing.rs: occupied_range, occupied_width", "jagua-rs/src/entities/solution.rs: bin_qtys"]}
{"id": "C67", "title": "The collision detection engine of a bin can be built", "statement": "Building the engine of a bin, with any requested number of proximity cells, succeeds and yields a grid if cells are requested. (Proved for bins that, without their holes, have at least 1/400 of the area of the square around them; false for bins that are very flat or very narrow.)", "quantifier": "all bins with holes and quality zones, all requested numbers of cells, over the reals", "why_tests_cant": "The cell size is found by an iterative search whose outcome depends on the shape of the bin; that it never runs out of positive sizes is a statement about all polygons, and follows from an area argument.", "anchors": ["jagua-rs/src/collision_detection/hpg/grid_generator.rs: generate", "jagua-rs/src/collision_detection/hpg/hazard_proximity_grid.rs: HazardProximityGrid::new", "jagua-rs/src/collision_detection/hpg/hpg_cell.rs: HPGCell::new", "jagua-rs/src/collision_detection/cd_engine.rs: CDEngine::new", "jagua-rs/src/entities/bin.rs: Bin::new"]}
{"id": "C68", "title": "The tolerance of float comparisons does not change the answers", "statement": "Where numbers are compared with a tolerance, the collision queries give the same answers as exact comparisons: the point in polygon test is right for every point farther than the tolerance from the outline; edges and circles are neither missed nor falsely reported; the quick checks are right whenever they commit themselves; and the polygon query decides feasibility exactly, provided that the largest inscribed disc of the shapes and the cells of the quadtree are larger than the tolerance and that no item lies inside the shape with a bounding box that coincides up to the tolerance. (Both provisos are needed.) Hence the solutions of the bin packing optimizer are feasible, exactly, if the items have room for a disc larger than the tolerance and no item is both smaller than another one and as wide and high up to the tolerance; and what is written solves the instance that was read, exactly. Likewise the check of a whole layout says \"collision free\" exactly for the feasible ones, if these provisos hold for the bin and the items where they are placed, and the check of a placement says \"does not collide\" exactly if adding the item keeps the layout feasible. The tolerant test of a point against a rectangle misses no point of it and reports only points within the tolerance.", "quantifier": "all comparisons with a tolerance on a bounded range of numbers, absolute or relative; all engines, shapes, hazards and filters", "why_tests_cant": "A wrong answer needs coordinates that agree up to a ten-thousandth without being equal; random tests do not produce them, and the argument why all other inputs are safe is a parity argument over all polygons.", "anchors": ["jagua-rs/src/util/fpa.rs: FPA", "jagua-rs/src/geometry/primitives/simple_polygon.rs: CollidesWith<Point>", "jagua-rs/src/geometry/primitives/aa_rectangle.rs: AlmostCollidesWith<AARectangle>, almost_relation_to", "jagua-rs/src/collision_detection/cd_engine.rs: poly_collides, poly_or_hazard_are_contained", "jagua-rs/src/collision_detection/quadtree/qt_hazard.rs: constrict"]}
{"id": "C69", "title": "Rounding does not change the answers of collision tests, except for near misses", "statement": "In floating point arithmetic with unit roundoff u (2^-24 for single precision, overflow and underflow left out), the elementary collision tests give the answer of exact geometry: edge against edge unless an end of one edge is, relative to the size of both, within about 20u of the line through the other (horizontal against vertical edges and edges whose boxes are apart always); point in polygon unless the point is within 32u times the width of the polygon (or within the comparison tolerance) of the outline; circle against point and rectangle unless squared distance and squared radius agree up to 5u; rectangle against edge unless a corner or end is that close to a line; rectangle against point and rectangle always. Both kinds of wrong answers do occur for near misses in single precision.", "quantifier": "all roundings that are monotone, symmetric, keep 1 and have relative error at most u <= 1/256; all edges, polygons, circles, rectangles and points with representable coordinates", "why_tests_cant": "The error of a rounded cross product depends on all four coordinates; wrong answers need nearly collinear points, which random tests hardly produce, and the absence of others is an error analysis over all inputs.", "anchors": ["jagua-rs/src/geometry/primitives/edge.rs: edge_intersection, CollidesWith<Edge>", "jagua-rs/src/geometry/primitives/simple_polygon.rs: CollidesWith<Point>", "jagua-rs/src/geometry/primitives/circle.rs: CollidesWith<Point>, CollidesWith<AARectangle>", "jagua-rs/src/geometry/primitives/aa_rectangle.rs: CollidesWith<Edge>, CollidesWith<Point>, CollidesWith<AARectangle>"]}
{"id": "C70", "title": "In floating point arithmetic, a query of the collision detection engine decides whether a shape fits, unless something is degenerate up to the roundoff", "statement": "After any sequence of registering, deregistering and restoring hazards in floating point arithmetic (unit roundoff u, overflow and underflow left out), asking whether a polygon collides answers whether the polygon leaves the area of the engine or meets a forbidden region, as exact geometry would for the same coordinates; provided that the cells into which the engine divides its area, the edges and the bounding boxes that are compared are in general position up to about 20u relative to the size of the area, and that the shapes and cells are larger than the roundoff. Without general position the engine can overlook a large overlap.", "quantifier": "all roundings that are monotone, symmetric, keep 1 and have relative error at most u <= 1/256; all comparison tolerances; all reachable engine states of any depth; all query polygons and sets of ignored hazards", "why_tests_cant": "The quadtree is built from rounded midpoints and rounded edge tests, and one wrong test anywhere hides a hazard from all later queries; which inputs are safe is a statement about all of them, and the inputs that go wrong are one unit in the last place away from ones that do not.", "anchors": ["jagua-rs/src/collision_detection/cd_engine.rs: poly_collides, poly_collides_by_edge_intersection, poly_collides_by_containment", "jagua-rs/src/collision_detection/quadtree/qt_node.rs: register_hazard, collides", "jagua-rs/src/collision_detection/quadtree/qt_hazard.rs: constrict", "jagua-rs/src/geometry/primitives/aa_rectangle.rs: quadrants"]}
{"id": "C71", "title": "Operations of a collision detection engine with a proximity grid never fail", "statement": "After any sequence of operations that meet the obligations of the caller, on an engine that was created with a hazard proximity grid, registering a hazard, removing one lazily or at once, flushing, committing, taking a snapshot and restoring a snapshot taken before do not panic, as long as the registered shapes have a surrogate with at least one pole. The shapes of loaded items do, wherever they are placed; without a surrogate, registering fails.", "quantifier": "exact arithmetic with nonnegative square roots, rounded or not; all bins, numbers of cells and configurations for which the engine is created; all reachable states and snapshots", "why_tests_cant": "The flood fill indexes into grids, queues and visited sets whose shape depends on the bin, and unwraps values in every step; tests run a few histories on a few bins.", "anchors": ["jagua-rs/src/collision_detection/hpg/hazard_proximity_grid.rs: register_hazard, deregister_hazard, flush_deregisters, restore", "jagua-rs/src/collision_detection/hpg/boundary_fill.rs", "jagua-rs/src/collision_detection/hpg/hpg_cell.rs: register_hazards, register_hazard_pole", "jagua-rs/src/collision_detection/cd_engine.rs"]}
{"id": "C72", "title": "The convex hull of several shapes contains all of them", "statement": "The convex hull of several shapes consists of vertices of the shapes and contains every vertex of every shape, also when shapes were moved after their surrogates, which store the hull of a shape, had been made.", "quantifier": "all lists of polygons with and without surrogates, all transformations", "why_tests_cant": "Points with equal x-coordinates, repeated points and stale indices only matter in particular combinations of shapes.", "anchors": ["jagua-rs/src/geometry/convex_hull.rs: convex_hull_from_shapes, convex_hull_indices"]}
{"id": "C73", "title": "Placements computed and written in floating point arithmetic differ little from what they mean", "statement": "In floating point arithmetic with unit roundoff u and sine, cosine and arctangent accurate to e, every corner of a placed shape is within u(7M+T)+2eM of where the placement puts it mathematically, where M bounds the coordinates of the shape and T the translation. Therefore, if the computed shapes of two placements do not touch, the shapes that are meant have no common point deeper than that inside both, and a shape whose computed version lies in the bin sticks out by no more than that; this applies to whatever the collision detection engine accepts in general position. The same holds for the solution file: whoever moves the item of the input file as the solution file says gets the shape that the engine had, up to u(30M+5T)+6eM, and items that did not touch in the engine overlap by no more than that.", "quantifier": "all roundings that are monotone, symmetric, keep 1 and have relative error at most u <= 1/256, all trigonometric functions of the stated accuracy; all shapes, simple or not, all placements; all items and bins that were centered or not when they were read", "why_tests_cant": "The error of a corner depends on the angle, the size and the position, and a test compares with a tolerance that was picked by hand; that a small displacement of corners cannot create a deep overlap is a statement about all polygons.", "anchors": ["jagua-rs/src/geometry/transformation.rs: from_dt, rot_transl_m, dot_prod, inverse, decompose", "jagua-rs/src/geometry/primitives/point.rs: transform", "jagua-rs/src/geometry/primitives/simple_polygon.rs: transform", "jagua-rs/src/io/parser.rs: internal_to_absolute_transform, pretransform_item, parse_item, compose_json_solution"]}
{"id": "C74", "title": "The interface shared by all problems offers exactly the layouts an item can be placed in", "statement": "For a problem of either kind, used through the interface that does not depend on the kind: an item can be placed in a layout or template exactly if layout_indices or template_layout_indices_with_stock lists its index; a template is listed exactly if the stock in bin_qtys says that one is left, which is never the case in strip packing. Placing gives a handle under which the item is found with the position asked for, one copy less is missing, and the cost of the used bins grows by the value of the bin exactly if a new layout is opened. Removing by the handle brings back layouts, missing quantities, stock and cost. The placed quantities are the numbers of copies in the layouts. Restoring a solution after anything else brings back layouts up to order, quantities, stock, cost and usage, which is the total area of the items over that of the bins.", "quantifier": "all bin packing and strip packing problems reached by any sequence of operations, also those of one kind only; all placing options", "why_tests_cant": "Generic optimizers mix problem kinds and operations in any order; tests run a few sequences for one kind.", "anchors": ["jagua-rs/src/entities/problems/problem.rs", "jagua-rs/src/entities/problems/problem_generic.rs: layout_indices, template_layout_indices_with_stock, get_layout, used_bin_cost, placed_item_qtys", "jagua-rs/src/entities/problems/bin_packing.rs", "jagua-rs/src/entities/problems/strip_packing.rs"]}
{"id": "C75", "title": "In floating point arithmetic, a layout made by the optimizer is feasible up to the roundoff", "statement": "Every item in a layout of a solution of the left-bottom-fill optimizer was placed after a collision test in the layout as it was then, which found no collision. The test is made with a transformation; the item is placed with the rotation and translation recovered from it. In floating point arithmetic with unit roundoff u and sine, cosine and arctangent accurate to e, the corners of the placed shape are within u(14M+2T)+8eM of those of the tested shape, where M bounds the coordinates of the shapes and T the translations; for an item that is not turned they are equal. The stored rotation turns as an allowed one up to 4e. If the shapes in the tests were in general position, the placements as they are meant (moved without error) stick out of the bin by no more than u(7M+T)+6eM and have no common point deeper than that inside with each other, holes and zones of too low a quality. The placed shape need not be the tested one: in single precision an item turned by 180 degrees is placed elsewhere, where the engine itself finds a collision.", "quantifier": "all roundings that are monotone, symmetric, keep 1 and have relative error at most u <= 1/256, all trigonometric functions of the stated accuracy; all bin packing instances, configurations, seeds and proximity grids; the first and second sentence in any arithmetic", "why_tests_cant": "Which samples are drawn depends on the seed, and the error on angle, size and position; a test that runs the optimizer and asks the engine again passes unless an overlap of a few units in the last place is hit.", "anchors": ["lbf/src/lbf_optimizer.rs: sample_layout, solve", "lbf/src/samplers/hpg_sampler.rs: sample", "lbf/src/samplers/ls_sampler.rs: sample", "jagua-rs/src/geometry/transformation.rs: decompose, from_dt", "jagua-rs/src/entities/placed_item.rs: new", "jagua-rs/src/entities/layout.rs: place_item"]}
{"id": "C76", "title": "In floating point arithmetic, a strip filled by the optimizer is feasible up to the roundoff, although the items are placed anew whenever the strip changes", "statement": "When the left-bottom-fill optimizer returns a solution of a strip packing instance, it has one layout; every item in it was tested against the outline of exactly this strip and found inside, and of every two items one was tested against the other and found apart from it. This holds however often the strip was made longer and although fitting it places all items anew with tests against the strip only. The items are those of the instance, turned as allowed up to the recovered rotation, and the strip has no holes or zones. In floating point arithmetic with unit roundoff u and sine, cosine and arctangent accurate to e, if the shapes in the tests were in general position and no two things in an engine were equal, the placements as they are meant (moved without error) stick out of the strip by no more than u(7M+T)+6eM and no two of them have a common point deeper than that inside both, where M bounds the coordinates of the shapes and T the translations.", "quantifier": "all strip packing instances with correct ids, configurations, seeds and proximity grids, any number of changes of the strip; the first three sentences in any arithmetic, the last for all roundings that are monotone, symmetric, keep 1 and have relative error at most u <= 1/256 and all trigonometric functions of the stated accuracy", "why_tests_cant": "How often and when the strip is made longer depends on the seed; a test sees a few runs, and a pair of items that was never tested against each other shows only if the pair happens to overlap.", "anchors": ["jagua-rs/src/entities/problems/strip_packing.rs: modify_strip, modify_strip_in_back, modify_strip_centered, fit_strip, place_item, create_solution", "lbf/src/lbf_optimizer.rs: solve, find_placement, sample_layout"]}
{"id": "C77", "title": "The optimizer never looks at an outdated proximity grid, and keeping the grids never breaks a run", "statement": "The left-bottom-fill optimizer keeps one proximity grid per layout, copies that of the bin when it opens a layout, makes a new one when the strip changes, and updates it with every item it places. A run gives the same solution as the run that computes the grid of a layout from scratch (from the bin and the items in it) whenever it looks at it, and the grids it ends with are those computed from scratch. If the items have surrogates with poles and the grids of the bins can be made, the run with updated grids panics exactly if the other one does; for a strip it suffices that the grids of the first and of the last strip can be made, however often the strip got longer in between. A grid computed from scratch does not depend on where shapes are in memory, so two runs of the program with the same seed do the same: both fail, or both write the same solution.", "quantifier": "all instances, configurations, seeds, numbers of cells and samples; the first part over any arithmetic (also floating point), the second over exact arithmetic", "why_tests_cant": "A grid that misses an item or belongs to another strip changes only which positions are sampled; the solution is still feasible and looks plausible. The states in which a grid could be out of date depend on the whole history of a run.", "anchors": ["jagua-rs/src/collision_detection/cd_engine.rs: new, register_hazard, create_snapshot, haz_prox_grid", "jagua-rs/src/collision_detection/hpg/hazard_proximity_grid.rs: new, register_hazard", "jagua-rs/src/entities/problems/bin_packing.rs: new, place_item", "jagua-rs/src/entities/problems/strip_packing.rs: modify_strip, fit_strip", "lbf/src/lbf_optimizer.rs: solve, find_lbf_placement", "lbf/src/samplers/hpg_sampler.rs: new"]}
{"id": "C78", "title": "The optimizer does not skip a layout that has room for the item, and can draw every place where it fits", "statement": "The left-bottom-fill optimizer skips a layout for an item if the proximity grid leaves no cell to sample from. In exact arithmetic this never loses a place: whatever was placed before, if one more copy of an item, with a rotation it allows, fits somewhere into a layout or into an empty bin, the sampler for this layout is made, and exactly this placement is one of those it can draw. So if the optimizer gives up a copy of an item that would still fit into a layout or a bin in stock, it did sample this layout, the place was one of those it could have drawn, and all samples it drew were rejected. For strips: in every state of a run, if the item fits into the strip and the strip is nevertheless made longer, the strip was sampled, the place could have been drawn, and all samples were rejected.", "quantifier": "all bin packing and strip packing instances with simple shapes and correct ids, all configurations, seeds and numbers of cells, all states of a run, all layouts, items and positions; exact arithmetic, a strictly increasing square root that is never too small; the filter of the item is that of its quality; for freely rotatable items the angles from 0 to 2 pi", "why_tests_cant": "A layout that is skipped wrongly leaves a feasible but worse solution; nothing in the output shows that there was a place. To see it one would have to search all positions in all layouts in every state of a run.", "anchors": ["lbf/src/samplers/hpg_sampler.rs: new", "lbf/src/lbf_optimizer.rs: solve, find_lbf_placement, sample_layout", "jagua-rs/src/collision_detection/hpg/hpg_cell.rs: could_accommodate_item, register_hazard", "jagua-rs/src/collision_detection/hpg/hazard_proximity_grid.rs: new, register_hazard", "jagua-rs/src/geometry/primitives/aa_rectangle.rs: from_intersection"]}
{"id": "C79", "title": "A layout with a proximity grid works after any history, and no place is lost once changes are flushed", "statement": "A layout whose engine has a proximity grid behaves, in everything but the grid, as one without: placing, removing (instantly or lazily), flushing, snapshots, restoring and changing the bin do the same to its bin, items, engine and snapshots. None of these operations fails, whatever happened before, if the items have poles. The grid can be read exactly if no lazy removal is waiting; flushing, taking or restoring a snapshot, and changing the bin process all that wait. Flushing leaves bin, items and engine as they are. In exact arithmetic, after any history with nothing waiting, also one in which items were placed so that they overlap: wherever an item fits in the layout with a rotation it allows, the sampler made from the grid can draw exactly this placement.", "quantifier": "all bins, items and numbers of cells, all sequences of placing, removing either way, flushing, taking snapshots, restoring those taken since the bin was last changed, and changing the bin; all positions. The last part: simple shapes, exact arithmetic, a strictly increasing square root that is never too small; for freely rotatable items the angles from 0 to 2 pi", "why_tests_cant": "Histories are unbounded, and a grid that is out of date in one cell shows only as places that are never drawn.", "anchors": ["jagua-rs/src/entities/layout.rs: new, change_bin, create_snapshot, restore, place_item, remove_item, flush_changes", "jagua-rs/src/collision_detection/cd_engine.rs: register_hazard, deregister_hazard, create_snapshot, restore, haz_prox_grid, flush_haz_prox_grid", "lbf/src/samplers/hpg_sampler.rs: new"]}
{"id": "C80", "title": "A strip packing problem with a proximity grid works after any history, and no place is lost once changes are flushed", "statement": "A strip packing problem whose strip has a proximity grid behaves, in everything but the grid, as one without: placing, removing (instantly or lazily), all ways to change the strip, making and restoring solutions, and flushing changes do the same to strip, items, quantities and solutions. If the items have poles, none of these operations fails that succeeds without the grid, whatever happened before, provided the grid of the strip afterwards can be made; this includes restoring solutions made before the strip was changed. The grid can be read exactly if no lazy removal is waiting; flushing, making or restoring a solution, and changing the strip process all that wait. Flushing always succeeds and changes nothing but the grid. In exact arithmetic, after any history with nothing waiting: wherever an item fits in the strip with a rotation it allows, the sampler made from the grid can draw exactly this placement.", "quantifier": "all instances, strips and numbers of cells, all sequences of operations on the problem with any solutions kept, all items and positions. The last part: simple shapes, exact arithmetic, a strictly increasing square root that is never too small; for freely rotatable items the angles from 0 to 2 pi", "why_tests_cant": "Histories are unbounded, and a grid that belongs to another strip or is out of date in one cell shows only as places that are never drawn.", "anchors": ["jagua-rs/src/entities/problems/strip_packing.rs: new, modify_strip, fit_strip, place_item, remove_item, create_solution, restore_to_solution", "jagua-rs/src/entities/problems/problem_generic.rs: flush_changes", "jagua-rs/src/entities/layout.rs: from_snapshot, restore, create_snapshot, flush_changes", "lbf/src/samplers/hpg_sampler.rs: new"]}
{"id": "C81", "title": "A bin packing problem with proximity grids works after any history, and no place is lost once changes are flushed", "statement": "A bin packing problem whose bins have proximity grids behaves, in everything but the grids, as one without: placing items in open or new bins, removing them (instantly or lazily), registering layouts made by the caller, closing bins, making and restoring solutions, and flushing changes do the same to layouts, items, quantities and solutions. If the items have poles, none of these operations fails that succeeds without the grids, whatever happened before. The grid of a bin can be read exactly if no lazy removal is waiting in this bin; flushing, or making or restoring a solution, processes all that wait, even though making a solution passes over bins that were not changed since the last one. Flushing always succeeds and changes nothing but the grids. In exact arithmetic, after any history and in every open bin where nothing is waiting, and in every bin that can still be opened: wherever an item fits with a rotation it allows, the sampler made from the grid can draw exactly this placement.", "quantifier": "all instances, bins and numbers of cells, all sequences of operations on the problem with any solutions kept, all items and positions; layouts that are registered are new ones or clones of those of the problem, with any items placed, removed and flushed in them. The last part: simple shapes, exact arithmetic, a strictly increasing square root that is never too small; for freely rotatable items the angles from 0 to 2 pi", "why_tests_cant": "Histories are unbounded; which bins a solution passes over depends on the whole history, and a grid that is out of date in one cell shows only as places that are never drawn.", "anchors": ["jagua-rs/src/entities/problems/bin_packing.rs: new, register_layout, remove_layout, place_item, remove_item, create_solution, restore_to_solution, layout_has_changed, reset_unmodified_layouts", "jagua-rs/src/entities/problems/problem_generic.rs: flush_changes", "jagua-rs/src/entities/layout.rs: from_snapshot, clone_with_id, restore, create_snapshot, flush_changes", "lbf/src/samplers/hpg_sampler.rs: new"]}
{"id": "C82", "title": "The code printed for a layout sets it up again", "statement": "Running the statements that print_layout prints, on the same instance, gives a layout with the same bin, the same items at the same positions and the same answers to all collision queries, no matter how the printed layout came about. (Proved for positions that have no more decimals than are printed; for others the items are at the printed positions, each within the rounding error, as long as no two copies of an item come to the same printed position. The full claim is false: a collision for which the code is printed can be gone in the layout it sets up.)", "quantifier": "all layouts reached by any sequence of operations; all ways of rounding numbers", "why_tests_cant": "The answers of the new layout have to agree for every query and every history of the old one; a test sees one history and positions with few decimals.", "anchors": ["jagua-rs/src/util/mod.rs: print_layout", "jagua-rs/src/util/assertions.rs: layout_is_collision_free", "jagua-rs/src/entities/layout.rs: place_item"]}
