# Formal model of jagua-rs in Lean 4

## What is modelled

The source in /repo (crates `jagua-rs` and `lbf`) is modelled function by
function in Lean 4 under `lean/Verif/Model`. Every definition cites the Rust
file and lines it mirrors and lists its simplifications. Helper lemmas are
under `lean/Verif/Lemmas`, and the property theorems are in `lean/Verif/Props`,
each with `example`s that satisfy its hypotheses.

### Numbers

Rust uses `f32`/`f64`. The model is written over numbers `K` with the operations
of the code and no laws (`lean/Verif/Arith.lean`) and a linear order; expressions and the order
of summation follow the code. So there are two kinds of theorems:

* Those under `[Arith K] [LinearOrder K]` hold for any arithmetic, with or without
  rounding. These are the claims about bookkeeping: the engine's operations and its history (C01, C02,
  C07, C08, C11 - C13), the grid's (C14 never too small, C15), demand, stock, solutions and
  restoring (C19 - C24), layouts (C26, C27), filters and bin hazards (C42, C48), what operations
  do and report (C49, C50, C66). `lean/Verif/Spec/Rounding.lean` has the number types
  meant, rationals with every operation rounded, and `lean/Verif/Props/Rounding.lean` a
  problem run in one that is not a field. NaN is excluded, because it is not ordered, and so are panics in
  `Edge::new` and `AARectangle::new` (on edges and quadrants of rectangles that rounding made degenerate): exact arithmetic
  has neither, and the model of release builds leaves these checks out.
* Those under `[Field K]` (mostly with `[IsStrictOrderedRing K]`) are about geometry and hold in exact arithmetic; the concrete
  examples compute with rationals. What rounding does to the elementary collision tests is the subject of C69, what it does to queries of the
  engine that of C70; for the other geometric claims, and for overflow to infinity, underflow and NaN, it is not modelled.

Functions that need square roots or trigonometry are modelled over
an abstract square root and abstract trigonometric functions with the laws each theorem
states (exact, rounded up or rounded down), with the real functions as an instance. The
tolerance comparison `FPA` (external crate `almost`) is a parameter `Fpa K`
of the model; geometric exactness theorems assume it is exact equality, except
C68, which is about tolerances.

### Panics

Rust panics (`expect`, `unwrap`, `assert!`, `unreachable!`, index out of range,
unsigned underflow) are modelled as `none`. Functions that cannot panic are
plain functions. `debug_assert!`s are modelled in separate functions for debug builds
(`Model/Debug.lean`, `Model/DebugGrid.lean`, property C57).

### Collections

`Vec` is `List`, `swap_remove` and `binary_search` are modelled concretely or,
where the standard library leaves the choice open, by a parameter that
satisfies the documented contract. `Arc` identity is modelled by an explicit
address where identity matters (property C13), otherwise shapes are values.

### Not modelled

The text of SVG documents (what they draw is modelled, C58; titles, line widths and opacities are not), logging (except the sums in a message of the parser), command line handling, serde (de)serialisation itself,
rayon parallelism of the parser, direct mutation of a problem through its public
fields (`BPProblem::layouts`, `layouts_mut`), time stamps, the quality of pseudo random numbers (random
streams are universally quantified lists), performance.

## Trusted base

* Lean 4.33 kernel and the standard axioms `propext`, `Classical.choice`,
  `Quot.sound` (no others; no `sorry`, no `native_decide`).
* The hand translation Rust -> Lean documented at each definition.
* The simplifications above (numbers without NaN, exact arithmetic in the geometric theorems, etc.).

## Plan per property

| id | model | proof |
|----|-------|-------|
| C01 | quadtree nodes with generic hazard presence; engine state machine | canonical-form invariant: node content is a permutation of the constriction of the parent's content, children exist iff level > 0 and some partial hazard; induction over operations; query results are invariant under permutation of equals |
| C02 | QTHazardVec, arbitrary insertion point among equals | sortedness + counter invariant by induction over operations |
| C03, C04 | quadtree + constrict + concrete geometry | geometric invariant of node labels, induction over levels |
| C05, C06 | poly_collides over closed polygons | parity of ray crossings is constant on segments off the boundary; disjoint boundaries + reference point tests imply disjoint regions; combine with C03/C04 |
| C07, C08 | collecting queries | induction over tree; list lemmas |
| C09 | same | false in the code: counterexample + `_partial` under non-overlapping hazards |
| C10 | definitely_collides(_with) | from node label invariant |
| C11, C12 | engine state machine | refinement to the abstract hazard set |
| C13 | engine with shape addresses | invariant by induction |
| C14, C15 | proximity grid as per-cell minimum with dirty flag | invariant over operations; flood fill soundness by Lipschitz bound; for rectangular bins, the cells that are kept are computed, which gives exact values (`Props/HPGRect.lean`) |
| C16 | boundary fill worklist | measure + visited invariant |
| C17 | grid arithmetic | direct |
| C18 | cell proximity bound | triangle inequality over the reals |
| C19, C20, C21, C22 | BPProblem state machine | invariants by induction over operations |
| C23 | same | false when the layout becomes empty: witness + `_partial` |
| C24, C25 | SPProblem state machine | invariant; fit_strip via exactness of rectangle tests |
| C26, C27 | Layout state machine | invariant; C27 false after change_bin: witness + `_partial` |
| C28 - C31, C33 | geometric primitives over K | linear arithmetic / field algebra |
| C32 | sq_distance_from_border | false inside: witness + `_partial` |
| C34 | ray casting | strip-crossing parity lemma |
| C35, C36 | shoelace sums | induction over vertex list, ring identities |
| C37, C38 | 3x3 matrices over reals | algebra, trigonometric identities |
| C39 | monotone chain | hull contained in input; exact condition for containment (domination by the chain in every downward direction, induction over the points); false for some ties: witness + `_partial` |
| C40 | whole simplification loop (corners, candidates, validity, greedy choice) | per-candidate area change (shoelace on rotated lists), induction over the loop |
| C41 | bounding circle | false when one circle contains the current bound: witness + `_partial` |
| C42 | hazard filters | list lemmas |
| C43 | surrogate checks | from C03/C04 with poles and piers inside the shape |
| C44 | whole LBF optimizer; random stream, power function and cells of the grid are inputs | invariant over the rounds; a found placement was accepted by the engine (C06), so it keeps the layout feasible |
| C45 | sampler of the grid cells | a drawn shape contains its moved pole, which bounds its cost from below; running out of cells: witness + `_partial` |
| C46 | samplers | case analysis; invariant over the changes of the local search sampler |
| C47 | pole search; number and order of the poles of a surrogate | invariant over heap loop; induction over the selection loop |
| C49 | handles of placed items | slot map and problem invariant |
| C50 | solution reports | problem invariant; sums by item |
| C51 | grid coverage | exact cell size stays positive (multiple of the step); a cell with a free point is near the border; with C18 |
| C52 | simplification loop on simple polygons | the parity of ray crossings changes exactly by the triangle; the rest of the outline cannot enter the triangle (validity check, argument about leaving a closed region, sign of the area); induction over the loop |
| C53 | parser | shape by shape from C52 and C36; lists related element by element; quantities of a log message overflow in debug builds |
| C54 | parser, optimizer and writer together | the written motion followed by the translation of the bin is the translation of the item followed by the placement; with C44 and C53 |
| C55 | the search of a layout by the optimizer | the samples drawn are described by a trace of the random number generator; the best placement is the cheapest accepted one of the trace, by induction over the samples; with C05 and C43 in terms of the plane |
| C56 | writing a solution and reading it again | the two changes of the frame of reference cancel (rigid motions); then induction over the items of a layout and over the layouts: the problem that is rebuilt has, after each step, the layouts read so far; the invariants of problems (C20-C24) give the statistics. For the optimizer: its solutions have no empty layouts and, being feasible (C44), no two copies at one place |
| C57 | the operations with all `debug_assert!`s of the quadtree, the engine, layouts, problems and the proximity grid | each function with checks equals the one without, from the invariants of C01, C02, C11, C20-C26 (the checks are about them); the comparison of a layout with a fresh engine from the canonical form of quadtrees; the check of the grid from C14. False in two places: restoring a snapshot of another bin, and grids with gaps |
| C58 | `layout_to_svg`, `quad_tree_data`, colors: a document is what it draws (outlines, definitions, uses with their `transform`) | a displayed `use` covers the placed shape moved back by the transformation of the bin (rigid maps, composition of C54); packing from C44; quadtree by induction over the tree from the registration invariants; surrogates directly; colors by cases over all bytes. False for items of base quality `N_QUALITIES` |
| C59 | the public checks of `assertions.rs` (collision free layout, item to place, activation flags) | exactness of polygon queries (C11) with the filter of each check, induction over the placed items; induction over the quadtree for the flags. Copies of an item at one place, which debug builds refuse, go unnoticed in release builds (`C59_copies_pass`) |
| C60 | shape of the quadtree (nodes named by the way from the root), number of nodes, smallest dimension | induction over the tree from the registration invariant: hazards in a node are those whose outline meets its box |
| C61 | `piers.rs` as a whole: scan lines, clipping, loss, choice | parity of the crossings of a line with a closed polygonal line: the points between the odd and the next even crossing are inside, if the outline crosses the line in the middle of sides only (or the shape is convex); the minimum of the losses by induction over the candidates. False in general (`C61_pier_outside`, `C61_false_alarm`) |
| C62 | `DistanceFrom` and `diameter` of the primitives | smallest distances as `IsDist` between point sets; for discs along the line through the centre, for polygons the boundary is closest unless the point is inside. False for points in rectangles and for circles and edges that overlap a circle (`C62_*_wrong`) |
| C63 | `main.rs` up to the written solution (`Model/Main.lean`), with all addresses, the result of binary searches and the entropy as parameters | simulation: two runs go through states that are equal up to addresses and the inner order of the quadtree (`Spec/Twin.lean`); queries do not see the difference. The grid is a parameter, assumed to depend on the layout only; C77 shows this for the grids the code keeps. For the pictures: the nodes of two such quadtrees have the same children and their strongest hazards the same strength, so the same cells are drawn |
| C64 | `main.rs` as a whole | composition of C54 and C58 along the run. Pictures fail for a base quality of `N_QUALITIES` (`C64_pictures_panic`) |
| C65 | areas of shapes, bins, layouts, solutions; written usages | over the reals with Lebesgue measure. The area of a simple polygon is proved equal to the sum of signed products by integrating, over all heights, the alternating sum of the places where sides pass. Usages follow since feasible items are disjoint parts of the bin. Overlapping holes break the claim (`C65_overlapping_holes`), so holes are assumed to lie inside and apart |
| C66 | `used_bin_cost`, `placed_item_qtys`, `get_layout`, `template_layouts`, `occupied_range`, `occupied_width`, `Solution::bin_qtys` | from the invariants of reachable problems (C19, C20, C24); the range of the items from the boxes of their shapes, which are attained |
| C67 | `generate` (the search for the cell size), `HazardProximityGrid::new`, `HPGCell::new`, `CDEngine::new` | the correction factor stays a positive multiple of its step (at most 1/20): at a factor `c` the kept cells cover the free part (C51), so their number times their area is at least its area, which bounds the factors with too few cells from below; all other steps are total. Flat bins: at most two rows of cells are kept at any factor, too few at all of them |
| C68 | `FPA`, `CollidesWith<Point>` of polygons, `almost_relation_to`, `poly_or_hazard_are_contained`, `constrict`, all with an arbitrary comparison that is reflexive and only identifies numbers at most `ε` apart | an edge is counted wrongly only if one of its ends is a vertex right of the point that is slightly below it and taken to be level with it; the number of such ends over all edges is even, so the parity is right. Cells of the quadtree that no edge meets have their centre far from the outline, so the tree is the same. A box relation that is wrong by the tolerance still leads to a test point with the right answer, except if the hazard is just inside the shape. For runs of the optimizer: a hazard inside a shape is a placed item narrower than it, so the condition on boxes is one on pairs of different items of the instance in allowed rotations; C44 is proved from what an accepted placement implies, which holds with tolerance as well. For the check of a layout: C59 is proved from the answers of the queries, whatever makes them right. For the written solution: C54 is proved from the feasibility of the solution, whatever makes it feasible. For the quick checks: the presences stored in the cells are those of exact comparisons, then as for C10 |
| C69 | `edge_intersection`, the collision tests of polygon, circle and rectangle, over rationals with every operation rounded (`Spec/RoundedGeo.lean`, `Spec/Digits.lean`) | forward error analysis: the rounded cross products have the right sign outside of a margin, so the quotients land on the right side of 0 and 1; the parity count is unchanged when no side passes close to the point. Axis parallel edges need no margin, because products with zero and differences of equal numbers are exact. Not covered: circle against edge and transformations with rounding |
| C70 | quadtree and `poly_collides` over the same numbers: computed middles of the cells, handing down of hazards, containment tests (`Spec/RoundedEngine.lean`) | the proofs of C04, C05 and C68 again, with the cells as they are computed: presences stored in the quadtree are right about the exact shapes, because the tests of C69 are; hypotheses are conditions that can be checked by calculation (`CDE.Rounds`), and the example checks them in single precision. Not covered: surrogates and circle queries with rounding |
| C71 | all operations of engines with a grid (`Model/HPG.lean`) | every step of the fill stays in the grid and ends before the fuel does, because cells are visited once; shapes of grids do not change; over any arithmetic (`Lemmas/HPGTotal.lean`), then with a field for the box in which the fill starts |
| C72 | `convex_hull_from_shapes` (`Model/HullShapes.lean`) | C39 for the single shapes and for the collected points; hulls are compared by the half planes that contain them, which transformations preserve. False when several vertices are leftmost |
| C73 | `Point.transform`, `Transf.fromDt`, `internalToAbsolute`, `decompose`, `composePlaced`, `parseItem` over arithmetic with rounding | error of a row of the matrix from the standard model of rounding; multiplications by 0 and 1 are exact, so centering is a translation. Moving the corners of a polygon by ε changes its even-odd interior only within ε of the outline: the strip swept by a side is two triangles, and triangles have no odd points outside. Rational shapes are compared with real ones by density |
| C74 | `Problem` (the enum) and its dispatch, `layoutIndices`, `templatesWithStock`, `getLayout`, `usedBinCost`, `placedItemQtys` | case distinction over the two kinds; invariants of C19, C20, C24 determine missing quantities and stock from the layouts; C49 and C22 for the effects |
| C75 | `sampleLayout`, `findPlacement`, `lbfSolveBP`, `decompose` over any arithmetic and arithmetic with rounding | every best sample carries the test that it passed; induction over the items placed gives a layout filled test by test. The recovered rotation has almost the sine and cosine of the matrix; then C70 for each test and the displacement lemma of C73. A witness in single precision for a turned item |
| C76 | `lbfSolveSP`, `modifyStrip`, `placeBack`, `fitStrip` over any arithmetic and arithmetic with rounding | invariant over all steps: the tests made so far contain, for every item, one against the present strip, and for every two items one against the other; placing back keeps the pairs and adds the tests against the strip. Then C70 for each test and the displacement lemma of C73 |
| C77 | the optimizer with the grid of every layout as part of the state (`Model/LBFGrid.lean`, `Model/MainGrid.lean`) over any arithmetic | simulation: the grids of layouts and templates are those computed from scratch, since snapshots and copies do not change a grid with nothing to process. That it never fails: registering succeeds (C71), and an item that did not fit is still missing after the strip got longer, so the grid of the new strip is read next. Independence of addresses: every function of the grid reads only entity and shape; with C63 for grids computed from scratch, two runs with the same seed both fail or write the same |
| C78 | the same run with grids (`Model/LBFGrid.lean`), the sampler of a layout (`Model/LBF.lean`), exact arithmetic | the grid of a layout is that from scratch (C77), which is a reachable grid with the hazards of the layout registered; where the item fits, its pole of inaccessibility is further from every relevant hazard than its radius, so the cell around it could accommodate the item (C18, C51), and it lies within the bin, so the intersection with the bin keeps it; cells without their right and upper edge still cover the box, so the point can be drawn and gives back the placement. Giving up: C44 and the failure of the search in every layout. Strips: the states of a run as an inductive relation (`GridSP.Run`), which the loop never leaves. It does not claim that a place is found: samples are random |
| C79 | layouts with the grids of their engines (`Model/LayoutGrid.lean`): all methods of a layout that change its engine, with `flush_changes`; histories as an inductive relation (`GridLayoutReach`) that records whether removals wait | forgetting the grid is a simulation, by cases on the operation; the engine of the layout is reachable in the sense of C18/C71 for the bin of the layout (invariant), so operations succeed (C71) and the grid is dirty exactly if removals wait (C15); with nothing waiting the argument of C78 applies to this engine. Snapshots from before a change of the bin are not restored (C27 and C57 show what happens then) |
| C80 | strip packing problems with the grid of the strip (`Model/LBFGrid.lean`, `Model/ProblemGrid.lean`): all operations, `flush_changes` (problem_generic.rs) and `Layout::from_snapshot`; a solution carries the grid of its snapshot; histories as an inductive relation (`GridSPReach`) | forgetting the grid is a simulation onto the problem of C22–C25; the invariant of that problem, and the engine of the strip and of every solution reachable (C71) for the strip it belongs to; a layout number determines the strip, so a solution is restored into the strip it was made from |
| C81 | bin packing problems with the grids of their bins (`Model/BinProblemGrid.lean`): all operations, with `flush_changes` and layouts registered by the caller (`GridLayoutOwn`); a solution carries the grids of its snapshots; histories as an inductive relation (`GridBPReach`) that records the layouts in which removals wait | forgetting the grids is a simulation onto the problem of C22–C25; the invariant of that problem, and the engine of every layout, template and snapshot reachable (C71) for its bin; layouts passed over when a solution is made have nothing waiting, since a removal takes them off the list of unmodified layouts |
| C82 | `util::print_layout` (the numbers in the statements, not the text) and what the statements do | induction over the statements with the layout invariant of C26; equal bins and items give equal answers; false with rounding: witness + `_partial` |
| C48 | bin construction | list lemmas + constriction of exterior hazards |

All properties can be expressed in the model; those that the code violates are
kept with the full statement, a refuting witness and a `_partial` theorem.

## Where the code disagrees with the intended property

Each entry names the theorem that proves the disagreement on a concrete input.

* C01: the collecting query depends on the order in which hazards were
  registered (`C01_collecting_depends_on_history`); yes/no queries do not.
* C09: the collecting query can miss a hazard that the shape overlaps when
  hazards overlap each other, e.g. an item placed in a zone of low quality
  (`C09_collecting_misses_hazard`).
* C10: outside the engine's box the three-valued queries answer `True` even when
  the bin exterior is irrelevant (`C10_outside_box_ignores_irrelevant`).
* C11, C12: an entity that is registered again with a different shape while its
  old registration is still pending keeps the old shape
  (`C11_restore_keeps_reused_entity`, `C12_lazy_reuse_keeps_old_shape`).
* C14: if an item is removed instantly while an earlier removal is still pending,
  a hazard registered afterwards may not reach all cells, so that the grid is too
  optimistic after the flush (`C14_mixed_removal_fails`). In a bin with a hole, the
  fill of a single item can be seeded on the wrong side of the hole, so that the
  item's own cell is not updated (`C14_gap_fails`). Where the cells cover a box
  without gaps and removals are not mixed, the values are the smallest ones up to
  twice the error of the square root (`C14_smallest_partial`).
* C22: restoring brings back the layouts in another order
  (`C22_order_may_change`); restoring a solution with more copies than demanded
  panics when overflow checks are on (`C22_overplaced_solution_panics`).
* C23: the option returned by removing the last item of a layout has a stale
  index (`C23_last_item_option_is_stale`): using it panics (`C23_fails_panic`) or
  places the item in another layout (`C23_fails_other_layout`).
* C25: fitting a strip without items panics (`C25_empty_strip_panics`).
* C27: restoring a layout does not bring back its bin after `change_bin`
  (`C27_change_bin_is_not_undone`).
* C39: when three or more points share the smallest (largest) x-coordinate, the hull
  can lose the lowest (highest) of them, and the diameter is too small
  (`C39_hull_can_miss_points`, `C39_diameter_can_be_too_small`; exact condition in
  `C39_hull_contains_iff`).
* C41: the bounding circle of circles can be too small, or its construction can
  panic, when a later circle is larger than the first
  (`C41_bound_can_be_too_small`, `C41_bound_can_panic`).
* C44: if an item is at least as high as the strip, the optimizer never ends
  (`C44_too_high_item`).
* C45: the sampler discards all cells when the first sample is at the lower left corner of the
  only cell left and the item is as tight as its pole; the next sample panics (`C45_can_run_out`).
* C46: an item with an empty list of rotations makes the sampler panic
  (`C46_empty_list_panics`).
* C47: building a polygon panics when no point of the search grid is inside it, e.g. for
  right triangles more than 1024 times as wide as high (`C47_thin_triangle_panics`).
* C53: in a debug build that logs messages of level `Info`, an instance with two bins without stock
  (unlimited stock) cannot be read: the quantities for the message overflow
  (`C53_two_unlimited_bins`).
* C53: the cost of a bin in the input ("the cost of using this bin") is ignored; the value of a bin
  is its area, cut to an integer (`C53_cost_ignored`).
* C57: in a debug build, restoring a snapshot of a layout after `change_bin` to another bin panics
  (`C57_change_bin_and_restore_panics`), and registering an item in a bin with a hole can panic in the
  check of the proximity grid (`C57_grid_fails`). In a release build, both go on with a wrong state (C27, C14).
* C58: the parser accepts a base quality of `N_QUALITIES` or more for an item, for which the theme has no color:
  after the solution was written, drawing it panics (`C58_quality_panics`).
* C59: in a release build two copies of an item at exactly the same place pass `layout_is_collision_free`, although they overlap
  (`C59_copies_pass`).
* C61: a scan line through a vertex at which the outline crosses it counts the vertex twice; what lies between inside and outside is swapped
  from there on and piers outside of the shape are generated (`C61_pier_outside`, `C61_pier_outside_chosen`). With such a pier the fail-fast
  test rejects placements that collide with nothing (`C61_false_alarm`).
* C61: the rays are moved by the position of the shape twice and turned about the origin. For a shape away from the origin no ray
  meets it, and generation panics with "No ray found" (`C61_far_shapes_panic`); the parser generates surrogates before it centres items.
* C61: the forfeit distance (`piers.rs` line 52) is the square root of the product of the squared sides, not of their sum.
* C62: `distance_from_border` of a rectangle gives the square root of the distance for points inside (`C62_rect_border_wrong`). For a
  circle or an edge that overlaps a circle, `distance_from_border` of the circle gives neither the distance to the border nor the side
  (`C62_circle_border_to_circle_wrong`, `C62_circle_border_to_edge_wrong`).
* C64: for an item with a base quality of `N_QUALITIES` the solution is written, then the program panics (`C64_pictures_panic`).
* C65: the area of a bin is that of its outline minus the sum of the areas of its holes, so holes that overlap are subtracted several times. With a hole given three times the written usage is 4, with four times it is negative (`C65_overlapping_holes`). A solution without layouts has usage `0.0 / 0.0`.
* C66: `Solution::bin_qtys` is documented as the quantity of bins used for each type; it holds the stock that is left (`C66_bin_qtys_not_used`).
* C67: `grid_generator::generate` lowers its correction factor by 0.05 per round while there are too few cells. For very flat bins all of 1, 0.95, …, 0.05 give too few, and the factor reaches zero (`C67_flat_bins_fail`: every bin whose bounding box is at least `35 √N` times as wide as high, with `N ≥ 1700` cells; the default is 2000; `C67_narrow_bins_fail` is the same for high bins). In exact arithmetic the cell size is then zero. With `f32` or `f64` the factor ends slightly below zero, the number of cells is zero until the rounds are used up, and `cells[0]` in `HazardProximityGrid::new` panics.
* C68: the tolerance can make the engine accept overlapping items. `C68_small_shapes_slip_in`: an item whose pole of inaccessibility is closer than the tolerance to the height of a vertex of a placed item, inside that item, passes (the tolerance of the crate `almost` for `f32` is about 0.00035 of the coordinate). `C68_covered_item_missed`: a square of any size placed over a C-shaped item passes if their bounding boxes agree up to the tolerance, because `almost_relation_to` then says that the hazard surrounds the shape and only the pole of the shape is tested, which lies in the opening of the C.
* C69: in single precision the edges (2944, 3903)–(7628, 4080) and (0, 0)–(5185, 6874) are reported as colliding though they have no point in common, and (564, 1930)–(9851, 7685) and (2586, 3183)–(4313, 1035) are not reported though they cross (`C69_near_misses`).
* C70: near misses can hide a large overlap: an edge that runs along the diagonal of a quadtree cell, one unit in the last place off, is not recognised as crossing the cell, so the item inside the cell is not tested against it (`C70_overlap_missed`: triangle (42.4, 42.4), (204.6, 204.6 − 2⁻¹⁶), (42.4, 204.6), item [75, 95] × [70, 90], bin of side 229.1, quadtree of depth 2: accepted, though the shapes overlap by more than 3).
* C72: the hull of three equal rectangles above one another, the lowest of them in the middle of the list, leaves out a corner (`C72_hull_of_shapes_fails`); points are sorted by x only, as in C39.
* C75: the optimizer tests an item with one transformation and places it with the rotation recovered from it by `decompose`. In single precision, for an
  item turned by 180 degrees (3.1415927), `atan2` of the sine −8.742278e−8 and the cosine −1 is −3.1415925, whose sine is −1.5099580e−7. A
  corner at distance 1000 from the origin is placed 6.4e−5 away from where it was tested; the engine that accepted the sample then finds a collision (`C75_placed_elsewhere`), and the
  solution has overlapping items (`C75_solution_overlaps`).
* C82: `print_layout` prints positions with six decimals. A collision that depends on less than a millionth is gone in the layout that the printed code sets up (`C82_rounding_hides_collisions`), though the code is printed when a collision is found. Also, the printed `&DTransformation::new(..)` does not fit the signature of `Layout::place_item`, which takes the transformation by value; the model reads it without the `&`.
* C32: the squared distance of a point inside a rectangle is not squared
  (`Props/Primitives.lean`).

## Layout of the development

* `Model/` the code; `Spec/` vocabulary that does not refer to the model where
  possible (point sets, even-odd interior, rigid maps, operation sequences);
  `Lemmas/` proofs; `Props/` the property theorems `Cnn_*`.
* `seeded/LOG.jsonl` records deliberate bugs put into scratch copies of the model
  and the theorems that caught them.
