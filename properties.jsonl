{"id": "C01", "title": "DBVT is a finite map keyed by node index", "statement": "Through any history of insert / remove / update_node / clear (interleaved with flag_updated, update, do_refit, tick, reordering of values_mut + reindex_values), the tree behaves exactly like a finite map from node index to value: insert returns an index not currently in use and adds exactly that binding, remove(i) returns the value bound to i and deletes exactly that binding, update_node(i,v) rebinds exactly i, and update/do_refit/tick/flag_updated/reindex_values change no binding. In particular the index returned by insert never changes meaning until it is removed.", "quantifier": "every value/bound type, every finite sequence of API calls from new(), every outcome of the random generator used in refitting", "why_tests_cant": "the interaction of swap_remove, free-list reuse, sibling promotion and rotations depends on the whole history; tests sample a handful of short histories and the RNG makes rotation paths irreproducible", "anchors": ["src/dbvt/mod.rs::insert", "src/dbvt/mod.rs::remove", "src/dbvt/mod.rs::update_node", "src/dbvt/mod.rs::clear", "src/dbvt/mod.rs::do_refit"]}
{"id": "C02", "title": "values()/value_index round trip", "statement": "At every point between API calls, for every position i of values(), value_index(values()[i].0) is Some(i); and every node index for which value_index returns Some(i) satisfies values()[i].0 == that index.", "quantifier": "every history of API calls, every list position, every node index", "why_tests_cant": "requires the back-pointers to survive every combination of swap_remove, node reuse, rotation and reindex_values", "anchors": ["src/dbvt/mod.rs::values", "src/dbvt/mod.rs::value_index", "src/dbvt/mod.rs::reindex_values", "src/dbvt/mod.rs::remove"]}
{"id": "C03", "title": "Node count is 2n-1", "statement": "size() is 0 when the tree holds no value and exactly 2*n-1 when it holds n>=1 values (every branch has exactly two children and removed nodes are recycled, never leaked).", "quantifier": "every history of API calls", "why_tests_cant": "a leak or double free of a node slot only shows after specific insert/remove interleavings", "anchors": ["src/dbvt/mod.rs::size", "src/dbvt/mod.rs::next_free", "src/dbvt/mod.rs::take_free", "src/dbvt/mod.rs::remove"]}
{"id": "C04", "title": "height() is exact after refitting", "statement": "After do_refit (or tick), height() equals the number of levels of the tree actually stored: 0 for the empty tree, 1 for one value, otherwise one more than the larger of the two subtrees; hence n values fit in at most 2^(height-1) leaves and height <= n.", "quantifier": "every history of API calls followed by do_refit, every RNG outcome", "why_tests_cant": "stale heights are repaired by an order-dependent worklist with random rotations", "anchors": ["src/dbvt/mod.rs::height", "src/dbvt/mod.rs::do_refit", "src/dbvt/mod.rs::recalculate_node"]}
{"id": "C05", "title": "do_refit terminates", "statement": "do_refit always terminates without panicking, whatever the random generator returns, whatever the pending refit marks, and whatever the surface-area comparisons answer (even NaN).", "quantifier": "every reachable tree, every stream of random draws, every scalar comparison outcome", "why_tests_cant": "termination over an unbounded random stream cannot be observed by running", "anchors": ["src/dbvt/mod.rs::do_refit", "src/dbvt/mod.rs::refit_node", "src/dbvt/mod.rs::rotate", "src/dbvt/mod.rs::mark_for_refit"]}
{"id": "C06", "title": "Refitting restores bounding-volume enclosure", "statement": "After do_refit every internal bounding volume equals the union of its two children's volumes, so it encloses the stored (fat) volume of every value below it; this holds no matter which inserts/removes/updates happened before and which rotations were performed.", "quantifier": "every history of API calls followed by do_refit, every RNG outcome, every bound type whose union encloses its arguments", "why_tests_cant": "missed refit marks only show for specific histories, and wrong bounds silently drop query results", "anchors": ["src/dbvt/mod.rs::do_refit", "src/dbvt/mod.rs::mark_for_refit", "src/dbvt/mod.rs::recalculate_node", "src/dbvt/mod.rs::rotate"]}
{"id": "C07", "title": "Query after tick is exact", "statement": "After tick(), query/query_for_indices with a visitor that is monotone (accepts a volume whenever it accepts something enclosed by it) returns each value whose own bound the visitor accepts exactly once, together with the visitor's result on that bound, and nothing else - provided every value whose bound changed was flagged (update_node/flag_updated) and fat bounds enclose bounds (whenever the query returns; C11 is about when it does not).", "quantifier": "every history, every RNG outcome, every monotone stateless visitor, every bound type with enclosing union and sound contains", "why_tests_cant": "completeness must hold for every tree shape and every query", "anchors": ["src/dbvt/mod.rs::query", "src/dbvt/mod.rs::query_for_indices", "src/dbvt/mod.rs::tick", "src/dbvt/mod.rs::update"]}
{"id": "C08", "title": "Queries are sound and duplicate-free at any time", "statement": "Even before refitting, a query only returns values whose own (current, not fat) bound the visitor accepts, paired with the visitor's result, and returns no value index twice.", "quantifier": "every history (also without do_refit), every visitor (also non monotone)", "why_tests_cant": "must hold for every intermediate state", "anchors": ["src/dbvt/mod.rs::query_for_indices", "src/dbvt/mod.rs::query"]}
{"id": "C09", "title": "Removed values are never returned", "statement": "After remove(i) returned a value, i is not bound any more: value_index(i) is None until i is handed out again by insert, the removed entry is not in values(), and no query returns it.", "quantifier": "every history, every node index", "why_tests_cant": "depends on swap_remove index repair", "anchors": ["src/dbvt/mod.rs::remove", "src/dbvt/mod.rs::query"]}
{"id": "C10", "title": "API calls on live indices never panic", "statement": "Starting from new(), no sequence of insert / remove / update_node / flag_updated / update / do_refit / tick / value_index calls that only passes node indices currently bound panics.", "quantifier": "every history using live indices", "why_tests_cant": "panics hide in rare histories (stale lists after clearing the tree)", "anchors": ["src/dbvt/mod.rs::update", "src/dbvt/mod.rs::clear", "src/dbvt/mod.rs::remove", "src/dbvt/mod.rs::flag_updated"]}
{"id": "C11", "title": "Queries never overflow the traversal stack", "statement": "query / query_for_indices does not panic, whatever values the tree holds and however they were inserted.", "quantifier": "every tree reachable from new(), every visitor", "why_tests_cant": "the failing trees need hundreds of values of a particular shape", "anchors": ["src/dbvt/mod.rs::query_for_indices", "src/dbvt/mod.rs::insert"]}
{"id": "C12", "title": "Reordering values is safe after reindex_values", "statement": "After permuting the entries of values_mut() (and possibly replacing values, keeping each node index) and calling reindex_values(), the tree binds every node index to the entry now carrying it, and all structural guarantees (C02, C03) hold again.", "quantifier": "every tree state, every permutation of the values, every replacement of values", "why_tests_cant": "universally quantified over permutations", "anchors": ["src/dbvt/mod.rs::values_mut", "src/dbvt/mod.rs::reindex_values"]}
{"id": "C13", "title": "Rotations are unobservable", "statement": "Two runs of do_refit on the same tree with different random draws yield trees with the same values(), the same node index bindings, the same size() and, for every monotone visitor, the same query results up to order (whenever the query returns; C11 is about when it does not).", "quantifier": "every reachable tree, every pair of random streams, every monotone visitor", "why_tests_cant": "the random choice is not controllable in tests", "anchors": ["src/dbvt/mod.rs::rotate", "src/dbvt/mod.rs::refit_node", "src/dbvt/mod.rs::do_refit"]}
{"id": "C14", "title": "Removing a non-leaf index is a no-op", "statement": "remove(i) where i is in range but not bound to a value returns None and leaves the whole tree unchanged; update_node on such an index changes no value.", "quantifier": "every tree state, every in-range index", "why_tests_cant": "any index", "anchors": ["src/dbvt/mod.rs::remove", "src/dbvt/mod.rs::update_node"]}
{"id": "C15", "title": "query_ray returns exactly the ray hits", "statement": "After tick(), query_ray on a tree of Aabb2/Aabb3-bounded values returns exactly the values whose bound the ray intersects, each once, with the intersection point computed for that bound (whenever the query returns; C11 is about when it does not).", "quantifier": "every history, every ray with positive-length direction, all boxes", "why_tests_cant": "needs monotonicity of ray/box intersection over all boxes", "anchors": ["src/dbvt/util.rs::query_ray", "src/dbvt/visitor.rs::ContinuousVisitor"]}
{"id": "C16", "title": "query_ray_closest returns the closest hit", "statement": "After tick(), query_ray_closest returns Some exactly if some value's bound is hit by the ray, and the value it returns is one whose reported hit is nearest along the ray among all hit values.", "quantifier": "every history, every ray, all boxes", "why_tests_cant": "branch-and-bound pruning mistakes need specific geometry", "anchors": ["src/dbvt/util.rs::query_ray_closest", "src/dbvt/util.rs::RayClosestVisitor"]}
{"id": "C17", "title": "Frustum queries are exact", "statement": "After tick(), a query with FrustumVisitor returns exactly the values whose bound is not classified Out by the frustum, each once with its relation (whenever the query returns; C11 is about when it does not).", "quantifier": "every history, every frustum, all boxes", "why_tests_cant": "needs monotonicity of the plane classification", "anchors": ["src/dbvt/visitor.rs::FrustumVisitor", "src/frustum.rs::Frustum::contains"]}
{"id": "C18", "title": "Rotation actually improves the tree", "statement": "When refitting rotates, the total surface area of the affected children shrinks (the documented purpose of rotation); the rotation step can fire on trees whose stored volumes are up to date.", "quantifier": "every node with up to date volumes", "why_tests_cant": "needs an argument about every tree", "anchors": ["src/dbvt/mod.rs::get_best_rotation", "src/dbvt/mod.rs::rotate"]}
{"id": "C19", "title": "Brute force broad phase is exact", "statement": "BruteForce::find_collider_pairs returns exactly the pairs (i,j), i<j, of positions whose bounds intersect, each once, in lexicographic order.", "quantifier": "every list of shapes, every bound type and intersection test", "why_tests_cant": "all lists", "anchors": ["src/algorithm/broad_phase/brute_force.rs::find_collider_pairs"]}
{"id": "C20", "title": "Sweep and prune is exact", "statement": "SweepAndPrune::find_collider_pairs permutes the shapes (no loss or duplication) and returns, for the permuted list, exactly the pairs (i,j), i<j, whose bounds intersect, each once - for any starting sweep axis and any Variance.", "quantifier": "every list of shapes, every axis, every variance implementation, every bound whose intersection test implies closed overlap along every axis", "why_tests_cant": "all lists and all axis choices", "anchors": ["src/algorithm/broad_phase/sweep_prune.rs::find_collider_pairs"]}
{"id": "C21", "title": "Sweep axis follows the variance", "statement": "After find_collider_pairs on at least two shapes, the next sweep axis is the axis along which the variance of the bound centers is largest (first such axis on ties).", "quantifier": "every list of shapes, 2D and 3D", "why_tests_cant": "the axis is only observable through get_sweep_axis and needs specific data", "anchors": ["src/algorithm/broad_phase/sweep_prune.rs::Variance2::add_bound", "src/algorithm/broad_phase/sweep_prune.rs::Variance3::add_bound", "src/algorithm/broad_phase/sweep_prune.rs::compute_axis"]}
{"id": "C22", "title": "DBVT broad phase is exact for dirty shapes", "statement": "After tick(), DbvtBroadPhase::find_collider_pairs(tree, dirty) returns exactly the pairs (i,j), i<j, of value positions whose bounds intersect and of which at least one is dirty, each once and sorted, provided dirty covers all positions (whenever the query returns; C11 is about when it does not).", "quantifier": "every history, every dirty list, every symmetric monotone intersection test", "why_tests_cant": "all trees and dirty masks", "anchors": ["src/algorithm/broad_phase/dbvt.rs::find_collider_pairs"]}
{"id": "C23", "title": "The broad phases agree", "statement": "On the same shapes the three broad phase algorithms report the same set of colliding shapes (brute force and DBVT with everything dirty: identical lists; sweep and prune: identical up to the permutation it applies).", "quantifier": "every list of box-bounded shapes", "why_tests_cant": "all lists", "anchors": ["src/algorithm/broad_phase/brute_force.rs", "src/algorithm/broad_phase/sweep_prune.rs", "src/algorithm/broad_phase/dbvt.rs"]}
{"id": "C24", "title": "Aabb::new normalises", "statement": "Aabb2/Aabb3::new(p,q) yields min <= max in every coordinate, is independent of the order of p and q, its closed box contains p and q and is the smallest closed box doing so.", "quantifier": "all pairs of points over any totally ordered scalar", "why_tests_cant": "all inputs", "anchors": ["src/volume/aabb/aabb2.rs::new", "src/volume/aabb/aabb3.rs::new", "src/volume/aabb/mod.rs::min", "src/volume/aabb/mod.rs::max"]}
{"id": "C25", "title": "Aabb union and grow are least upper bounds", "statement": "union(a,b) (and grow(a,p)) contains both arguments and is contained in every box containing both; union is commutative, associative and idempotent on normalised boxes.", "quantifier": "all normalised boxes / points", "why_tests_cant": "all inputs", "anchors": ["src/volume/aabb/aabb2.rs::union", "src/volume/aabb/aabb3.rs::union", "src/volume/aabb/mod.rs::grow"]}
{"id": "C26", "title": "Aabb containment is inclusion", "statement": "For normalised boxes contains(box) holds iff every point of the other closed box lies in this closed box; it is reflexive, transitive and antisymmetric; contains(point) is membership in the half-open box; contains(line) requires both ends.", "quantifier": "all normalised boxes and points", "why_tests_cant": "all inputs", "anchors": ["src/volume/aabb/aabb2.rs::contains", "src/volume/aabb/aabb3.rs::contains"]}
{"id": "C27", "title": "Aabb intersection test is exact", "statement": "For boxes with positive extent, intersects holds iff the two open boxes share a point; it is symmetric and monotone under enlarging either box; touching boxes do not intersect.", "quantifier": "all boxes", "why_tests_cant": "all inputs", "anchors": ["src/volume/aabb/aabb2.rs::intersects", "src/volume/aabb/aabb3.rs::intersects"]}
{"id": "C28", "title": "Aabb transform is conservative", "statement": "For every affine transform T and every point p of the closed box, T(p) lies in the closed box returned by transform (and it is the tightest box around the transformed corners).", "quantifier": "all normalised boxes, all affine transforms, all points", "why_tests_cant": "all inputs", "anchors": ["src/volume/aabb/aabb2.rs::transform", "src/volume/aabb/aabb3.rs::transform", "src/volume/aabb/mod.rs::transform_volume"]}
{"id": "C29", "title": "Aabb arithmetic", "statement": "add_margin with a non-negative margin contains the original; add_v translates every point; mul_s/mul_v map the box onto the box of scaled points; center lies in the box midway; volume/surface_area are non-negative and surface_area does not decrease under union.", "quantifier": "all normalised boxes, margins, scalars", "why_tests_cant": "all inputs", "anchors": ["src/volume/aabb/mod.rs::add_v", "src/volume/aabb/mod.rs::mul_s", "src/volume/aabb/mod.rs::mul_v", "src/volume/aabb/mod.rs::center", "src/volume/aabb/mod.rs::volume", "src/volume/aabb/aabb2.rs::add_margin", "src/volume/aabb/aabb3.rs::surface_area"]}
{"id": "C30", "title": "2D ray/box intersection is exact", "statement": "For a ray with non-zero direction and a normalised box of positive extent: intersection returns Some(p) iff the ray meets the box (open in directions the ray is parallel to); p lies on the ray at parameter t >= 0 and on the closed box; if the origin is outside, no earlier ray point is in the box, if it is inside, p is the exit point.", "quantifier": "all rays and boxes", "why_tests_cant": "all inputs, including axis parallel and grazing rays", "anchors": ["src/volume/aabb/aabb2.rs::intersection", "src/volume/aabb/aabb2.rs::intersects"]}
{"id": "C31", "title": "3D ray/box intersection is exact", "statement": "Same as C30 for Aabb3, including axis parallel rays where the code divides by zero and relies on IEEE infinities and NaN-ignoring min/max.", "quantifier": "all rays and boxes", "why_tests_cant": "all inputs, including axis parallel and grazing rays", "anchors": ["src/volume/aabb/aabb3.rs::intersection", "src/volume/aabb/aabb3.rs::intersects"]}
{"id": "C32", "title": "Discrete and continuous tests agree", "statement": "For every (volume, ray) pair of Aabb2, Aabb3, Sphere, Circle, Plane, Line2: intersects(ray) == intersection(ray).is_some().", "quantifier": "all inputs", "why_tests_cant": "two separately maintained implementations must agree on every input", "anchors": ["src/volume/aabb/aabb2.rs", "src/volume/aabb/aabb3.rs", "src/volume/sphere.rs", "src/plane.rs", "src/line.rs", "src/primitive/circle.rs"]}
{"id": "C33", "title": "Sphere containment is inclusion", "statement": "contains(point) is membership in the closed ball; contains(sphere) with non-negative radii holds iff the other ball is a subset; contains(aabb) holds iff the whole closed box is in the ball; Aabb3::contains(sphere) holds iff the ball is in the closed box.", "quantifier": "all spheres, boxes, points", "why_tests_cant": "all inputs", "anchors": ["src/volume/sphere.rs::contains", "src/volume/aabb/aabb3.rs::contains"]}
{"id": "C34", "title": "Sphere union encloses both spheres", "statement": "union of two spheres with non-negative radii contains both and its diameter is not larger than necessary (radius is max of the radii or (r1+r2+d)/2).", "quantifier": "all pairs of spheres", "why_tests_cant": "all inputs", "anchors": ["src/volume/sphere.rs::union"]}
{"id": "C35", "title": "Sphere/box union encloses both", "statement": "Sphere::union(aabb) contains the sphere and the box; Aabb3::union(sphere) contains the box and the sphere.", "quantifier": "all spheres and normalised boxes", "why_tests_cant": "all inputs", "anchors": ["src/volume/sphere.rs::union<Aabb3>", "src/volume/aabb/aabb3.rs::union<Sphere>"]}
{"id": "C36", "title": "Sphere/sphere intersection is exact", "statement": "For non-negative radii intersects holds iff the closed balls share a point; symmetric; monotone under containment.", "quantifier": "all spheres", "why_tests_cant": "all inputs", "anchors": ["src/volume/sphere.rs::intersects"]}
{"id": "C37", "title": "Ray/sphere intersection is the first hit", "statement": "For a unit direction, intersection returns Some(p) iff the ray meets the sphere, and p is the first point of the ray on the sphere surface.", "quantifier": "all rays, all spheres (bounding sphere, sphere primitive, circle)", "why_tests_cant": "all inputs, including origins inside the sphere", "anchors": ["src/volume/sphere.rs::intersection", "src/primitive/sphere.rs", "src/primitive/circle.rs"]}
{"id": "C38", "title": "Plane constructors satisfy the documented plane equation", "statement": "from_point_normal and from_points return planes on which the given points satisfy A*x+B*y+C*z-D=0; normalize returns a plane with unit normal describing the same set; from_points returns None exactly for collinear points.", "quantifier": "all points and normals", "why_tests_cant": "all inputs", "anchors": ["src/plane.rs::from_points", "src/plane.rs::from_point_normal", "src/plane.rs::normalize"]}
{"id": "C39", "title": "Ray/plane intersection lies on ray and plane", "statement": "If the ray is not parallel to the plane, intersection returns Some(p) iff the ray meets the plane A*x+B*y+C*z-D=0, and p is on both.", "quantifier": "all rays and planes", "why_tests_cant": "all inputs", "anchors": ["src/plane.rs::intersection"]}
{"id": "C40", "title": "Two- and three-plane intersections", "statement": "The ray returned for two planes lies in both planes; the point returned for three planes lies in all three; None is returned exactly when normals are dependent.", "quantifier": "all planes", "why_tests_cant": "all inputs", "anchors": ["src/plane.rs::intersection<Plane>", "src/plane.rs::intersection<(Plane,Plane)>"]}
{"id": "C41", "title": "Frustum classification is conservative and correct", "statement": "Frustum::contains(bound) is Out only if some plane has the whole bound strictly outside, In only if every point of the bound is strictly inside all six planes, otherwise Cross - for points, boxes and (unit normals) spheres; enlarging the bound never turns Cross/In into Out.", "quantifier": "all frusta, all bounds", "why_tests_cant": "all inputs", "anchors": ["src/frustum.rs::contains", "src/bound.rs::relate_plane", "src/volume/sphere.rs::relate_plane", "src/volume/aabb/aabb3.rs::relate_plane"]}
{"id": "C42", "title": "from_matrix4 matches clip space", "statement": "For any projection matrix from which a frustum can be extracted, a point is classified by the frustum exactly as its clip coordinates say: In iff |x|,|y|,|z|<w, Out iff some |.|>w; hence Point3::relate_clip_space and Frustum::contains agree.", "quantifier": "all 4x4 matrices, all points", "why_tests_cant": "all inputs", "anchors": ["src/frustum.rs::from_matrix4", "src/bound.rs::relate_clip_space"]}
{"id": "C43", "title": "Ortho frustum matches the orthographic box", "statement": "Ortho{left,right,bottom,top,near,far}.to_frustum() classifies a point as In iff left<x<right, bottom<y<top and -far<z<-near.", "quantifier": "all ortho parameters, all points", "why_tests_cant": "all inputs", "anchors": ["src/frustum.rs::to_frustum"]}
{"id": "C44", "title": "2D ray/segment intersection is exact", "statement": "For a non-zero direction, Ray2.intersection(Line2) returns Some(p) iff the ray meets the closed segment; p is on both, and for collinear overlap it is the first common point.", "quantifier": "all rays and segments", "why_tests_cant": "parallel/collinear corner cases over all inputs", "anchors": ["src/line.rs::intersection"]}
{"id": "C45", "title": "Point/ray test", "statement": "For a unit direction a point intersects the ray iff it is on the ray strictly ahead of the origin.", "quantifier": "all points and rays, 2D and 3D", "why_tests_cant": "all inputs", "anchors": ["src/ray.rs::intersects"]}
{"id": "C46", "title": "Support points are extreme", "statement": "For every primitive, support_point(d, T) with a rigid (or positively scaled) transform lies on the transformed shape and no point of the transformed shape is further along d.", "quantifier": "all primitives' parameters, all directions, all similarity transforms", "why_tests_cant": "all inputs", "anchors": ["src/primitive/util.rs::get_max_point", "src/primitive/circle.rs", "src/primitive/sphere.rs", "src/primitive/rectangle.rs", "src/primitive/cuboid.rs", "src/primitive/quad.rs", "src/primitive/line.rs", "src/primitive/capsule.rs", "src/primitive/cylinder.rs", "src/primitive/polygon.rs", "src/primitive/polyhedron.rs"]}
{"id": "C47", "title": "Computed boxes enclose the primitive", "statement": "compute_bound to Aabb2/Aabb3 of every primitive contains every point of the primitive.", "quantifier": "all primitives", "why_tests_cant": "all inputs", "anchors": ["src/primitive/*.rs::compute_bound", "src/primitive/util.rs::get_bound"]}
{"id": "C48", "title": "Computed bounding spheres enclose the primitive", "statement": "compute_bound to Sphere of every 3D primitive contains every point of the primitive.", "quantifier": "all primitives", "why_tests_cant": "all inputs", "anchors": ["src/primitive/cuboid.rs::compute_bound", "src/primitive/quad.rs::compute_bound", "src/primitive/capsule.rs::compute_bound", "src/primitive/cylinder.rs::compute_bound", "src/primitive/polyhedron.rs::compute_bound"]}
{"id": "C49", "title": "Convex polygon ray test sees every edge", "statement": "ConvexPolygon.intersection(ray) for a convex counter-clockwise polygon and a ray starting outside returns Some iff the ray meets the polygon, at the entry point.", "quantifier": "all convex polygons, all rays", "why_tests_cant": "a skipped edge needs a ray through that edge", "anchors": ["src/primitive/polygon.rs::intersection", "src/primitive/polygon.rs::intersects"]}
{"id": "C50", "title": "Large convex polygon support", "statement": "ConvexPolygon::support_point gives a vertex of maximal dot product also for polygons with ten or more vertices (hill climbing).", "quantifier": "all convex polygons, all directions", "why_tests_cant": "all inputs", "anchors": ["src/primitive/polygon.rs::support_point"]}
{"id": "C51", "title": "Polyhedron vertex deduplication preserves faces", "statement": "new_with_faces_dedup describes the same triangles as its input: face k's vertices have the same positions as the input face k, and no two stored vertices are equal.", "quantifier": "all vertex/face lists with in-range indices", "why_tests_cant": "all inputs", "anchors": ["src/primitive/polyhedron.rs::dedup_vertices", "src/primitive/polyhedron.rs::dedup_faces"]}
{"id": "C52", "title": "GJK reports no collision only if separated", "statement": "If GJK::intersect returns None before exhausting its iterations, a hyperplane (weakly) separates the two shapes: some direction d has x.d <= y.d for all points x of left and y of right; in particular shapes whose interiors overlap are never reported separate that way.", "quantifier": "all pairs of convex shapes with correct support functions, 2D and 3D", "why_tests_cant": "all inputs", "anchors": ["src/algorithm/minkowski/gjk/mod.rs::intersect"]}
{"id": "C53", "title": "GJK reports a collision only if the shapes meet", "statement": "If GJK2::intersect returns a simplex, the simplex consists of Minkowski difference support points and encloses the origin, so the shapes share a point.", "quantifier": "all pairs of convex shapes", "why_tests_cant": "all inputs, degenerate simplices", "anchors": ["src/algorithm/minkowski/gjk/mod.rs::intersect", "src/algorithm/minkowski/gjk/simplex/simplex2d.rs", "src/algorithm/minkowski/gjk/simplex/simplex3d.rs"]}
{"id": "C54", "title": "GJK distance is correct up to tolerance", "statement": "If GJK::distance returns Some(d), d is attained by a pair of points of the two (convex) shapes, and no pair of points is closer than d - tolerance/d.", "quantifier": "all pairs of convex shapes", "why_tests_cant": "all inputs", "anchors": ["src/algorithm/minkowski/gjk/mod.rs::distance", "src/primitive/util.rs::get_closest_point_on_edge"]}
{"id": "C55", "title": "EPA normal and depth separate the shapes", "statement": "If EPA terminates by tolerance with normal n and depth p, then n is a unit vector and translating the shapes apart by (p + tolerance) along n separates them.", "quantifier": "all pairs of convex shapes, all enclosing simplices", "why_tests_cant": "all inputs", "anchors": ["src/algorithm/minkowski/epa/epa2d.rs::process", "src/algorithm/minkowski/epa/epa3d.rs::process"]}
{"id": "C56", "title": "Complex shapes: extremal pair", "statement": "intersection_complex in FullResolution mode returns a contact of maximal penetration depth among all colliding primitive pairs and None iff no pair collides; in CollisionOnly mode Some iff some pair collides; distance_complex returns the minimum pair distance and None iff some pair collides or there is no pair; time-of-impact returns an earliest contact.", "quantifier": "all finite shape lists, all pairwise results", "why_tests_cant": "all lists", "anchors": ["src/algorithm/minkowski/gjk/mod.rs::intersection_complex", "src/algorithm/minkowski/gjk/mod.rs::distance_complex", "src/algorithm/minkowski/gjk/mod.rs::intersection_complex_time_of_impact"]}
{"id": "C57", "title": "Particle movement test is segment clipping", "statement": "For any shape with a ray test, (Particle, start..end) intersects iff the ray from start towards end hits at a point not beyond end; intersection returns that point.", "quantifier": "all shapes, all segments of positive length", "why_tests_cant": "all inputs", "anchors": ["src/primitive/particle.rs"]}
{"id": "C58", "title": "Interpolation endpoints", "statement": "interpolate(other,0) gives self and interpolate(other,1) gives other for displacement, scale and quaternion rotation, and interpolates affinely in between; translation_interpolate takes rotation and scale from other.", "quantifier": "all transforms, all amounts", "why_tests_cant": "all inputs", "anchors": ["src/traits.rs::interpolate"]}
{"id": "C59", "title": "TreeValueWrapped fat bound encloses the bound", "statement": "For a non-negative margin the fat bound of a TreeValueWrapped contains its bound (boxes and spheres); without margin they are equal, so wrapped values satisfy the DBVT contract of C07. The fat bound is exactly the bound grown by the margin: on each side of a box by the margin of that axis, for a sphere by the largest component.", "quantifier": "all bounds and margins", "why_tests_cant": "all inputs", "anchors": ["src/dbvt/wrapped.rs", "src/traits.rs::with_margin"]}
{"id": "C60", "title": "Transformed ray tests work in world space", "statement": "intersects_transformed/intersection_transformed with an invertible transform report a hit exactly when the untransformed ray meets the transformed shape, and return the world-space point.", "quantifier": "all shapes with ray tests, all invertible affine transforms", "why_tests_cant": "all inputs", "anchors": ["src/ray.rs::intersects_transformed", "src/ray.rs::intersection_transformed"]}
{"id": "C61", "title": "Rays against box-like primitives", "statement": "For rectangle, square, cuboid, cube and quad primitives a discrete ray test reports true exactly when the ray (a half-line from its origin, in object space) meets the point set of the shape (a ray parallel to a face has to run strictly inside of that face's plane), and the continuous test returns the point of the shape at the smallest ray parameter (the boundary point where the ray leaves when the origin is inside, as documented by the Aabb test).", "quantifier": "all dimensions and all rays with non-zero direction", "why_tests_cant": "all inputs", "anchors": ["src/primitive/rectangle.rs", "src/primitive/cuboid.rs", "src/primitive/quad.rs"]}
{"id": "C62", "title": "Convex polyhedra with faces: construction and support", "statement": "For every convex polyhedron given by vertices and consistently oriented triangles forming a closed surface, new_with_faces succeeds, the face iterator yields exactly the given triangles in order, and support_point (hill climb over the half-edge structure) terminates without panic and returns a point of the transformed solid that is furthest in the given direction.", "quantifier": "all convex closed triangle meshes of any size, all similarity transforms, all directions", "why_tests_cant": "termination and global optimality of a local search over all meshes and directions", "anchors": ["src/primitive/polyhedron.rs::build_half_edges", "src/primitive/polyhedron.rs::hill_climb_support_point", "src/primitive/polyhedron.rs::faces_iter"]}
{"id": "C63", "title": "Convex polyhedra with faces: rays", "statement": "For every convex polyhedron with faces the ray tests terminate without panic; a reported point is the first point of the solid on the ray; if the ray origin is outside the solid and the ray meets the solid, a hit is reported; rays starting inside report none.", "quantifier": "all convex closed triangle meshes of any size, all rays", "why_tests_cant": "the face walk must reach the entry face for every mesh, numbering and ray", "anchors": ["src/primitive/polyhedron.rs::find_intersecting_face", "src/primitive/polyhedron.rs::next_face_classify", "src/primitive/util.rs::barycentric_point"]}
{"id": "C64", "title": "Ray tests answer for every polyhedron", "statement": "intersects and intersection with a ray return (do not panic) for every ConvexPolyhedron that a constructor returned, with or without faces.", "quantifier": "all constructed polyhedra, all rays", "why_tests_cant": "all inputs", "anchors": ["src/primitive/polyhedron.rs::new", "src/primitive/polyhedron.rs::find_intersecting_face"]}
{"id": "C65", "title": "GJK in 2D terminates with the exact answer on polygons", "statement": "For two polygonal shapes with m and n vertices GJK2::intersect never runs out of iterations if it may do m*n+3 of them (the default 100 suffices for primitives with up to nine vertices each); Some is then returned only if the shapes share a point, None only if a line separates them.", "quantifier": "all pairs of convex shapes with finitely many support points, all transforms", "why_tests_cant": "termination for all inputs, degenerate configurations included", "anchors": ["src/algorithm/minkowski/gjk/mod.rs::intersect", "src/algorithm/minkowski/gjk/simplex/simplex2d.rs::reduce_to_closest_feature"]}
{"id": "C66", "title": "Time of impact never comes after the first contact", "statement": "If intersection_time_of_impact returns None the two shapes, translated along their paths, do not meet at any time in [0,1]; if it returns a contact, its time is in [0,1] the shapes do not meet at any earlier time, and at that time the two shapes have points as far apart as the reported depth, which is at most the square root of the tolerance.", "quantifier": "all convex shapes, all translations with relative motion, and relative rest of shapes with vertices (of round shapes: C93)", "why_tests_cant": "all inputs and all times", "anchors": ["src/algorithm/minkowski/gjk/mod.rs::intersection_time_of_impact"]}
{"id": "C67", "title": "The wrapper enums behave as the wrapped shape", "statement": "For every variant of Primitive2 and Primitive3 the support point through the enum is a point of the transformed shape farthest in the direction, and the computed box encloses the shape.", "quantifier": "all variants (polygons: fewer than ten vertices; larger ones are C50), all sizes, all directions other than zero, all similarity transforms", "why_tests_cant": "all inputs", "anchors": ["src/primitive/primitive2.rs", "src/primitive/primitive3.rs"]}
{"id": "C68", "title": "GJK distance returns None only for shapes that touch", "statement": "GJK::distance returns None only if the shapes share a point (documented: 'Will return None if the shapes collide').", "quantifier": "all pairs of convex shapes", "why_tests_cant": "all inputs; FALSE in the code (the convergence test reads the first simplex point, not the closest one)", "anchors": ["src/algorithm/minkowski/gjk/mod.rs::distance"]}
{"id": "C69", "title": "The contact point of a time-of-impact query lies on the shapes", "statement": "The contact point returned by intersection_time_of_impact is (up to the tolerance) a point of both shapes at the time of impact.", "quantifier": "all convex shapes, all translations", "why_tests_cant": "all inputs; FALSE in the code (the ray origin, a relative displacement, is transformed as if it were a point of the right shape)", "anchors": ["src/algorithm/minkowski/gjk/mod.rs::intersection_time_of_impact"]}
{"id": "C70", "title": "The EPA depth is the penetration depth", "statement": "The penetration depth returned by the full-resolution intersection query is, up to the tolerance, the length of the shortest translation of the right shape that separates the shapes: no translation of length at most the depth separates them.", "quantifier": "all pairs of overlapping convex shapes", "why_tests_cant": "all inputs; FALSE in the code (EPA skips polygon edges whose line passes through the origin, and reports a farther edge)", "anchors": ["src/algorithm/minkowski/epa/epa2d.rs::closest_edge", "src/algorithm/minkowski/epa/epa2d.rs::process", "src/algorithm/minkowski/gjk/mod.rs::intersection"]}
{"id": "C71", "title": "A capsule's discrete ray test is exact", "statement": "For a ray of unit direction that starts outside a capsule, `intersects` answers true iff some point of the ray is in the capsule; answers of true are right for every start.", "quantifier": "all capsules, all rays of unit direction", "why_tests_cant": "infinitely many rays, with separate cases for the side, two end balls, tangent and axis-parallel rays", "anchors": ["src/primitive/capsule.rs: Discrete<Ray3>", "src/primitive/util.rs: cylinder_ray_quadratic_solve"]}
{"id": "C72", "title": "A capsule's continuous ray test returns the first point", "statement": "For a ray of unit direction that starts outside a capsule, `intersection` returns the first point of the capsule on the ray, and None iff there is none.", "quantifier": "all capsules, all rays of unit direction starting outside", "why_tests_cant": "infinitely many rays", "anchors": ["src/primitive/capsule.rs: Continuous<Ray3>"]}
{"id": "C73", "title": "A cylinder's discrete ray test is exact", "statement": "For a ray that starts outside a cylinder, `intersects` answers true iff some point of the ray is in the cylinder.", "quantifier": "all cylinders, all rays starting outside", "why_tests_cant": "infinitely many rays, entering by the side or by either end", "anchors": ["src/primitive/cylinder.rs: Discrete<Ray3>"]}
{"id": "C74", "title": "A cylinder's continuous ray test returns the first point", "statement": "For a ray that starts outside a cylinder, `intersection` returns the first point of the cylinder on the ray, and None iff there is none.", "quantifier": "all cylinders, all rays starting outside", "why_tests_cant": "infinitely many rays", "anchors": ["src/primitive/cylinder.rs: Continuous<Ray3>"]}
{"id": "C75", "title": "Ray tests through the wrapper enums, with a placement", "statement": "For every primitive in every rigid placement and every ray of unit direction that starts outside it, intersects_transformed and intersection_transformed of Primitive2/Primitive3 do not panic, agree with each other, and the point returned is the first point of the placed primitive on the ray.", "quantifier": "all primitives of the enums, all rotations and translations, all rays of unit direction starting outside", "why_tests_cant": "all inputs; composition of dispatch, inverse transform, local test and forward transform", "anchors": ["src/primitive/primitive2.rs", "src/primitive/primitive3.rs", "src/ray.rs"]}
{"id": "C76", "title": "Interpolated rotations are rotations", "statement": "Interpolating between two rotations gives a rotation (a length-preserving map) for every amount between 0 and 1, for quaternion rotations and for 2D rotations.", "quantifier": "all pairs of rotations, all amounts in 0..1", "why_tests_cant": "all inputs", "anchors": ["src/traits.rs::interpolate"]}
{"id": "C77", "title": "Classifying a bound against a projection matrix", "statement": "Relating a box, sphere or point to the clip space of a projection matrix answers In only if every point of it is strictly inside the clip volume, and Out only if all of it is strictly beyond one and the same of the six sides. Whenever a frustum can be extracted from the matrix both answers are also given whenever they apply; otherwise the answer is Cross. For points the answer is exact for every matrix.", "quantifier": "all matrices, all boxes, spheres and points", "why_tests_cant": "all inputs", "anchors": ["src/bound.rs::relate_clip_space", "src/frustum.rs::from_matrix4"]}
{"id": "C78", "title": "The empty volume is neutral for union", "statement": "The volume returned by Bound::empty contains nothing a user did not put there: the union of it with any volume is that volume.", "quantifier": "all boxes and spheres", "why_tests_cant": "all inputs", "anchors": ["src/traits.rs::Bound::empty", "src/volume/aabb/mod.rs::empty", "src/volume/sphere.rs::empty"]}
{"id": "C79", "title": "The 3D penetration depth is exact", "statement": "When the 3D intersection test reports a simplex, the full-resolution query answers with a contact (no panic, no NaN) whose normal is a unit vector and whose depth is the penetration depth: no translation of the right shape of length at most the depth separates the shapes, and (when the expansion ended by its tolerance test) the translation along the normal by depth plus tolerance does. For shapes with vertices the tolerance test always ends the expansion if the number of pairs of vertices is at most max_iterations + 3 (so always for two boxes).", "quantifier": "all pairs of overlapping convex 3D shapes, all transforms, all iteration limits and tolerances", "why_tests_cant": "all inputs; the horizon of the expanding polytope must be right at every step", "anchors": ["src/algorithm/minkowski/epa/epa3d.rs::process", "src/algorithm/minkowski/epa/epa3d.rs::Polytope::add", "src/algorithm/minkowski/epa/epa3d.rs::remove_or_add_edge", "src/algorithm/minkowski/gjk/simplex/simplex3d.rs::reduce_to_closest_feature"]}
{"id": "C80", "title": "The contact point is a contact point", "statement": "The contact point of a full-resolution intersection query lies in the left shape, and the right shape has a point exactly `penetration_depth` behind it along the normal, at least when the point nearest to the origin on the boundary of the Minkowski difference is not shared by several parts of it.", "quantifier": "all pairs of overlapping convex shapes, all transforms, all tolerances and iteration limits", "why_tests_cant": "all inputs; FALSE in 3D (the point can be outside of both shapes when the closest side of the Minkowski difference is split into several triangles)", "anchors": ["src/algorithm/minkowski/epa/epa2d.rs::point", "src/algorithm/minkowski/epa/epa3d.rs::point", "src/algorithm/minkowski/epa/epa3d.rs::closest_face_to_origin"]}
{"id": "C81", "title": "Box and point results do not depend on rounding", "statement": "Box-against-box and point queries of the tree, the tree's collision pairs, sweep and prune and brute force on boxes are exact whatever the floating-point operations return: coordinates are only compared, so no rounding of areas, margins or variances can add or lose a result, as long as the fat bound of each value contains its bound (which for add_margin needs only x - m <= x <= x + m).", "quantifier": "all linear orders of coordinates (the finite floats are one), all functions computing areas, differences, quotients and variances, all histories", "why_tests_cant": "all inputs and all rounding behaviours", "anchors": ["src/dbvt/mod.rs::query", "src/dbvt/mod.rs::rotate", "src/algorithm/broad_phase/dbvt.rs::find_collider_pairs", "src/algorithm/broad_phase/sweep_prune.rs::find_collider_pairs", "src/volume/aabb/aabb2.rs::union", "src/volume/aabb/aabb3.rs::contains"]}
{"id": "C82", "title": "Interpolation between two turns about one axis stays between them", "statement": "Between two rotations about the same axis, in the same sense and by at most half a turn, the component along itself of the image of any vector across the axis stays between its values under the two rotations: interpolating between a small and a large turn never gives a smaller turn than the small one or a larger one than the large one.", "quantifier": "all axes, all pairs of angles, all vectors across the axis, all amounts in [0,1]", "why_tests_cant": "all rotations and amounts; a conversion that changes branch shows only past a third of a turn", "anchors": ["src/traits.rs::Interpolate for Quaternion", "src/traits.rs::Interpolate for Basis3"]}
{"id": "C83", "title": "GJK in 3D decides about polyhedra", "statement": "For two polyhedral shapes GJK3::intersect decides after a number of iterations that depends only on the numbers m and n of their vertices ((mn)^3+(mn)^2+2): given that many it never runs out of iterations, so overlapping shapes are not missed for lack of iterations, and a larger limit never changes the answer.", "quantifier": "all pairs of shapes with finitely many support points, all transforms, all iteration limits", "why_tests_cant": "termination for all inputs; the configurations in which the search goes round in a circle are rare (about one random pair of boxes in ten million)", "anchors": ["src/algorithm/minkowski/gjk/mod.rs::intersect", "src/algorithm/minkowski/gjk/simplex/simplex3d.rs::reduce_to_closest_feature", "src/algorithm/minkowski/gjk/simplex/simplex3d.rs::check_side"]}
{"id": "C84", "title": "GJK::distance does not panic", "statement": "GJK::distance returns, with Some distance or None, for every two shapes in every placement: no assertion fails and nothing is unwrapped that is not there, whatever sequence of simplices the search goes through.", "quantifier": "all pairs of primitives, all placements, all tolerances and iteration limits", "why_tests_cant": "all configurations and search histories; degenerate simplices arise only for particular shapes", "anchors": ["src/algorithm/minkowski/gjk/mod.rs::distance", "src/algorithm/minkowski/gjk/simplex/simplex3d.rs::get_closest_point_to_origin", "src/algorithm/minkowski/gjk/simplex/simplex3d.rs::get_closest_point_on_face", "src/algorithm/minkowski/gjk/simplex/simplex2d.rs::get_closest_point_to_origin"]}
{"id": "C85", "title": "Time of impact returns", "statement": "GJK::intersection_time_of_impact, whose loop has no bound on its iterations, returns for every two shapes and all movements, without a panic; for shapes with m and n vertices in 2D after at most (mn)^4+3(mn)^2+2 iterations; for curved shapes in 2D after a number of iterations bounded by the extent of the shapes, the movement and the tolerance.", "quantifier": "all pairs of shapes, all start and end placements, all tolerances", "why_tests_cant": "termination of an unbounded loop for all inputs; the configurations that hang are rare (about one pair of boxes in fifty thousand)", "anchors": ["src/algorithm/minkowski/gjk/mod.rs::intersection_time_of_impact", "src/algorithm/minkowski/gjk/simplex/simplex3d.rs::get_closest_point_to_origin", "src/algorithm/minkowski/gjk/simplex/simplex2d.rs::get_closest_point_to_origin"]}
{"id": "C86", "title": "Full resolution answers whenever the collision test does", "statement": "GJK::intersection with CollisionStrategy::FullResolution returns a contact exactly when it does with CollisionOnly: once GJK has found a simplex EPA never panics and never returns None, whatever the positions of the sides of the simplex relative to the origin; in 2D, for shapes with vertices, the full-resolution answer is therefore Some only if the shapes meet and None only if a line separates them.", "quantifier": "all pairs of primitives, all placements, all positive tolerances, all iteration limits; in 3D all runs in which no support point of a sphere or capsule is NaN", "why_tests_cant": "EPA indexes vectors, asserts that a closest edge exists and unwraps an option; that none of these can fail must hold for every simplex GJK can return, degenerate ones included", "anchors": ["src/algorithm/minkowski/gjk/mod.rs::intersection", "src/algorithm/minkowski/epa/epa2d.rs::process", "src/algorithm/minkowski/epa/epa2d.rs::closest_edge", "src/algorithm/minkowski/epa/epa3d.rs::process"]}
{"id": "C87", "title": "Two circles or two spheres collide exactly when their centres are closer than the radii together", "statement": "For two circles (2D) with at least two iterations and two spheres (3D) with at least three, GJK::intersection reports a collision exactly when the distance of the centres is smaller than the sum of the scaled radii (touching does not count); with full resolution the contact has a unit normal and a depth of at most the sum of the radii less the distance of the centres, and short of it by less than the tolerance when the expansion ends by the tolerance test.", "quantifier": "all radii, all placements by rotation, non-zero scale and translation, all iteration limits, all tolerances", "why_tests_cant": "the answer depends on real-valued positions and radii; the tests use a handful of placements, and the case in which the 3D run breaks (centres offset along the x axis) is one direction out of a continuum", "anchors": ["src/algorithm/minkowski/gjk/mod.rs::intersect", "src/algorithm/minkowski/gjk/simplex/simplex3d.rs::reduce_to_closest_feature", "src/algorithm/minkowski/epa/epa3d.rs::process", "src/primitive/circle.rs::support_point", "src/primitive/sphere.rs::support_point"]}
{"id": "C88", "title": "Moving both shapes together changes nothing", "statement": "If the placements of both shapes are moved by the same vector, the collision test gives the same answer, full resolution the same normal and depth with the contact point moved by that vector, the distance query the same distance, and the time of impact the same time and normal with the contact point moved by that vector; panics and exhausted iteration limits included.", "quantifier": "all pairs of library primitives in 2D and 3D, all placements, all translation vectors, all tolerances and iteration limits", "why_tests_cant": "a relation between two runs at arbitrary positions; tests compare single runs with literals", "anchors": ["src/algorithm/minkowski/gjk/mod.rs::intersection", "src/algorithm/minkowski/gjk/mod.rs::distance", "src/algorithm/minkowski/gjk/mod.rs::intersection_time_of_impact", "src/algorithm/minkowski/epa/epa2d.rs::process", "src/algorithm/minkowski/epa/epa3d.rs::process"]}
{"id": "C89", "title": "Exchanging the two shapes mirrors the answer", "statement": "Asking about (B, A) instead of (A, B): the collision test gives the same answer, full resolution the opposite normal and the same depth, the distance query the same distance, and the time of impact the same time and depth with the opposite normal.", "quantifier": "all pairs of library primitives, all placements, all tolerances and iteration limits", "why_tests_cant": "a relation between two runs at arbitrary placements; the one order in which a pair of overlapping cubes is missed is not among the tests", "anchors": ["src/algorithm/minkowski/gjk/mod.rs::intersection", "src/algorithm/minkowski/gjk/mod.rs::distance", "src/algorithm/minkowski/gjk/mod.rs::intersection_time_of_impact", "src/algorithm/minkowski/gjk/simplex/simplex2d.rs::reduce_to_closest_feature", "src/algorithm/minkowski/gjk/simplex/simplex3d.rs::reduce_to_closest_feature", "src/algorithm/minkowski/epa/epa2d.rs::process"]}
{"id": "C90", "title": "Broad phase plus narrow phase find the colliding pairs of a scene", "statement": "Boxes computed from the primitives and their placements, handed to any broad phase (brute force, sweep and prune, tree), followed by the collision test on each reported pair: the run ends without panic, each reported pair of items has a common point, no pair is reported twice, and a pair that is not reported is apart or just touches.", "quantifier": "all finite scenes of primitives with sizes as the constructors make them and all placements with a rotation and non-zero scale, all axes and variances, all tree histories and random streams, both strategies", "why_tests_cant": "it composes bounds, trees and GJK over scenes of any size; a test sees one scene", "anchors": ["src/primitive/primitive2.rs::compute_bound", "src/volume/aabb/aabb2.rs::transform_volume", "src/algorithm/broad_phase/brute_force.rs::find_collider_pairs", "src/algorithm/broad_phase/sweep_prune.rs::find_collider_pairs", "src/algorithm/broad_phase/dbvt.rs::find_collider_pairs", "src/algorithm/minkowski/gjk/mod.rs::intersection"]}
{"id": "C91", "title": "Enough iterations: an overlap that is not too thin is always found in 2D", "statement": "If two convex shapes still share a point after any relative move of length at most r, and no two of their points are farther than m apart, the collision test finds the collision within 2 + pi / arcsin(r/m) iterations (rounded up). With the library's limit of 100 iterations every overlap with m <= 31 r is found, whatever the shapes (circles included).", "quantifier": "all convex 2D shapes with correct support functions, all placements, all r, m and iteration limits that meet the inequality", "why_tests_cant": "the number of iterations depends on the shapes and placement; curved shapes have infinitely many support points, so no test list bounds it", "anchors": ["src/algorithm/minkowski/gjk/mod.rs::intersect", "src/algorithm/minkowski/gjk/mod.rs::MAX_ITERATIONS", "src/algorithm/minkowski/gjk/simplex/simplex2d.rs::reduce_to_closest_feature"]}
{"id": "C92", "title": "Enough iterations: full resolution in 2D reaches its tolerance", "statement": "For every tolerance there is a number of iterations, depending only on the tolerance and on the largest distance between points of the two shapes, after which full resolution has met its tolerance test, so that the reported depth is the penetration depth up to the tolerance.", "quantifier": "all convex 2D shapes with correct support functions, all tolerances and placements", "why_tests_cant": "with curved shapes there is always another support point; a test shows one run ending", "anchors": ["src/algorithm/minkowski/epa/epa2d.rs::process", "src/algorithm/minkowski/epa/epa2d.rs::closest_edge", "src/algorithm/minkowski/gjk/mod.rs::intersection"]}
{"id": "C93", "title": "Time of impact of shapes at relative rest", "statement": "For two shapes whose movements are the same, intersection_time_of_impact returns None only if the shapes have no point in common, and else a contact at time 0 whose depth is the distance of two points of the shapes, at most the square root of the tolerance.", "quantifier": "all pairs of shapes, all placements, all common movements, all tolerances", "why_tests_cant": "all shapes and placements; the tests move one of the shapes", "anchors": ["src/algorithm/minkowski/gjk/mod.rs::intersection_time_of_impact", "src/primitive/circle.rs::support_point"]}
{"id": "C94", "title": "Surface areas are areas", "statement": "surface_area of a box, with which the tree decides where to insert and when to rotate: cutting a box in two by an axis-aligned plane adds exactly twice the area of the cut (2D: cuts the area in two), scaling by k scales it by k squared, a unit cube has 6. Of a sphere: scaling by k scales it by k squared, the unit sphere has 4 pi. A volume contained in another one has no greater area, also a sphere in a box and a box in a sphere.", "quantifier": "all boxes and spheres, all cuts, all factors", "why_tests_cant": "all volumes; the comparison between kinds needs an inequality", "anchors": ["src/volume/aabb/aabb2.rs::surface_area", "src/volume/aabb/aabb3.rs::surface_area", "src/volume/sphere.rs::surface_area"]}
{"id": "C95", "title": "The distance of two circles or two spheres is exact", "statement": "For two circles (2D) or two spheres (3D) in any placement, or one of them and a particle, GJK::distance returns None exactly when they touch or overlap, and otherwise Some of the distance of the centres less the two radii, whatever the positive tolerance and the positive limit on iterations.", "quantifier": "all radii (not both zero), placements, tolerances, iteration limits", "why_tests_cant": "all placements and radii; the search runs on support points that are different for each", "anchors": ["src/algorithm/minkowski/gjk/mod.rs::distance", "src/primitive/circle.rs", "src/primitive/sphere.rs"]}
{"id": "C96", "title": "Results do not depend on the frame or the units (2D)", "statement": "Turning, scaling and moving both placements of a 2D scene by the same similarity does not change the collision answer; the contact of the full resolution has the turned normal, the scaled depth and the moved point (EPA tolerance scaled like a length); the distance scales (tolerance scaled by the square); the time of impact is the same, its normal turned, its depth scaled (tolerance scaled by the square).", "quantifier": "all pairs of 2D primitives, placements, similarities, tolerances, iteration limits", "why_tests_cant": "relates two runs for every scene and every similarity", "anchors": ["src/algorithm/minkowski/gjk/mod.rs", "src/algorithm/minkowski/epa/epa2d.rs", "src/algorithm/minkowski/gjk/simplex/simplex2d.rs"]}
{"id": "C97", "title": "The frustum of a perspective projection is the visible pyramid", "statement": "For left<right, bottom<top, 0<near<far, Perspective::to_frustum does not panic and classifies a point as In exactly if the eye at the origin sees it through the open window at distance near and within distance far, Out exactly if it is not even on the rim; a box or sphere is In exactly if all of it is seen and Out only if nothing of it is seen. The same for PerspectiveFov with its opening angle and aspect for all parameters cgmath accepts. With near = 0 the conversion panics.", "quantifier": "all projections, points, boxes and spheres", "why_tests_cant": "all inputs; angles are real numbers", "anchors": ["src/frustum.rs::to_frustum<Perspective>", "src/frustum.rs::to_frustum<PerspectiveFov>", "src/frustum.rs::from_matrix4", "src/frustum.rs::contains"]}
{"id": "C98", "title": "Culling with a camera loses nothing that is seen", "statement": "A DynamicBoundingVolumeTree of boxes or spheres, after any history that ends with the pending updates done and of at most 256 levels, queried with a FrustumVisitor for the frustum of a Perspective or PerspectiveFov, returns every value of whose bound a point is seen, no value more often than it is stored, none with relation Out, and marks In exactly those returned values whose bound is seen entirely.", "quantifier": "all histories, all projections, all boxes or spheres", "why_tests_cant": "all histories and all cameras", "anchors": ["src/dbvt/visitor.rs::FrustumVisitor", "src/dbvt/mod.rs::query", "src/frustum.rs::to_frustum"]}
{"id": "C99", "title": "Ray and frustum queries of the tree do not depend on rounding", "statement": "With every arithmetic operation of the ray/box and box/plane tests rounded by any monotone rounding (overflow to infinity included), a ray query (query_ray, discrete) or frustum query of an up-to-date tree of boxes returns exactly what the same rounded test gives on the box of each value taken alone: a branch volume is never rejected when a box inside it is accepted. A box is classified In or Out against a plane exactly if all its representable points are. In 2D, if the differences between box and ray origin are representable, no box the ray really meets is missed.", "quantifier": "all monotone roundings, all number formats, all histories, all rays (3D rays with a zero component: f64 with infinities and NaN, boxes that are not flat) and frusta", "why_tests_cant": "all rounding behaviour and all trees", "anchors": ["src/volume/aabb/aabb2.rs::intersection", "src/volume/aabb/aabb3.rs::intersection", "src/volume/aabb/aabb3.rs::relate_plane", "src/dbvt/mod.rs::query", "src/dbvt/visitor.rs"]}
{"id": "C100", "title": "Picking through the tree finds the first shape on the ray", "statement": "If the values of a DynamicBoundingVolumeTree are placed primitives with their world boxes as bounds, running the primitives' intersection_transformed on the candidates of query_ray and keeping the nearest point gives the first point of the whole scene on the ray: the answer is a value of the tree with the first point of its primitive on the ray, no other primitive is met earlier, going through all values without the tree finds nothing nearer, and no answer means no primitive is met.", "quantifier": "all histories of tree calls, all scenes of placed primitives, all rays of unit direction that start outside the primitives", "why_tests_cant": "all scenes, trees and rays", "anchors": ["src/dbvt/util.rs::query_ray", "src/primitive/primitive2.rs::intersection_transformed", "src/primitive/primitive3.rs::intersection_transformed", "src/primitive/primitive2.rs::compute_bound"]}
{"id": "C101", "title": "Broad phase on swept bounds plus time of impact find the impacts of a moving scene", "statement": "With the union of the world boxes at the start and the end of the movement as bounds, and intersection_time_of_impact run on the pairs of any of the three broad phases: every pair of primitives that overlap at some time of the step is reported, with a time of impact not later than that; a reported pair has no common point before its time of impact, and at that time it has two points no farther apart than the tolerance; no pair is reported twice.", "quantifier": "all scenes of primitives that glide without turning, all tolerances, all three broad phases", "why_tests_cant": "all scenes and all times between start and end", "anchors": ["src/algorithm/minkowski/gjk/mod.rs::intersection_time_of_impact", "src/algorithm/broad_phase", "src/volume/aabb/aabb2.rs::union", "src/volume/aabb/aabb2.rs::transform_volume"]}
{"id": "C102", "title": "A shape with NaN coordinates does not hide other shapes from the broad phase", "statement": "If one of the shapes handed to a broad phase has NaN among the coordinates of its bound, the pairs of the other shapes are still found, and after the broken shape is removed or given proper coordinates all pairs are found again.", "quantifier": "all lists of 2D and 3D boxes whose coordinates are numbers or NaN, all three broad phases, all histories of the tree", "why_tests_cant": "all placements of NaN and all histories; whether a NaN spoils a result depends on the order of the shapes and the shape of the tree", "anchors": ["src/volume/aabb/mod.rs::min", "src/volume/aabb/mod.rs::max", "src/algorithm/broad_phase/sweep_prune.rs::find_collider_pairs", "src/algorithm/broad_phase/brute_force.rs", "src/dbvt/mod.rs", "src/algorithm/broad_phase/dbvt.rs"]}
{"id": "C103", "title": "Trees of spheres in f64 lose no hits", "statement": "In a tree whose bounds are spheres with f64 coordinates, after inserts, disciplined updates and a tick, a query with a sphere reports every stored value whose own bound, tested directly with the same rounded arithmetic, intersects the query sphere.", "quantifier": "every history, every tree, every query sphere, with round-to-nearest binary64 arithmetic", "why_tests_cant": "rounding makes the union of two spheres slightly too small only for particular ratios of coordinates and radii; a sample of well-scaled spheres never shows it", "anchors": ["src/volume/sphere.rs: Union for Sphere::union, Contains<Sphere>::contains, Discrete::intersects", "src/dbvt/mod.rs: DynamicBoundingVolumeTree::query", "src/dbvt/visitor.rs: DiscreteVisitor"]}
{"id": "C104", "title": "Answers do not depend on the unit of length", "statement": "A scene and the same scene in another unit of length get the same answer: small shapes that are apart are not reported as colliding, small shapes that overlap are, three points that are not in line have a plane, a mesh of proper triangles can be built, and whether a ray hits a point depends on directions only. In particular the comparisons with zero up to the machine epsilon inside the algorithms have no visible effect.", "quantifier": "all convex shapes, placements, iteration limits and all positive machine epsilons", "why_tests_cant": "the comparisons are with vectors of the second or third degree in the lengths of the scene; tests with shapes of size about 1 never meet the tolerance", "anchors": ["src/algorithm/minkowski/gjk/mod.rs::intersect", "src/algorithm/minkowski/gjk/simplex/simplex2d.rs::reduce_to_closest_feature", "src/algorithm/minkowski/gjk/simplex/simplex3d.rs::reduce_to_closest_feature", "src/plane.rs::from_points", "src/primitive/polyhedron.rs::new_with_faces", "src/ray.rs: Discrete<Ray> for points"]}
{"id": "C105", "title": "On grid coordinates the collision test in f64 is exact", "statement": "For shapes with vertices whose coordinates and displacements are multiples of one power of two, at most 724 of them, turned by quarter turns, the collision test in f64 arithmetic gives exactly the answer, and exactly the simplex, that the same algorithm gives in exact arithmetic: no rounding, no overflow and no comparison with the machine epsilon has a visible effect. In 2D a hit is therefore a common point and a miss a separating line; in 3D a hit is a common point, and the exact answer's misses of overlapping shapes occur in f64 too.", "quantifier": "all pairs of 2D particles, lines, rectangles, squares, polygons and of 3D particles, quads, cuboids, cubes, polyhedra without faces; all placements on a grid of size 2^e, -17 <= e <= 242; all iteration limits (3D), the default limit (2D)", "why_tests_cant": "the bound on the coordinates is what keeps products of the third degree exact; a sample of coordinates says nothing about the largest ones", "anchors": ["src/algorithm/minkowski/gjk/mod.rs: GJK::intersect", "src/algorithm/minkowski/gjk/simplex/simplex2d.rs: reduce_to_closest_feature", "src/algorithm/minkowski/gjk/simplex/simplex3d.rs: reduce_to_closest_feature, check_side, cross_aba", "src/primitive/util.rs: get_max_point", "src/primitive/*.rs: SupportFunction / Primitive::support_point"]}
{"id": "C106", "title": "A miss of the 2D collision test in f64 is right up to rounding", "statement": "When the 2D collision test in f64 arithmetic ends because a support point does not pass the origin (it reports that the shapes do not intersect, with iterations left), then there is a direction in which the two shapes overlap by at most 1536 * 2^-53 times the size of the coordinates. In particular shapes that overlap by more than that in every direction are never reported as apart in this way. The test never panics.", "quantifier": "all pairs of particles, lines, rectangles, squares and polygons of at most nine vertices, with any coordinates that are f64 numbers of at most M (1 <= M <= 2^249) and multiples of 2^-170; all transforms without scaling, with any f64 rotation matrix of entries of at most 1 (not only exact rotations) and any displacement; all iteration limits", "why_tests_cant": "rounding errors depend on every bit of the coordinates; directions that are nearly zero, nearly parallel edges and underflow have to be excluded for all of them", "anchors": ["src/algorithm/minkowski/gjk/mod.rs: GJK::intersect", "src/algorithm/minkowski/gjk/simplex/simplex2d.rs: reduce_to_closest_feature", "src/primitive/util.rs: get_max_point, triple_product", "src/algorithm/minkowski/mod.rs: SupportPoint::from_minkowski", "src/primitive/line.rs, rectangle.rs, polygon.rs, particle.rs: support_point"]}
{"id": "C107", "title": "A hit of the 2D collision test in f64 is right up to rounding", "statement": "When the 2D collision test in f64 arithmetic reports an intersection, the two shapes intersect, or are at most a small multiple of 2^-53 times the size of the coordinates apart; the three returned support points are differences of points of the shapes, up to rounding.", "quantifier": "all pairs of particles, lines, rectangles, squares and polygons with f64 coordinates; all transforms without scaling; all iteration limits", "why_tests_cant": "the false hits need simplices that are thin to about the square root of the machine epsilon and a first direction across them; random scenes practically never have them", "anchors": ["src/algorithm/minkowski/gjk/mod.rs: GJK::intersect", "src/algorithm/minkowski/gjk/simplex/simplex2d.rs: reduce_to_closest_feature", "src/primitive/util.rs: triple_product"]}
{"id": "C108", "title": "Bounds and pairs of a 2D scene in f64 are right up to rounding", "statement": "The bound of a placed shape, computed in f64 (compute_bound, then transform_volume), differs from the exact bound in no coordinate by more than 10 * 2^-53 times the size of the coordinates. So the bounds of two shapes that overlap by more than rounding intersect, and every broad phase (brute force, sweep and prune, the bounding volume tree) reports the pair; the collision test in f64 then keeps it, unless it uses up its 100 iterations on it. A pair that is kept has exact bounds that meet up to rounding. Nothing panics.", "quantifier": "all lists of particles, lines, rectangles, squares and polygons of at most nine vertices, with any coordinates that are f64 numbers of at most M (1 <= M <= 2^249) and multiples of 2^-170 and any f64 rotation matrices of entries of at most 1; all sweep axes, variances (also NaN), margins, surface areas (also NaN) and random streams; trees of at most 256 values", "why_tests_cant": "the error of the transform depends on every bit of the coordinates; a bound that is too small by one bit loses a pair only for shapes that touch in that bit", "anchors": ["src/primitive/util.rs: get_bound", "src/primitive/line.rs, rectangle.rs, polygon.rs, particle.rs: compute_bound", "src/volume/aabb/aabb2.rs: transform, Discrete::intersects", "src/algorithm/broad_phase/", "src/algorithm/minkowski/gjk/mod.rs: GJK::intersect"]}
{"id": "C109", "title": "Culling with planes and frusta in f64 is right up to rounding", "statement": "The relation of a point, a box or a sphere to a plane, and of a box to the planes of a frustum, computed in f64: In is returned only if the bound is on the inner side up to rounding, Out only if it is on the outer side of one plane up to rounding, and a bound that is inside (or outside) by more than the rounding error gets that answer. A culling query of the bounding volume tree in f64 therefore returns every value whose box is on the inner side of all planes by at least that error, and no value whose box, enlarged as the tree enlarges it, is outside one of them by more than it.", "quantifier": "all lists of planes with f64 coefficients of entries of at most 1 and boxes and spheres of f64 coordinates of at most M (1 <= M <= 2^249); all histories of trees; the error is 10 * 2^-53 * M", "why_tests_cant": "the rounding errors of the dot products depend on all inputs; tests use small integers, for which they are zero", "anchors": ["src/plane.rs", "src/frustum.rs: contains", "src/volume/aabb/aabb3.rs: relate_plane", "src/volume/sphere.rs: relate_plane", "src/dbvt/visitor.rs: FrustumVisitor"]}
{"id": "C110", "title": "Ray tests against boxes in f64 are right up to rounding", "statement": "A hit of a ray on a box reported in f64 is a hit on the box enlarged by a small multiple of 2^-53 times the size of the coordinates; a ray that passes through the box shrunk by as much is reported; Discrete and Continuous agree; the returned point is within the same distance of the point where the exact ray enters the box (where it leaves it, for rays that start inside). A ray query on a tree in f64 therefore returns every value through whose shrunk box the ray passes, and nothing else than values whose enlarged box it meets.", "quantifier": "all boxes and origins with f64 coordinates of at most M (1 <= M <= 2^249; in 3D boxes that are not flat), all directions with components of at most 2 that are zero or at least 2^-500, not all zero (in 3D the code computes with infinities and NaN along the zero components); all trees of at most 256 boxes with any margin; the error is 10 * 2^-53 * M", "why_tests_cant": "the rounded slab parameters depend on all inputs; near edges and for flat angles any sampled tolerance may be exceeded elsewhere", "anchors": ["src/volume/aabb/aabb2.rs: Continuous, Discrete for Ray2", "src/volume/aabb/aabb3.rs: Continuous, Discrete for Ray3", "src/dbvt/util.rs: query_ray"]}
{"id": "C111", "title": "The closest ray query in f64 is right up to rounding", "statement": "query_ray_closest, computed in f64 on a tree that is refitted and up to date, with a ray that starts outside of a box around all (fat) volumes handed to the tree, or at least in no branch volume: if it returns nothing, the ray passes through no stored box shrunk by the rounding error; if it returns a value, the value is stored, the returned point is within the rounding error of a point of the ray in its box enlarged by the error, and no stored box is passed, shrunk by the error, earlier by more than the error of the distances.", "quantifier": "all histories of the tree, all boxes with f64 coordinates of at most M (1 <= M <= 2^249; in 3D not flat), all rays from f64 origins of at most M with direction components of at most 2 that are zero or at least 2^-500; the errors are 10 * 2^-53 * M for points and 512 * 2^-53 * M for distances times the squared length of the direction", "why_tests_cant": "pruning compares rounded distances of enclosing boxes with those of leaves; whether it may prune the right value depends on the roundings of all boxes on the path", "anchors": ["src/dbvt/util.rs: query_ray_closest, RayClosestVisitor", "src/volume/aabb/aabb2.rs: Continuous for Ray2", "src/volume/aabb/aabb3.rs: Continuous for Ray3"]}
{"id": "C112", "title": "No volume of the tree reaches beyond what it was given", "statement": "Every leaf of the tree stores the fat volume of a value that was handed to the tree by insert, update_node or values_mut; after do_refit or tick, whatever holds of all these fat volumes and is kept by union (such as lying within a given box) holds of every volume stored in the tree. Hence query_ray_closest answers with the nearest hit for every ray that starts outside of a box around all fat volumes.", "quantifier": "all histories of API calls, all bound types and values, all predicates closed under union; all rays from outside", "why_tests_cant": "the volumes are rewritten by insertions, removals, rotations and refits in every order; a test sees a few trees", "anchors": ["src/dbvt/mod.rs: insert, remove, update, do_refit, refit_node, rotate", "src/dbvt/util.rs: query_ray_closest"]}
{"id": "C113", "title": "Bounds and pairs of a 3D scene in f64 are right up to rounding", "statement": "The bound of a placed solid, computed in f64 (compute_bound, then transform_volume), differs from the exact bound in no coordinate by more than 15 * 2^-53 times the size of the coordinates. So the bounds of two solids that overlap by more than rounding intersect, and every broad phase (brute force, sweep and prune, the bounding volume tree) hands the pair on; the 3D collision test in f64 then keeps it, unless it uses up its 100 iterations on it. A pair that is kept has exact bounds that meet up to rounding. Nothing panics.", "quantifier": "all lists of particles, quads, cuboids, cubes and convex polyhedra made from vertices, with any coordinates that are f64 numbers of at most M (1 <= M <= 2^247) and multiples of 2^-170 and any f64 rotation matrices of entries of at most 1; all sweep axes, variances (also NaN), margins, surface areas (also NaN) and random streams; trees of at most 256 values", "why_tests_cant": "the error of the transform depends on every bit of the coordinates; a bound that is too small by one bit loses a pair only for solids that touch in that bit", "anchors": ["src/primitive/quad.rs, cuboid.rs, polyhedron.rs, particle.rs: compute_bound", "src/volume/aabb/aabb3.rs: transform, Discrete::intersects", "src/algorithm/broad_phase/", "src/algorithm/minkowski/gjk/mod.rs: GJK::intersect"]}
{"id": "C114", "title": "A miss of the 3D collision test in f64 is right up to rounding", "statement": "When the 3D collision test in f64 arithmetic ends because a support point does not pass the origin (it reports that the solids do not intersect, with iterations left), then there is a direction in which the two solids overlap by at most 3072 * 2^-53 times the size of the coordinates. In particular solids that overlap by more than that in every direction are never reported as apart in this way. A hit is four points, each within rounding of a difference of points of the two solids. The test never panics.", "quantifier": "all pairs of particles, quads, cuboids, cubes and convex polyhedra made from vertices, with any coordinates that are f64 numbers of at most M (1 <= M <= 2^247) and multiples of 2^-170; all transforms without scaling, with any f64 rotation matrix of entries of at most 1 (not only exact rotations) and any displacement; all iteration limits", "why_tests_cant": "rounding errors depend on every bit of the coordinates; nearly flat tetrahedra, cancelling cross products and underflow have to be excluded for all of them", "anchors": ["src/algorithm/minkowski/gjk/mod.rs: GJK::intersect", "src/algorithm/minkowski/gjk/simplex/simplex3d.rs: reduce_to_closest_feature, check_side", "src/primitive/util.rs: get_max_point", "src/algorithm/minkowski/mod.rs: SupportPoint::from_minkowski", "src/primitive/quad.rs, cuboid.rs, polyhedron.rs, particle.rs: support_point"]}
{"id": "C115", "title": "A miss of the collision test in f32 or f64 is right up to rounding, or the test asked for a subnormal direction", "statement": "When the 2D or 3D collision test in f32 or f64 arithmetic reports that two primitives do not intersect, with iterations left, then there is a direction in which they overlap by at most 1536 u M (2D; 3D: 3072 u M), with u = 2^-24 for f32 and 2^-53 for f64 and M the size of the coordinates; or the test asked for a support point in a direction each of whose components is smaller than MIN_POSITIVE (2^-126, 2^-1022). A hit is three (3D: four) points each within rounding of a difference of points of the two primitives. The test never panics. In 2D the exception cannot occur in f32 when the coordinates are multiples of 2^-21.", "quantifier": "all pairs of particles, rectangles, squares, convex polygons, quads, cuboids, cubes and convex polyhedra made from vertices, with any coordinates that are numbers of the format of at most M (1 <= M; f32: M <= 2^25 in 2D, 2^23 in 3D; f64: 2^249, 2^247), however small; all transforms without scaling, with any rotation matrix of the format with entries of at most 1 and any displacement; all iteration limits", "why_tests_cant": "rounding and underflow depend on every bit of the coordinates; tests cannot show that underflow of a search direction is the only thing that goes wrong", "anchors": ["src/algorithm/minkowski/gjk/mod.rs: GJK::intersect", "src/algorithm/minkowski/gjk/simplex/: reduce_to_closest_feature", "src/algorithm/minkowski/mod.rs: SupportPoint::from_minkowski", "src/primitive/util.rs: get_max_point"]}
{"id": "C116", "title": "Bounds and pairs of a scene in f32 are right up to rounding, in 2D and 3D", "statement": "The bound of a placed primitive, computed in f32 (or any IEEE format), differs from the exact bound in no coordinate by more than 10 u M (2D; 3D: 15 u M). So the bounds of two primitives that overlap by more than rounding intersect, and every broad phase (brute force, sweep and prune, the bounding volume tree) hands the pair on; the collision test then keeps it, unless it uses up its 100 iterations on it or asks for a support point in a direction each of whose components is smaller than MIN_POSITIVE. No pair is reported twice; a pair that is kept has exact bounds that meet up to rounding. Nothing panics.", "quantifier": "all lists of primitives and transforms as in C115, however small the coordinates; all sweep axes, variances (also NaN), margins, surface areas (also NaN) and random streams; trees of at most 256 values", "why_tests_cant": "the error of the transform depends on every bit of the coordinates; a bound that is too small by one bit loses a pair only for primitives that touch in that bit", "anchors": ["src/primitive/: compute_bound", "src/volume/aabb/: transform, Discrete::intersects", "src/algorithm/broad_phase/", "src/dbvt/", "src/algorithm/minkowski/gjk/mod.rs: GJK::intersect"]}
{"id": "C117", "title": "The collision test of any two primitives, round ones too, is right up to rounding in f32 and f64, or it asked for a support point in a very short direction", "statement": "The 2D or 3D collision test of any two primitives in f32 or f64 arithmetic, circles, spheres, capsules and cylinders included, does not panic; when it reports a miss there is a direction in which the primitives overlap by at most 1024 u M (2D; 3D: 2048 u M), with u = 2^-24 for f32 and 2^-53 for f64 and M the size of the coordinates; a hit is three (3D: four) points each within rounding of a difference of points of the two primitives. The only exception: the test asks for a support point in a direction all of whose components are below 2^-61 (f32) or 2^-509 (f64), or, for a cylinder, whose components across its axis are below that and not both zero. Primitives whose positions differ and that are clearly apart along the line from position to position are reported as a miss and meet no exception (3D: neither a cylinder).", "quantifier": "all pairs of 2D primitives, and of 3D primitives except polyhedra with faces, whose coordinates and radii are numbers of the format (f32: coordinates and diameters of at most M <= 4096; f64: at most M <= 2^161), however small; all transforms without scaling with a matrix of the format with entries of at most 1 (for circles, spheres and capsules: within 1/64 of a rotation) and any displacement; all signs of zeros; all iteration limits", "why_tests_cant": "the direction is normalized before it picks a point of a round primitive, so the point depends on rounding in a square root, a division and a product; the error must be bounded for every bit pattern", "anchors": ["src/algorithm/minkowski/gjk/mod.rs: GJK::intersect", "src/primitive/circle.rs: Circle::support_point", "src/primitive/sphere.rs: Sphere::support_point", "src/primitive/capsule.rs: Capsule::support_point", "src/primitive/cylinder.rs: Cylinder::support_point"]}
{"id": "C118", "title": "Scenes of any primitives, round ones too: bounds and pairs are right up to rounding in f32 and f64", "statement": "The bound of a placed primitive, circles, spheres, capsules and cylinders included, computed in f32 or f64 differs from the exact bound in no coordinate by more than 10 u M (2D; 3D: 18 u M). So every broad phase (brute force, sweep and prune, the bounding volume tree) hands on each pair of primitives that overlap by more than 20 u M (3D: 36 u M) in every direction, no pair twice, and only pairs whose exact bounds meet up to rounding; the collision test then keeps each pair that overlaps by more than 1024 u M (3D: 2048 u M), unless it uses up its 100 iterations on it or asks for a support point in a very short direction as in C117. Nothing panics.", "quantifier": "all lists of primitives and transforms as in C117; all sweep axes, variances (also NaN), margins, surface areas (also NaN) and random streams; trees of at most 256 values; all signs of zeros", "why_tests_cant": "the error of a bound depends on every bit of the coordinates, radii and rotation; a bound too small by one bit loses a pair only for primitives that touch in that bit", "anchors": ["src/primitive/: compute_bound", "src/volume/aabb/: transform_volume, Discrete::intersects", "src/algorithm/broad_phase/", "src/dbvt/", "src/algorithm/minkowski/gjk/mod.rs: GJK::intersect"]}
{"id": "C119", "title": "Trees of spheres in f32 and f64 lose and invent hits only by rounding", "statement": "In a tree whose bounds are spheres with f32 or f64 coordinates and radii up to M (with or without margins), after inserts, removes, disciplined updates and a tick, a query with a sphere returns, and reports every stored value whose sphere overlaps the query sphere by 2500 n² u M or more, where n is the height of the tree and u the unit roundoff; it reports no value whose sphere is further from the query sphere than 60 u M, and no value twice.", "quantifier": "every history, every tree up to height 256 (f32: 100), every query sphere, every M from 2^-400 to 2^400 (f32: 2^-36 to 2^40), all surface areas and random streams, with round-to-nearest arithmetic and underflow", "why_tests_cant": "C103 fails because the union of two spheres can be rounded too small; how much is lost depends on the errors of all unions above a value, in a tree whose shape depends on the whole history", "anchors": ["src/volume/sphere.rs: Union for Sphere::union, Contains<Sphere>::contains, Discrete::intersects, Bound::with_margin", "src/dbvt/mod.rs: DynamicBoundingVolumeTree::query", "src/dbvt/wrapped.rs: TreeValueWrapped", "src/dbvt/visitor.rs: DiscreteVisitor"]}
{"id": "C120", "title": "Queries on trees in f32: exact with respect to the tests, and right up to rounding", "statement": "On a tree of boxes with f32 coordinates, ray queries, box queries and culling queries return exactly the values whose own box passes the test computed in f32, also for rays with zero direction components (for boxes that are not flat). Compared with exact arithmetic: a ray that passes through a box shrunk by 10 * 2^-24 * M is reported, a reported one meets the box enlarged by as much and the returned point is as close to where the exact ray enters it (leaves it, from inside); a box inside all planes of a frustum by that error is returned by a culling query, one outside a plane by more is not, and In means inside up to that error.", "quantifier": "all trees of at most 256 boxes with f32 coordinates of at most M (1 <= M <= 2^60) with any margin, all histories (for the exact part), all planes with entries of at most 1, all rays with direction components of at most 2 that are zero or at least 2^-60", "why_tests_cant": "the roundings depend on all inputs, and pruning on the boxes of all branches", "anchors": ["src/volume/aabb/aabb2.rs: Continuous, Discrete for Ray2", "src/volume/aabb/aabb3.rs: Continuous, Discrete for Ray3, relate_plane", "src/frustum.rs: contains", "src/dbvt/mod.rs: query", "src/dbvt/visitor.rs: ContinuousVisitor, DiscreteVisitor, FrustumVisitor"]}
{"id": "C121", "title": "The closest ray query in f32 is right up to rounding", "statement": "query_ray_closest, computed in f32 on a tree that is refitted and up to date, with a ray that starts outside of a box around all (fat) volumes handed to the tree, or at least in no branch volume: if it returns nothing, the ray passes through no stored box shrunk by 10 * 2^-24 * M; if it returns a value, the value is stored, the returned point is within that error of a point of the ray in its box enlarged by the error, and no stored box is passed, shrunk by the error, earlier by more than 512 * 2^-24 * M in distance times the squared length of the direction.", "quantifier": "all histories of the tree, all boxes with f32 coordinates of at most M (1 <= M <= 2^60; in 3D not flat), all rays from f32 origins of at most M with direction components of at most 2 that are zero or at least 2^-60", "why_tests_cant": "pruning compares rounded distances of enclosing boxes with those of leaves; whether it may prune the right value depends on the roundings of all boxes on the path", "anchors": ["src/dbvt/util.rs: query_ray_closest, RayClosestVisitor", "src/volume/aabb/aabb2.rs: Continuous for Ray2", "src/volume/aabb/aabb3.rs: Continuous for Ray3"]}
{"id": "C122", "title": "Rays against spheres and circles in f32 and f64: right up to rounding of the scene", "statement": "In f32 and f64, for bounding spheres, sphere primitives and circles with coordinates, radius and ray origin of at most N and a ray direction of length 1 up to rounding (squared length within 8 unit roundoffs u of 1): the discrete and the continuous test agree; a hit is reported only if some point of the ray has a squared distance of at most r^2 + 1300 u N^2 from the centre; a ray that starts outside and has a point with a squared distance of at most r^2 - 1300 u N^2 is reported; the returned point is finite and within 120 u N (per coordinate) of a point of the ray whose squared distance from the centre is r^2 up to 1700 u N^2, which is not behind the origin if the origin is outside by more than rounding, and before which the ray is outside up to 2000 u N^2. The errors are relative to the size of the scene: in f32 a ray aimed at the centre of a sphere of radius 1 that is 8192 away can be reported as a miss.", "quantifier": "all spheres and circles of representable centre and radius, all rays of representable origin and direction of length 1 up to rounding, for scene sizes 2^-400..2^500 (f64) and 2^-36..2^59 (f32)", "why_tests_cant": "d2 is a difference of two rounded squares; cancellation depends on every bit of origin, direction and centre, and a grid of test rays says nothing of the worst case", "anchors": ["src/volume/sphere.rs: Continuous<Ray3>, Discrete<Ray3> for Sphere", "src/primitive/sphere.rs: Continuous<Ray3>, Discrete<Ray3>", "src/primitive/circle.rs: Continuous<Ray2>, Discrete<Ray2>"]}
{"id": "C123", "title": "Culling queries on trees of spheres lose nothing visible but by rounding", "statement": "In f32 and f64, on a tree of bounding spheres (with any margins) of height n that is refitted and up to date, all spheres given to it having coordinates and radii of at most M, a query with a frustum whose planes have normals of length 1 up to rounding returns every stored value whose sphere has a point inside all planes by 2500 n^2 u M, u being the unit roundoff, although the spheres of branches need not enclose what is below them in rounded arithmetic. What is returned for a value fits its own sphere up to 80 u M: never Out, with In all of its points are inside all planes, otherwise some point is inside each plane; a sphere inside all planes by more than that is In. No value is returned twice.", "quantifier": "all histories of the tree, all spheres and planes of representable numbers, any number of planes, scene sizes 2^-400..2^400 (f64) and 2^-36..2^40 (f32), heights up to 256 (f64) and 100 (f32)", "why_tests_cant": "rounding errors of nested unions accumulate over the levels of the tree and meet those of the plane test; only a bound over all trees shows what a query may lose", "anchors": ["src/dbvt/visitor.rs: FrustumVisitor", "src/frustum.rs: Frustum::contains", "src/volume/sphere.rs: PlaneBound, Union, SurfaceArea, with_margin"]}
{"id": "C124", "title": "Ray queries on trees of spheres lose nothing in front but by rounding; behind a branch centre they lose values", "statement": "In f32 and f64, on a tree of bounding spheres (with any margins) of height n that is refitted and up to date, all spheres given to it having coordinates and radii of at most M and centres in front of the origin of the ray by 5500 n^2 u M (u the unit roundoff), query_ray, and a query with the discrete ray test, return every stored value for which the ray has a point whose squared distance from the centre is less than the square of the radius by 80000 n^2 u M^2; query_ray returns it with the point that the test of its own sphere gives. No value is returned twice, and each one only if the ray comes within rounding of its sphere, with a point that is on the ray and on the sphere up to rounding (C122). The condition on the centres is needed: for spheres of radius 1 at 0 and at 10, a ray that starts at 8 towards the second sphere starts beyond the centre of the enclosing sphere of the branch, and query_ray returns nothing although the sphere's own test reports a hit; without rounding as well.", "quantifier": "all histories of the tree, all spheres and rays of representable numbers with direction of length 1 up to rounding, scene sizes 2^-400..2^400 (f64) and 2^-36..2^40 (f32), heights up to 256 (f64) and 100 (f32)", "why_tests_cant": "whether a ray passes the test of every branch above a value depends on the shape of the tree, which depends on the whole history, and on rounding in every union on the path", "anchors": ["src/dbvt/util.rs: query_ray", "src/dbvt/visitor.rs: ContinuousVisitor, DiscreteVisitor", "src/volume/sphere.rs: Continuous<Ray3>, Discrete<Ray3>, Union"]}
{"id": "C125", "title": "Frustum planes taken from a matrix in rounded arithmetic cull correctly up to rounding, unless a plane is shorter than the machine epsilon", "statement": "In f32 and f64, Frustum::from_matrix4 of a matrix none of whose six sums and differences of rows has a normal shorter than twice the machine epsilon returns six planes with normals of length 1 up to 8u and signed distances within 10u(|p|+|d|) of those of the exact clip planes. relate_clip_space of a box of size M, with clip planes at most W from the origin, then says Out only if the box is outside one exact clip plane, and In only if it is inside all of them, up to 10u(5M+W), and says so whenever it is true by more. A culling query on a refitted, up-to-date tree of spheres of height n with these planes returns every value whose sphere has a point inside all exact clip planes by 2600 n^2 u M, and classifies what it returns up to 130 u M. A culling query on a refitted, up-to-date tree of boxes of height at most 256 reached by any history (in particular one built by inserting at most 256 boxes) returns every value with a point of its box inside all exact clip planes, never one outside one of them, and In exactly for boxes inside all of them, all up to 10u(5M+W). When a row sum or difference has a normal whose components are all at most the machine epsilon, from_matrix4 returns None and relate_clip_space says Cross of every bound; so multiplying a projection matrix by a small positive number, which does not change the clip volume, changes the answer.", "quantifier": "all matrices of representable numbers with entries up to 2^400 (f64) and 2^50 (f32), all boxes, all histories of the tree, all scene sizes 2^-400..2^400 (f64) and 2^-36..2^40 (f32)", "why_tests_cant": "the error of a plane depends on the rounding of all entries of the matrix and of a reciprocal square root; tests compare a few planes with a tolerance", "anchors": ["src/frustum.rs: Frustum::from_matrix4, Frustum::contains", "src/plane.rs: Plane::from_vector4_alt, Plane::normalize", "src/bound.rs: PlaneBound::relate_clip_space", "src/dbvt/visitor.rs: FrustumVisitor"]}
{"id": "C126", "title": "GJK distance answers are correct up to rounding in f32 and f64 (2D)", "statement": "In f32 and f64, for two polygons (of at most nine vertices, containing the origin of their own frame), rectangles, squares, segments or particles with transforms without scaling and all coordinates of size at most M, GJK2::distance does not panic, and if it answers Some(d) then d > 0, there are points of the two shapes at most d + 2^-43 M (f64) or d + 2^-14 M (f32) apart, and no pair of points is nearer than d - (tolerance + 2^-37 M^2)/d (f64) or d - (tolerance + 2^-8 M^2)/d (f32).", "quantifier": "all pairs of such shapes and transforms with representable coordinates, M up to 2^249 (f64) and 2^25 (f32), all tolerances >= 0, all iteration limits", "why_tests_cant": "the answer depends on the rounding of every step of the search, on the cancellation in the closest point of an edge, and on the infinities and NaN that a degenerate edge produces", "anchors": ["src/algorithm/minkowski/gjk/mod.rs: GJK::distance", "src/primitive/util.rs: get_closest_point_on_edge", "src/algorithm/minkowski/gjk/simplex/simplex2d.rs: get_closest_point_to_origin"]}
{"id": "C127", "title": "Ray/plane tests are correct up to rounding in f32 and f64", "statement": "In f32 and f64, for a plane n·p + d = 0 and a ray that is not nearly parallel to it (|direction·n| at least 64 times the unit roundoff u) and meets it at parameter t (of either sign), with normal and direction of about unit length and all other numbers of size at most M: Discrete and Continuous agree; a reported point q satisfies |n·q + d| <= 40u(M+|t|) and each coordinate is within e = 40u(M+|t|)/|direction·n| of the exact point origin + t*direction; a point is reported only when t >= -e, and the ray is reported as missing only when t < e. For a ray exactly parallel to the plane (exact arithmetic with infinities and NaN) no finite point is reported; a ray in the plane is missed by Discrete and reported by Continuous, and a parallel ray outside of the plane is reported exactly on one side of it.", "quantifier": "all planes and rays with representable coefficients, M and |t| in the given ranges of the format", "why_tests_cant": "the answer depends on the rounding of every operation; the error bound has to hold for all values", "anchors": ["src/plane.rs: Continuous<Ray3>", "src/plane.rs: Discrete<Ray3>"]}
{"id": "C128", "title": "Intersections of two and of three planes are correct up to rounding in f32 and f64", "statement": "In f32 and f64, for planes n·p = d with normals of about unit length and distances of size at most M: Discrete and Continuous agree; three planes are reported as not meeting in a point only when |n1·(n2×n3)| is at most 42u, and a reported point is within 64u(M+S)/|n1·(n2×n3)| of the exact common point in each coordinate (S bounds the coordinates of that point; |n1·(n2×n3)| at least 640u). Two planes are reported as parallel only when |n1×n2|^2 is at most 130u; otherwise the direction of the returned line is within 6u of n1×n2 in each coordinate, and its origin is within 162u(M+S)/|n1×n2|^2 of the exact common point nearest to the origin (|n1×n2|^2 at least 2048u).", "quantifier": "all planes with representable coefficients, M and S in the given ranges of the format", "why_tests_cant": "the answer depends on the rounding of every operation; the error bound has to hold for all values", "anchors": ["src/plane.rs: Continuous<Plane>", "src/plane.rs: Discrete<Plane>", "src/plane.rs: Continuous<(Plane, Plane)>", "src/plane.rs: Discrete<(Plane, Plane)>"]}
{"id": "C129", "title": "2D ray/segment tests are correct up to rounding in f32 and f64", "statement": "In f32 and f64, for a ray and a segment with coordinates of size at most M, direction of about unit length, whose lines meet at ray parameter t and segment parameter v (0 at the origin of the segment, 1 at its end) with |direction x (dest - origin)| at least 256uM: with e = uM(M+|t|)/|direction x (dest - origin)| and f = uM(1+|v|)/|direction x (dest - origin)|, a reported point is within 80e of the exact common point in each coordinate and only reported if t >= -60e and -30f <= v <= 1+30f; it is reported whenever t >= 60e and 30f <= v <= 1-30f; the discrete test agrees. When the rounded cross product of direction and segment is zero (a ray taken for parallel): nothing is reported if that with the offset is not zero; otherwise the origin of the ray or an end of the segment is reported, the origin only if the segment reaches from before to behind it along the direction, an end only if it lies ahead and the other end is not nearer, all within 32uM along the direction; and nothing only if both ends lie less than 16uM ahead.", "quantifier": "all rays and segments with representable coordinates, M, |t| and |v| in the given ranges of the format", "why_tests_cant": "the answer depends on the rounding of every operation; the error bound has to hold for all values", "anchors": ["src/line.rs: Continuous<Line2> for Ray2", "src/line.rs: Discrete<Ray2> for Line2"]}
