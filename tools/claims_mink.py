M='Verif.Minkowski.'
claims=[
c('C52','partial',['c52_2d','c52_prim2','c52_3d_partial','c52_prim3_partial','c52_3d_false'],'2D: proved for all shapes and for every pair of library primitives. 3D: FALSE (negation proved: two overlapping cubes offset along x are reported apart); holds when the first two support points are not in line with the origin. Runs that never decide (also for overlapping shapes) are C83; ulps_eq! taken as equality, see C104 for its tolerance',M),
c('C53','proved',['c53_2d','c53_prim2','c53_3d','c53_prim3','c53_3d_round','c53_3d_all','c53_3d_nan','c53_prim3_all'],'2D and 3D: all primitives. In 3D a run can ask a sphere or capsule for its support in direction zero (NaN in the code, the model stops there); proved: only for shapes that share a point; ulps_eq! taken as equality, see C104 for its tolerance',M),
c('C54','proved',['c54_2d','c54_3d','c54_prim2','c54_prim3'],'soundness of a returned distance: at most the gap of any pair of points plus the tolerance bound, attained by a pair. Completeness is FALSE: c54_none_false (separated shapes reported None), c54_particles_false',M),
c('C68','partial',['c54_none_false','c54_particles_false','c68_cycle_false','c95_circles','c95_spheres'],'FALSE as stated, negation proved: a point and a segment at distance 1 give None; two particles always give None; a trapezoid and a particle two units apart, the nearest point in the middle of a side, send the search round in a circle. True for two circles and two spheres (C95)',M),
c('C95','proved',['c95_circles','c95_spheres','c95_circle_particle','c95_sphere_particle','discs_distance','balls_distance'],'in exact arithmetic, for shapes not both of radius zero (two particles: c54_particles_false)',M),
c('C66','proved',['c66_2d','c66_prim2','c66_no_panic','c66_3d','c66_prim3'],'2D and 3D, every run that answers; additionally two points of the shapes are at the reported time exactly as far apart as the reported depth, whose square is at most the tolerance, and the normal separates the shapes. Relative rest of circles, spheres and capsules, where a support point is NaN, is C93 (false). Termination of the loop (unbounded in the code) is C85',M),
c('C69','partial',['c69_toi_point_false','c69_point2_partial','c69_point3_partial'],'FALSE as stated, negation proved; the point that is reported is characterised exactly, in particular it is the position of the right shape for shapes in contact at the start',M),
c('C56','proved',['c56_full','c56_only','c56_total','c56_toi','c56_toi_only','c56_distance','c56_distance_prim2','c56_intersect_prim2','c56_toi_prim2','c56_distance_prim3','c56_intersect_prim3','c56_toi_prim3'],'list part for any pairwise test; end to end for compound shapes of 2D and 3D primitives (3D as far as the pairwise theorems go)',M),
c('C55','proved',['c55_2d','c55_pipeline_2d','c55_prim2','c55_3d','c55_prim3','c55_3d_example'],'2D and 3D, every starting simplex; 2D also positive depth, contact point in the left shape, and end to end through GJK for every pair of primitives. The 3D outcome nan (first face of zero area) is outside the claim',M),
c('C70','partial',['c55_exact_2d','c70_2d_partial','c70_prim2_partial','c70_polygons_2d_partial','c70_polygons_prim2_partial','c70_false'],'FALSE as stated, negation proved on two rectangles through GJK and EPA: an edge in line with the origin is skipped and a wrong face is reported. Proved exact (within the tolerance) in 2D when no side of the GJK triangle is in line with the origin; for shapes with vertices the tolerance test is then always met within the default 100 iterations. In 3D the property holds: C79',M),
c('C80','partial',['c80_2d','c80_pipeline_2d','c80_prim2','c80_3d_partial','c80_prim3_partial','c80_prim3_all_partial','c80_particle','c80_right_point','c80_left_point','c80_false'],'2D: proved. 3D: FALSE in general, negation proved on two axis-aligned boxes (contact point (-1, 6/5, 1), the left box ends at y = 1): when a flat side of the Minkowski difference is split into several triangles, EPA takes the first of equal distance, which need not hold the foot of the perpendicular, and the weights are negative. Proved in 3D: the point is the affine combination of support points whose difference is normal * depth; exact against a particle',M),
c('C79','proved',['c79_3d','c79_3d_round','c79_prim3','c79_cuboids','c79_prim3_round','c79_3d_all','c79_prim3_all','c79_example'],'for every simplex GJK returns, every pair of primitives (a run that meets NaN, C87, returns none in the model). The polytope stays a closed convex surface around an inner point of the GJK tetrahedron (parity of the cones over its faces)',M),
c('C65','proved',['c65','c65_exact','c65_prim2'],'rank argument: nested caps of the Minkowski difference; ulps_eq! taken as equality, see C104 for its tolerance',M),
c('C67','proved',['c67_support2','c67_support3','c67_bound2','c67_bound3'],'polygons with at most nine vertices (C50 for larger ones)','Verif.Primitive.'),
c('C83','partial',['c83_bound_partial','c83_prim3_partial','c83_false'],'FALSE as stated, negation proved: two overlapping boxes for which the search goes round in a circle with period 5, so GJK answers None with every iteration limit. Proved: beyond (mn)^3+(mn)^2+2 iterations the limit never changes the answer',M),
c('C84','partial',['c84_2d_partial','c84_prim2_partial','c84_false'],'2D: proved, for all support functions that answer and for every pair of library primitives. 3D: FALSE, negation proved: a cube of side 2 and a box of 2 x 2 x 6 that are apart; the simplex becomes a degenerate triangle and Plane::from_points(..).unwrap() panics',M),
c('C85','partial',['c85_2d_partial','c85_prim2_partial','c85_curved_2d','c85_curved_prim2','c85_false','c85_panic_false'],'2D: proved for every pair of primitives with vertices, with the bound, and for every pair of primitives, circles included, that move relative to each other, with a bound from the tolerance. 3D: FALSE, negations proved: a cube and a box that move towards each other for which the loop goes round in a circle for ever (with every tolerance below 0.18), and another pair for which the assertion in get_closest_point_on_face fails',M),
c('C86','proved',['c86_2d','c86_prim2','c86_exact_prim2','c86_3d','c86_prim3','c86_3d_all','c86_prim3_all'],'2D: all support functions, every pair of primitives. 3D: every pair of primitives, whenever the run of GJK meets no NaN (always so for primitives without rounded parts, c86_prim3)',M),
c('C87','partial',['c87_circles','c87_circles_depth','c87_spheres_partial','c87_false','gjk_balls_axis','c87_spheres_example'],'circles: full; spheres: all placements except centres that differ along the first axis only, where the property is false (c87_false: a support request in direction zero, NaN in the code)',M),
c('C88','proved',['c88_collision_2d','c88_full_2d','c88_distance_2d','c88_toi_2d','c88_collision_3d','c88_full_3d','c88_distance_3d','c88_toi_3d','c88_example'],'exact arithmetic: every value the algorithms branch on is a difference of support points. Full resolution in 3D includes the answers NaN and exhausted',M),
c('C89','partial',['c89_collision_2d_partial','c89_full_2d_partial','c89_distance_2d_partial','c89_toi_2d','c89_centred_2d','c89_false'],'2D: proved for every pair of primitives whose placements put the origin at different points (time of impact: always); with the same origin the orders can differ only for shapes that just touch (c89_centred_2d). 3D: FALSE, negation proved: two overlapping cubes reported as colliding in one order and as apart in the other',M),
c('C90','partial',['c90_brute','c90_sweep','c90_tree','c90_tree_built','c90_example','c90_broad_3d_partial','c90_thin_false'],'false: a very thin overlap of a circle and a polygon uses up the 100 iterations of GJK and is dropped (c90_thin_false). 2D: exact up to touching for pairs of polygons and pairs of circles; for a circle against a polygon: a reported pair shares a point, and a pair that overlaps by at least a 31st of its extent is reported. 3D: the broad phase loses no pair; the narrow phase does (c52_3d_false)','Verif.Scene.'),
c('C91','proved',['c91_2d','c91_default_2d','c91_prim2','c91_example','c91_no_limit'],'c91_no_limit: no limit is enough for all overlaps of a circle and a triangle, so the bound in terms of r and m is needed; all 2D shapes with correct support functions; in 3D the search can go round in a circle (C83)',M),
c('C92','partial',['epa2_bound','c92_2d_partial','c92_prim2_partial','c92_example','c92_false'],'proved when no side of the triangle from GJK is in line with the origin; false otherwise: EPA can report a wrong depth whatever the number of iterations (c92_false)',M),
c('C93','partial',['c93_prim2_partial','c93_prim3_partial','c93_false','c93_round3_false'],'2D, every pair of primitives with vertices: proved. 3D: proved for every run that answers (C85). Circles, spheres and capsules: FALSE, negation proved: a round shape at relative rest is asked for its support point in direction zero (NaN), and the code answers None, overlap or not',M),
c('C96','partial',['c96_collision_2d','c96_full_2d','c96_distance_2d','c96_toi_2d','c96_centred_2d','c96_centred_false','c96_example'],'proved for every pair of primitives and every similarity when the placements put the origin at different points, or the scene is not turned (time of impact: always). With the same origin and a turn the search starts in the fixed direction (1, 1): the collision answers can then differ only for shapes that just touch (c96_centred_2d); the normal then does not turn with the scene (c96_centred_false, negation proved on two concentric circles); ulps_eq! taken as equality, see C104 for its tolerance',M),
c('C104','partial',['c104_zero_2d','c104_zero_3d','c104_zero_mesh','c104_miss_2d','c104_hit_3d','c104_grid_2d_partial','c104_grid_3d_partial','c104_plane','c104_point2','c104_point3','c104_false_2d','c104_false_3d','c104_false_mesh','c104_false_point'],'FALSE of the code, for every positive machine epsilon (negations proved): in 2D two small squares that are apart are reported as colliding; in 3D two small cubes that overlap almost wholly are reported as not colliding; new_with_faces panics on a small mesh; a ray hits every near point in front of it. What holds with every tolerance: "no collision" in 2D (c104_miss_2d) and "collision" in 3D (c104_hit_3d) are right. Scenes on a grid with spacing above the cube root of epsilon get the exact answers',M),
c('C105','proved',['c105_run_2d','c105_prim2','c105_f64_2d','c105_example','c105_run_3d','c105_prim3','c105_f64_3d','c105_example_3d','c105_f64_miss'],'the code is written once over any arithmetic (lemmas identify it over a field with the model of the other files) and run with every operation rounded to the nearest f64. c105_f64_miss: the overlapping cubes of c52_3d_false are missed in f64 too. NaN and the sign of zero do not occur on the grid and are not modelled; rotations are matrices with entries 0 and ±1, scale 1; quaternions are not covered',M),
c('C106','proved',['c106_2d','c106_f64_2d','c106_f64_deep','c106_example','std64','keeps64'],'c106_2d: any rounded arithmetic that satisfies the standard model (relative error u, underflow eta, odd, differences of different numbers not rounded to zero) and keeps multiples of the grain; std64 and keeps64: IEEE binary64 does. The bound is on the run that ends with a miss; a run that uses up its iterations also returns None and says nothing. Circles are not covered (square roots are not in this model); NaN and the sign of zero do not occur.',M),
c('C107','partial',['c107_false','c107_f64_partial','hit_run'],'false: a segment from (2^30, 1) to (2^31, -1) and a particle at the origin are reported as intersecting by f64, and not by exact arithmetic. c107_f64_partial: what holds of a reported simplex - three points, each up to rounding the difference of a point of each shape. Missing: the origin in their triangle, which is false.',M),
c('C108','proved',['c108_box','c108_f64_box','c108_f64_test','confirm64','c108_brute','c108_sweep','c108_tree','c108_example'],'c108_box: any rounded arithmetic of the standard model; the others: IEEE binary64. A run of GJK that uses up its 100 iterations is the only way in which an overlapping pair can be lost; it is not excluded for f64 (C65 and C91 exclude it in exact arithmetic). Circles, scaling and 3D are not covered','Verif.Scene.'),
c('C109','proved',['c109_point','c109_box','c109_frustum','c109_sphere','c109_exact_sphere','c109_f64_tree','c109_example'],'c109_point..c109_sphere: any rounded arithmetic of the standard model; c109_f64_tree: IEEE binary64. The planes are given as f64 numbers; their computation from a matrix (which takes square roots) is not covered, nor are trees of spheres, whose bounds in f64 do not enclose (C103).','Verif.Scene.'),
c('C111','partial',['c111_closest2_partial','c111_closest3_partial','c111_outside2_partial','c111_outside3_partial','c111_example'],'IEEE binary64. Partial: rays that start in a branch volume are excluded, since for them the property is false already in exact arithmetic (c16_false); _outside: every ray that starts outside a box around the scene','Verif.Scene.'),
c('C113','partial',['c113_box','c113_f64_box','c113_f64_test','handed3','confirm3','c113_brute_partial','c113_sweep_partial','c113_tree_partial','c113_example'],'c113_box: any rounded arithmetic of the standard model; the others: IEEE binary64. Bounds and broad phases as stated (Handed3). Partial because the narrow phase can also lose an overlapping pair by asking for the direction zero, for which the property is false (C114, c114_false). Round primitives, scaling and polyhedra with faces are not covered','Verif.Scene.'),
c('C114','partial',['c114_3d_partial','c114_f64_3d_partial','c114_f64_deep_partial','c114_f64_hit','c114_case','c114_false'],'c114_3d_partial: any rounded arithmetic of the standard model; the others: IEEE binary64. Partial because the property is false of a run that asks for a support point in the direction zero (c105_f64_miss, c114_false); the theorems say that this is the only way. Round primitives, scaling and polyhedra with faces are not covered','Verif.Scene.'),
c('C115','proved',['c115_2d','c115_3d','c115_fmt2','c115_fmt3','c115_f32_2d','c115_f32_3d','c115_f64_2d','c115_f64_3d','c115_f32_grid','c115_case','c115_example'],'c115_2d, c115_3d: any rounded arithmetic of the standard model; c115_fmt2, c115_fmt3: any format (Fmt), then IEEE binary32 and binary64. The runs of the exception are those on which the run with a support function that refuses subnormal directions does not end as the real one does (AskedTiny2, AskedTiny3). Round primitives, scaling and polyhedra with faces are not covered','Verif.Scene.'),
c('C116','proved',['c116_box2','c116_box3','c116_test2','c116_test3','c116_brute2','c116_sweep2','c116_tree2','c116_brute3','c116_sweep3','c116_tree3','c116_f32_brute2','c116_f32_sweep2','c116_f32_tree2','c116_f32_brute3','c116_f32_sweep3','c116_f32_tree3','c116_example'],'any format, then IEEE binary32. Round primitives, scaling and polyhedra with faces are not covered','Verif.Scene.'),
c('C117','proved',['c117_fmt2','c117_fmt3','c117_f32_2d','c117_f32_3d','c117_f64_2d','c117_f64_3d','c117_apart2','c117_apart3','c117_case','c117_example','c117_case3','c117_example3'],'any format (FmtR), then IEEE binary32 and binary64. The exception is stated with the run whose support functions refuse the spoiled directions (AskedSpoil2, AskedSpoil3); c117_apart2 and c117_apart3 show runs without it. The sign of a zero, which decides the side in capsules and cylinders, is an arbitrary oracle. Scaling and polyhedra with faces are not covered','Verif.Scene.'),
c('C118','proved',['c118_box2', 'c118_box3', 'c118_test2', 'c118_test3', 'c118_brute2', 'c118_brute3', 'c118_sweep2', 'c118_sweep3', 'c118_tree2', 'c118_tree3', 'c118_f32_brute2', 'c118_f32_brute3', 'c118_f32_sweep2', 'c118_f32_sweep3', 'c118_f32_tree2', 'c118_f32_tree3', 'c118_f64_brute2', 'c118_f64_brute3', 'c118_f64_sweep2', 'c118_f64_sweep3', 'c118_f64_tree2', 'c118_f64_tree3', 'c118_example'],'any format (FmtR), then IEEE binary32 and binary64. On a pair for which GJK asks for a spoiled direction the narrow phase may answer anything (IsGjk2, IsGjk3), since the code may then compute with NaN. Scaling and polyhedra with faces are not covered','Verif.Scene.'),
c('C119','proved',['c119_found', 'c119_reported', 'c119_f64_found', 'c119_f64_reported', 'c119_f32_found', 'c119_f32_reported'],'any format with the standard error model (TreeStd), then IEEE binary32 and binary64; what remains true of C103. NaN and infinite coordinates are not covered','Verif.Scene.'),
c('C120','proved',['c120_boxes2', 'c120_boxes3', 'c120_rays3', 'c120_rays3_built', 'c120_culling', 'c120_ray2', 'c120_ray3', 'c120_ray_tree2', 'c120_ray_tree3', 'c120_example_culling', 'c120_example2', 'c120_example3'],'IEEE binary32; the format-independent parts are those of C99, C109 and C110. Direction components that are not zero but below 2^-60 are not covered','Verif.Scene.'),
c('C121','partial',['c121_closest2_partial', 'c121_closest3_partial', 'c121_outside2_partial', 'c121_outside3_partial', 'c121_example','c121_example3'],'IEEE binary32. Partial as C111: rays that start in a branch volume are excluded, since for them the property is false already in exact arithmetic (c16_false); _outside: every ray that starts outside a box around the scene','Verif.Scene.'),
c('C122','proved',['c122_volume', 'c122_ball', 'c122_circle', 'c122_f64_volume', 'c122_f64_ball', 'c122_f64_circle', 'c122_f32_volume', 'c122_f32_ball', 'c122_f32_circle', 'c122_exact_volume', 'c122_exact_ball', 'c122_false', 'c122_example'],'any rounded arithmetic of the standard model, then IEEE binary32 and binary64; c122_exact_*: without rounding the functions are those of C37 and C57; c122_false: a bound relative to the radius alone does not hold','Verif.Scene.'),
c('C123','proved',['c123_found', 'c123_reported', 'c123_f64_found', 'c123_f64_reported', 'c123_f32_found', 'c123_f32_reported'],'any rounded arithmetic of the standard model, then IEEE binary32 and binary64','Verif.Scene.'),
c('C124','proved',['c124_found', 'c124_reported', 'c124_f64_found', 'c124_f64_reported', 'c124_f32_found', 'c124_f32_reported', 'c124_false', 'c124_false_formats'],'any rounded arithmetic of the standard model, then IEEE binary32 and binary64; c124_false: the condition on the centres is needed, with and without rounding','Verif.Scene.'),
c('C125','proved',['c125_planes', 'c125_none', 'c125_box', 'c125_found', 'c125_reported', 'c125_f64_box', 'c125_f32_box', 'c125_f64_found', 'c125_f64_reported', 'c125_f32_found', 'c125_f32_reported', 'c125_f64_boxes', 'c125_f32_boxes', 'c125_f64_boxtree', 'c125_f32_boxtree', 'c125_false'],'any rounded arithmetic of the standard model, then IEEE binary32 and binary64; ulps_eq! with zero is modelled as every component being at most the machine epsilon in size; c125_false: scaling the matrix by the machine epsilon changes the answer','Verif.Scene.'),
c('C126','proved',['c126_2d', 'c126_f64', 'c126_f32'],'any rounded arithmetic of the standard model, then IEEE binary32 and binary64; nothing is claimed of an answer None (c107_false and c54_none_false: hits can be wrong); under gives the closest point of an edge whose squared length is rounded to zero (start, end or NaN; any of them in the theorem); polygons have to contain the origin of their frame because for a direction of NaN get_max_point answers the origin','Verif.Scene.'),
c('C127','proved',['c127_ray', 'c127_f64', 'c127_f32', 'c127_parallel'],'any rounded arithmetic of the standard model, then IEEE binary32 and binary64; the convention is n.p + d = 0 (c39_false); nearly parallel rays in rounded arithmetic are excluded, exactly parallel ones are treated in exact arithmetic with infinities and NaN','Verif.Scene.'),
c('C128','proved',['c128_three', 'c128_two', 'c128_three_f64', 'c128_two_f64', 'c128_three_f32', 'c128_two_f32'],'any rounded arithmetic of the standard model, then IEEE binary32 and binary64; nothing is claimed of the accuracy of the points for nearly parallel planes above the tolerance of ulps_eq!','Verif.Scene.'),
c('C129','proved',['c129_ray', 'c129_f64', 'c129_f32', 'c129_parallel'],'any rounded arithmetic of the standard model, then IEEE binary32 and binary64; c129_parallel: rays the code takes for parallel; between the two (cross product below 256uM but not rounded to zero) nothing is claimed','Verif.Scene.'),
c('C112','proved',['c112_leaf','c112_within'],'for every bound type; c16_outside2_partial and c16_outside3_partial (C16) are consequences','Verif.Dbvt.'),
c('C110','proved',['c110_ray2','c110_ray3','c110_f64_2','c110_f64_3','c110_tree2','c110_tree3','c110_example','c110_example3'],'c110_ray2, c110_ray3: any rounded arithmetic of the standard model; the others: IEEE binary64. Components of the direction that are not zero but below 2^-500 are not covered (the quotients may overflow).','Verif.Scene.'),
]
