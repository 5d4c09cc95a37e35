{
 "claims": [
  {
   "property": "C01",
   "status": "proved",
   "theorems": [
    "Verif.Dbvt.c01_finite_map",
    "Verif.Dbvt.c01_returns"
   ],
   "note": "refinement to a finite map for every history, every implementation of the traits, every random stream"
  },
  {
   "property": "C02",
   "status": "proved",
   "theorems": [
    "Verif.Dbvt.c02_value_index"
   ],
   "note": ""
  },
  {
   "property": "C03",
   "status": "proved",
   "theorems": [
    "Verif.Dbvt.c03_size"
   ],
   "note": "including absence of usize underflow"
  },
  {
   "property": "C04",
   "status": "proved",
   "theorems": [
    "Verif.Dbvt.c04_height"
   ],
   "note": ""
  },
  {
   "property": "C05",
   "status": "proved",
   "theorems": [
    "Verif.Dbvt.c05_do_refit_terminates"
   ],
   "note": "bound on the iterations uniform in the random stream; no law on the scalars"
  },
  {
   "property": "C06",
   "status": "proved",
   "theorems": [
    "Verif.Dbvt.c06_union",
    "Verif.Dbvt.c06_encloses"
   ],
   "note": ""
  },
  {
   "property": "C07",
   "status": "proved",
   "theorems": [
    "Verif.Dbvt.c07_query",
    "Verif.Dbvt.c07_query_exact"
   ],
   "note": "whatever the query returns is exact; it returns on trees of at most 256 levels; above that the only other outcome is a panic (C11)"
  },
  {
   "property": "C08",
   "status": "proved",
   "theorems": [
    "Verif.Dbvt.c08_query_sound",
    "Verif.Dbvt.c08_query_values"
   ],
   "note": ""
  },
  {
   "property": "C09",
   "status": "proved",
   "theorems": [
    "Verif.Dbvt.c09_removed"
   ],
   "note": ""
  },
  {
   "property": "C10",
   "status": "partial",
   "theorems": [
    "Verif.Dbvt.c10_false",
    "Verif.Dbvt.c10_no_panic_partial"
   ],
   "note": "FALSE as stated (insert, update_node, remove, tick panics): negation proved; proved under the condition that the tree is never emptied while updates are pending"
  },
  {
   "property": "C100",
   "status": "partial",
   "theorems": [
    "Verif.Scene.c100_pick2",
    "Verif.Scene.c100_built2",
    "Verif.Scene.c100_pick3",
    "Verif.Scene.c100_built3",
    "Verif.Scene.c100_example"
   ],
   "note": "2D: every primitive (for polygons only what their own test reports, C49); 3D: not cylinders and capsules, whose tests are wrong (C72, C74), and boxes of positive extent (with flat ones query_ray itself loses hits, C15). Boxes that the ray only grazes along a side are not hit (C30, C31)"
  },
  {
   "property": "C101",
   "status": "partial",
   "theorems": [
    "Verif.Scene.c101_brute2",
    "Verif.Scene.c101_sweep2",
    "Verif.Scene.c101_tree2",
    "Verif.Scene.c101_3d_partial",
    "Verif.Scene.c101_example"
   ],
   "note": "2D: all pairs for which the time of impact answers: not a circle at relative rest (C93); 3D: every run that answers (some do not return, C85)"
  },
  {
   "property": "C102",
   "status": "partial",
   "theorems": [
    "Verif.BroadPhase.c102_sweep_false",
    "Verif.BroadPhase.c102_tree_false",
    "Verif.BroadPhase.c102_brute2",
    "Verif.BroadPhase.c102_brute3",
    "Verif.BroadPhase.c102_sweep2_partial",
    "Verif.BroadPhase.c102_sweep3_partial",
    "Verif.BroadPhase.c102_tree2_partial",
    "Verif.BroadPhase.c102_tree3_partial"
   ],
   "note": "FALSE of sweep and prune and of the tree (negations proved); true of brute force; the sweep is right if the coordinates along its axis are numbers, the tree if the boxes now in it are proper, whatever was in it before"
  },
  {
   "property": "C103",
   "status": "partial",
   "theorems": [
    "Verif.Dbvt.c103_false",
    "Verif.Dbvt.c103_partial",
    "Verif.Dbvt.c103_exact",
    "Verif.Dbvt.rnd64_nearest"
   ],
   "note": "FALSE of the code: in binary64 the union of two spheres can be too small (radius rounded down), and the tree then loses a value (c103_false, the rounding is proved to be to nearest by rnd64_nearest); proved: a query reports only values that pass the test themselves, none twice"
  },
  {
   "property": "C104",
   "status": "partial",
   "theorems": [
    "Verif.Minkowski.c104_zero_2d",
    "Verif.Minkowski.c104_zero_3d",
    "Verif.Minkowski.c104_zero_mesh",
    "Verif.Minkowski.c104_miss_2d",
    "Verif.Minkowski.c104_hit_3d",
    "Verif.Minkowski.c104_grid_2d_partial",
    "Verif.Minkowski.c104_grid_3d_partial",
    "Verif.Minkowski.c104_plane",
    "Verif.Minkowski.c104_point2",
    "Verif.Minkowski.c104_point3",
    "Verif.Minkowski.c104_false_2d",
    "Verif.Minkowski.c104_false_3d",
    "Verif.Minkowski.c104_false_mesh",
    "Verif.Minkowski.c104_false_point"
   ],
   "note": "FALSE of the code, for every positive machine epsilon (negations proved): in 2D two small squares that are apart are reported as colliding; in 3D two small cubes that overlap almost wholly are reported as not colliding; new_with_faces panics on a small mesh; a ray hits every near point in front of it. What holds with every tolerance: \"no collision\" in 2D (c104_miss_2d) and \"collision\" in 3D (c104_hit_3d) are right. Scenes on a grid with spacing above the cube root of epsilon get the exact answers"
  },
  {
   "property": "C105",
   "status": "proved",
   "theorems": [
    "Verif.Minkowski.c105_run_2d",
    "Verif.Minkowski.c105_prim2",
    "Verif.Minkowski.c105_f64_2d",
    "Verif.Minkowski.c105_example",
    "Verif.Minkowski.c105_run_3d",
    "Verif.Minkowski.c105_prim3",
    "Verif.Minkowski.c105_f64_3d",
    "Verif.Minkowski.c105_example_3d",
    "Verif.Minkowski.c105_f64_miss"
   ],
   "note": "the code is written once over any arithmetic (lemmas identify it over a field with the model of the other files) and run with every operation rounded to the nearest f64. c105_f64_miss: the overlapping cubes of c52_3d_false are missed in f64 too. NaN and the sign of zero do not occur on the grid and are not modelled; rotations are matrices with entries 0 and \u00b11, scale 1; quaternions are not covered"
  },
  {
   "property": "C106",
   "status": "proved",
   "theorems": [
    "Verif.Minkowski.c106_2d",
    "Verif.Minkowski.c106_f64_2d",
    "Verif.Minkowski.c106_f64_deep",
    "Verif.Minkowski.c106_example",
    "Verif.Minkowski.std64",
    "Verif.Minkowski.keeps64"
   ],
   "note": "c106_2d: any rounded arithmetic that satisfies the standard model (relative error u, underflow eta, odd, differences of different numbers not rounded to zero) and keeps multiples of the grain; std64 and keeps64: IEEE binary64 does. The bound is on the run that ends with a miss; a run that uses up its iterations also returns None and says nothing. Circles are not covered (square roots are not in this model); NaN and the sign of zero do not occur."
  },
  {
   "property": "C107",
   "status": "partial",
   "theorems": [
    "Verif.Minkowski.c107_false",
    "Verif.Minkowski.c107_f64_partial",
    "Verif.Minkowski.hit_run"
   ],
   "note": "false: a segment from (2^30, 1) to (2^31, -1) and a particle at the origin are reported as intersecting by f64, and not by exact arithmetic. c107_f64_partial: what holds of a reported simplex - three points, each up to rounding the difference of a point of each shape. Missing: the origin in their triangle, which is false."
  },
  {
   "property": "C108",
   "status": "proved",
   "theorems": [
    "Verif.Scene.c108_box",
    "Verif.Scene.c108_f64_box",
    "Verif.Scene.c108_f64_test",
    "Verif.Scene.confirm64",
    "Verif.Scene.c108_brute",
    "Verif.Scene.c108_sweep",
    "Verif.Scene.c108_tree",
    "Verif.Scene.c108_example"
   ],
   "note": "c108_box: any rounded arithmetic of the standard model; the others: IEEE binary64. A run of GJK that uses up its 100 iterations is the only way in which an overlapping pair can be lost; it is not excluded for f64 (C65 and C91 exclude it in exact arithmetic). Circles, scaling and 3D are not covered"
  },
  {
   "property": "C109",
   "status": "proved",
   "theorems": [
    "Verif.Scene.c109_point",
    "Verif.Scene.c109_box",
    "Verif.Scene.c109_frustum",
    "Verif.Scene.c109_sphere",
    "Verif.Scene.c109_exact_sphere",
    "Verif.Scene.c109_f64_tree",
    "Verif.Scene.c109_example"
   ],
   "note": "c109_point..c109_sphere: any rounded arithmetic of the standard model; c109_f64_tree: IEEE binary64. The planes are given as f64 numbers; their computation from a matrix (which takes square roots) is not covered, nor are trees of spheres, whose bounds in f64 do not enclose (C103)."
  },
  {
   "property": "C11",
   "status": "partial",
   "theorems": [
    "Verif.Dbvt.c11_false",
    "Verif.Dbvt.c11_query_no_panic_partial",
    "Verif.Dbvt.c11_small_tree_partial"
   ],
   "note": "FALSE as stated (257 equal boxes): negation proved; proved for at most 256 levels / values"
  },
  {
   "property": "C110",
   "status": "proved",
   "theorems": [
    "Verif.Scene.c110_ray2",
    "Verif.Scene.c110_ray3",
    "Verif.Scene.c110_f64_2",
    "Verif.Scene.c110_f64_3",
    "Verif.Scene.c110_tree2",
    "Verif.Scene.c110_tree3",
    "Verif.Scene.c110_example",
    "Verif.Scene.c110_example3"
   ],
   "note": "c110_ray2, c110_ray3: any rounded arithmetic of the standard model; the others: IEEE binary64. Components of the direction that are not zero but below 2^-500 are not covered (the quotients may overflow)."
  },
  {
   "property": "C111",
   "status": "partial",
   "theorems": [
    "Verif.Scene.c111_closest2_partial",
    "Verif.Scene.c111_closest3_partial",
    "Verif.Scene.c111_outside2_partial",
    "Verif.Scene.c111_outside3_partial",
    "Verif.Scene.c111_example"
   ],
   "note": "IEEE binary64. Partial: rays that start in a branch volume are excluded, since for them the property is false already in exact arithmetic (c16_false); _outside: every ray that starts outside a box around the scene"
  },
  {
   "property": "C112",
   "status": "proved",
   "theorems": [
    "Verif.Dbvt.c112_leaf",
    "Verif.Dbvt.c112_within"
   ],
   "note": "for every bound type; c16_outside2_partial and c16_outside3_partial (C16) are consequences"
  },
  {
   "property": "C113",
   "status": "partial",
   "theorems": [
    "Verif.Scene.c113_box",
    "Verif.Scene.c113_f64_box",
    "Verif.Scene.c113_f64_test",
    "Verif.Scene.handed3",
    "Verif.Scene.confirm3",
    "Verif.Scene.c113_brute_partial",
    "Verif.Scene.c113_sweep_partial",
    "Verif.Scene.c113_tree_partial",
    "Verif.Scene.c113_example"
   ],
   "note": "c113_box: any rounded arithmetic of the standard model; the others: IEEE binary64. Bounds and broad phases as stated (Handed3). Partial because the narrow phase can also lose an overlapping pair by asking for the direction zero, for which the property is false (C114, c114_false). Round primitives, scaling and polyhedra with faces are not covered"
  },
  {
   "property": "C114",
   "status": "partial",
   "theorems": [
    "Verif.Scene.c114_3d_partial",
    "Verif.Scene.c114_f64_3d_partial",
    "Verif.Scene.c114_f64_deep_partial",
    "Verif.Scene.c114_f64_hit",
    "Verif.Scene.c114_case",
    "Verif.Scene.c114_false"
   ],
   "note": "c114_3d_partial: any rounded arithmetic of the standard model; the others: IEEE binary64. Partial because the property is false of a run that asks for a support point in the direction zero (c105_f64_miss, c114_false); the theorems say that this is the only way. Round primitives, scaling and polyhedra with faces are not covered"
  },
  {
   "property": "C115",
   "status": "proved",
   "theorems": [
    "Verif.Scene.c115_2d",
    "Verif.Scene.c115_3d",
    "Verif.Scene.c115_fmt2",
    "Verif.Scene.c115_fmt3",
    "Verif.Scene.c115_f32_2d",
    "Verif.Scene.c115_f32_3d",
    "Verif.Scene.c115_f64_2d",
    "Verif.Scene.c115_f64_3d",
    "Verif.Scene.c115_f32_grid",
    "Verif.Scene.c115_case",
    "Verif.Scene.c115_example"
   ],
   "note": "c115_2d, c115_3d: any rounded arithmetic of the standard model; c115_fmt2, c115_fmt3: any format (Fmt), then IEEE binary32 and binary64. The runs of the exception are those on which the run with a support function that refuses subnormal directions does not end as the real one does (AskedTiny2, AskedTiny3). Round primitives, scaling and polyhedra with faces are not covered"
  },
  {
   "property": "C116",
   "status": "proved",
   "theorems": [
    "Verif.Scene.c116_box2",
    "Verif.Scene.c116_box3",
    "Verif.Scene.c116_test2",
    "Verif.Scene.c116_test3",
    "Verif.Scene.c116_brute2",
    "Verif.Scene.c116_sweep2",
    "Verif.Scene.c116_tree2",
    "Verif.Scene.c116_brute3",
    "Verif.Scene.c116_sweep3",
    "Verif.Scene.c116_tree3",
    "Verif.Scene.c116_f32_brute2",
    "Verif.Scene.c116_f32_sweep2",
    "Verif.Scene.c116_f32_tree2",
    "Verif.Scene.c116_f32_brute3",
    "Verif.Scene.c116_f32_sweep3",
    "Verif.Scene.c116_f32_tree3",
    "Verif.Scene.c116_example"
   ],
   "note": "any format, then IEEE binary32. Round primitives, scaling and polyhedra with faces are not covered"
  },
  {
   "property": "C117",
   "status": "proved",
   "theorems": [
    "Verif.Scene.c117_fmt2",
    "Verif.Scene.c117_fmt3",
    "Verif.Scene.c117_f32_2d",
    "Verif.Scene.c117_f32_3d",
    "Verif.Scene.c117_f64_2d",
    "Verif.Scene.c117_f64_3d",
    "Verif.Scene.c117_apart2",
    "Verif.Scene.c117_apart3",
    "Verif.Scene.c117_case",
    "Verif.Scene.c117_example",
    "Verif.Scene.c117_case3",
    "Verif.Scene.c117_example3"
   ],
   "note": "any format (FmtR), then IEEE binary32 and binary64. The exception is stated with the run whose support functions refuse the spoiled directions (AskedSpoil2, AskedSpoil3); c117_apart2 and c117_apart3 show runs without it. The sign of a zero, which decides the side in capsules and cylinders, is an arbitrary oracle. Scaling and polyhedra with faces are not covered"
  },
  {
   "property": "C118",
   "status": "proved",
   "theorems": [
    "Verif.Scene.c118_box2",
    "Verif.Scene.c118_box3",
    "Verif.Scene.c118_test2",
    "Verif.Scene.c118_test3",
    "Verif.Scene.c118_brute2",
    "Verif.Scene.c118_brute3",
    "Verif.Scene.c118_sweep2",
    "Verif.Scene.c118_sweep3",
    "Verif.Scene.c118_tree2",
    "Verif.Scene.c118_tree3",
    "Verif.Scene.c118_f32_brute2",
    "Verif.Scene.c118_f32_brute3",
    "Verif.Scene.c118_f32_sweep2",
    "Verif.Scene.c118_f32_sweep3",
    "Verif.Scene.c118_f32_tree2",
    "Verif.Scene.c118_f32_tree3",
    "Verif.Scene.c118_f64_brute2",
    "Verif.Scene.c118_f64_brute3",
    "Verif.Scene.c118_f64_sweep2",
    "Verif.Scene.c118_f64_sweep3",
    "Verif.Scene.c118_f64_tree2",
    "Verif.Scene.c118_f64_tree3",
    "Verif.Scene.c118_example"
   ],
   "note": "any format (FmtR), then IEEE binary32 and binary64. On a pair for which GJK asks for a spoiled direction the narrow phase may answer anything (IsGjk2, IsGjk3), since the code may then compute with NaN. Scaling and polyhedra with faces are not covered"
  },
  {
   "property": "C119",
   "status": "proved",
   "theorems": [
    "Verif.Scene.c119_found",
    "Verif.Scene.c119_reported",
    "Verif.Scene.c119_f64_found",
    "Verif.Scene.c119_f64_reported",
    "Verif.Scene.c119_f32_found",
    "Verif.Scene.c119_f32_reported"
   ],
   "note": "any format with the standard error model (TreeStd), then IEEE binary32 and binary64; what remains true of C103. NaN and infinite coordinates are not covered"
  },
  {
   "property": "C12",
   "status": "proved",
   "theorems": [
    "Verif.Dbvt.c12_reorder"
   ],
   "note": ""
  },
  {
   "property": "C120",
   "status": "proved",
   "theorems": [
    "Verif.Scene.c120_boxes2",
    "Verif.Scene.c120_boxes3",
    "Verif.Scene.c120_rays3",
    "Verif.Scene.c120_rays3_built",
    "Verif.Scene.c120_culling",
    "Verif.Scene.c120_ray2",
    "Verif.Scene.c120_ray3",
    "Verif.Scene.c120_ray_tree2",
    "Verif.Scene.c120_ray_tree3",
    "Verif.Scene.c120_example_culling",
    "Verif.Scene.c120_example2",
    "Verif.Scene.c120_example3"
   ],
   "note": "IEEE binary32; the format-independent parts are those of C99, C109 and C110. Direction components that are not zero but below 2^-60 are not covered"
  },
  {
   "property": "C121",
   "status": "partial",
   "theorems": [
    "Verif.Scene.c121_closest2_partial",
    "Verif.Scene.c121_closest3_partial",
    "Verif.Scene.c121_outside2_partial",
    "Verif.Scene.c121_outside3_partial",
    "Verif.Scene.c121_example",
    "Verif.Scene.c121_example3"
   ],
   "note": "IEEE binary32. Partial as C111: rays that start in a branch volume are excluded, since for them the property is false already in exact arithmetic (c16_false); _outside: every ray that starts outside a box around the scene"
  },
  {
   "property": "C122",
   "status": "proved",
   "theorems": [
    "Verif.Scene.c122_volume",
    "Verif.Scene.c122_ball",
    "Verif.Scene.c122_circle",
    "Verif.Scene.c122_f64_volume",
    "Verif.Scene.c122_f64_ball",
    "Verif.Scene.c122_f64_circle",
    "Verif.Scene.c122_f32_volume",
    "Verif.Scene.c122_f32_ball",
    "Verif.Scene.c122_f32_circle",
    "Verif.Scene.c122_exact_volume",
    "Verif.Scene.c122_exact_ball",
    "Verif.Scene.c122_false",
    "Verif.Scene.c122_example"
   ],
   "note": "any rounded arithmetic of the standard model, then IEEE binary32 and binary64; c122_exact_*: without rounding the functions are those of C37 and C57; c122_false: a bound relative to the radius alone does not hold"
  },
  {
   "property": "C123",
   "status": "proved",
   "theorems": [
    "Verif.Scene.c123_found",
    "Verif.Scene.c123_reported",
    "Verif.Scene.c123_f64_found",
    "Verif.Scene.c123_f64_reported",
    "Verif.Scene.c123_f32_found",
    "Verif.Scene.c123_f32_reported"
   ],
   "note": "any rounded arithmetic of the standard model, then IEEE binary32 and binary64"
  },
  {
   "property": "C124",
   "status": "proved",
   "theorems": [
    "Verif.Scene.c124_found",
    "Verif.Scene.c124_reported",
    "Verif.Scene.c124_f64_found",
    "Verif.Scene.c124_f64_reported",
    "Verif.Scene.c124_f32_found",
    "Verif.Scene.c124_f32_reported",
    "Verif.Scene.c124_false",
    "Verif.Scene.c124_false_formats"
   ],
   "note": "any rounded arithmetic of the standard model, then IEEE binary32 and binary64; c124_false: the condition on the centres is needed, with and without rounding"
  },
  {
   "property": "C125",
   "status": "proved",
   "theorems": [
    "Verif.Scene.c125_planes",
    "Verif.Scene.c125_none",
    "Verif.Scene.c125_box",
    "Verif.Scene.c125_found",
    "Verif.Scene.c125_reported",
    "Verif.Scene.c125_f64_box",
    "Verif.Scene.c125_f32_box",
    "Verif.Scene.c125_f64_found",
    "Verif.Scene.c125_f64_reported",
    "Verif.Scene.c125_f32_found",
    "Verif.Scene.c125_f32_reported",
    "Verif.Scene.c125_f64_boxes",
    "Verif.Scene.c125_f32_boxes",
    "Verif.Scene.c125_f64_boxtree",
    "Verif.Scene.c125_f32_boxtree",
    "Verif.Scene.c125_false"
   ],
   "note": "any rounded arithmetic of the standard model, then IEEE binary32 and binary64; ulps_eq! with zero is modelled as every component being at most the machine epsilon in size; c125_false: scaling the matrix by the machine epsilon changes the answer"
  },
  {
   "property": "C126",
   "status": "proved",
   "theorems": [
    "Verif.Scene.c126_2d",
    "Verif.Scene.c126_f64",
    "Verif.Scene.c126_f32"
   ],
   "note": "any rounded arithmetic of the standard model, then IEEE binary32 and binary64; nothing is claimed of an answer None (c107_false and c54_none_false: hits can be wrong); under gives the closest point of an edge whose squared length is rounded to zero (start, end or NaN; any of them in the theorem); polygons have to contain the origin of their frame because for a direction of NaN get_max_point answers the origin"
  },
  {
   "property": "C127",
   "status": "proved",
   "theorems": [
    "Verif.Scene.c127_ray",
    "Verif.Scene.c127_f64",
    "Verif.Scene.c127_f32",
    "Verif.Scene.c127_parallel"
   ],
   "note": "any rounded arithmetic of the standard model, then IEEE binary32 and binary64; the convention is n.p + d = 0 (c39_false); nearly parallel rays in rounded arithmetic are excluded, exactly parallel ones are treated in exact arithmetic with infinities and NaN"
  },
  {
   "property": "C128",
   "status": "proved",
   "theorems": [
    "Verif.Scene.c128_three",
    "Verif.Scene.c128_two",
    "Verif.Scene.c128_three_f64",
    "Verif.Scene.c128_two_f64",
    "Verif.Scene.c128_three_f32",
    "Verif.Scene.c128_two_f32"
   ],
   "note": "any rounded arithmetic of the standard model, then IEEE binary32 and binary64; nothing is claimed of the accuracy of the points for nearly parallel planes above the tolerance of ulps_eq!"
  },
  {
   "property": "C129",
   "status": "proved",
   "theorems": [
    "Verif.Scene.c129_ray",
    "Verif.Scene.c129_f64",
    "Verif.Scene.c129_f32",
    "Verif.Scene.c129_parallel"
   ],
   "note": "any rounded arithmetic of the standard model, then IEEE binary32 and binary64; c129_parallel: rays the code takes for parallel; between the two (cross product below 256uM but not rounded to zero) nothing is claimed"
  },
  {
   "property": "C13",
   "status": "proved",
   "theorems": [
    "Verif.Dbvt.c13_rotation_values",
    "Verif.Dbvt.c13_rotation_query",
    "Verif.Dbvt.c13_rotation_queries"
   ],
   "note": "query results compared whenever both queries return (C11)"
  },
  {
   "property": "C14",
   "status": "proved",
   "theorems": [
    "Verif.Dbvt.c14_remove_nonleaf",
    "Verif.Dbvt.c14_update_nonleaf"
   ],
   "note": ""
  },
  {
   "property": "C15",
   "status": "partial",
   "theorems": [
    "Verif.Dbvt.c15_query_ray2",
    "Verif.Dbvt.c15_query_ray3",
    "Verif.Dbvt.c15_flat_false"
   ],
   "note": "2D: all boxes; 3D: boxes of positive extent; FALSE in 3D for flat boxes (negation proved). Stack: as C07"
  },
  {
   "property": "C16",
   "status": "partial",
   "theorems": [
    "Verif.Dbvt.c16_false",
    "Verif.Dbvt.c16_closest2_partial",
    "Verif.Dbvt.c16_closest3_partial",
    "Verif.Dbvt.c16_outside2_partial",
    "Verif.Dbvt.c16_outside3_partial",
    "Verif.Dbvt.c16_some_iff2",
    "Verif.Dbvt.c16_some_iff3"
   ],
   "note": "FALSE as stated: negation proved; nearest answer proved when the origin of the ray lies in no branch volume; for every ray: None exactly if nothing is hit, and an answer is a hit value at its reported point"
  },
  {
   "property": "C17",
   "status": "proved",
   "theorems": [
    "Verif.Dbvt.c17_frustum_boxes",
    "Verif.Dbvt.c17_frustum_spheres"
   ],
   "note": "exact whenever the traversal stack suffices; the only other outcome is the panic of C11, on more than 256 levels"
  },
  {
   "property": "C18",
   "status": "partial",
   "theorems": [
    "Verif.Dbvt.c18_rotation_gain_partial",
    "Verif.Dbvt.c18_rotation_never_fires"
   ],
   "note": "first half proved: whenever a refitting turn rotates, the area of the node shrinks by more than the threshold; second half FALSE: negation proved (rotation is the identity on up-to-date trees)"
  },
  {
   "property": "C19",
   "status": "proved",
   "theorems": [
    "Verif.BroadPhase.c19_brute_force"
   ],
   "note": ""
  },
  {
   "property": "C20",
   "status": "proved",
   "theorems": [
    "Verif.BroadPhase.c20_sweep_and_prune",
    "Verif.BroadPhase.c20_boxes2",
    "Verif.BroadPhase.c20_boxes3",
    "Verif.BroadPhase.c20_spheres",
    "Verif.BroadPhase.c20_runs2",
    "Verif.BroadPhase.c20_runs3"
   ],
   "note": "axis below the dimension (otherwise the code panics)"
  },
  {
   "property": "C21",
   "status": "partial",
   "theorems": [
    "Verif.BroadPhase.c21_false",
    "Verif.BroadPhase.c21_axis_always_x2",
    "Verif.BroadPhase.c21_axis_always_x3",
    "Verif.BroadPhase.c21_axis_partial",
    "Verif.BroadPhase.c21_axis3_partial",
    "Verif.BroadPhase.c21_compute_axis2_partial",
    "Verif.BroadPhase.c21_compute_axis3_partial"
   ],
   "note": "FALSE: the axis is always 0 (negation proved); right only if the shapes are spread most along x"
  },
  {
   "property": "C22",
   "status": "proved",
   "theorems": [
    "Verif.BroadPhase.c22_dbvt_general",
    "Verif.BroadPhase.c22_dbvt",
    "Verif.BroadPhase.c22_boxes2",
    "Verif.BroadPhase.c22_boxes3",
    "Verif.BroadPhase.c22_short_dirty_panics"
   ],
   "note": "exact whenever the traversal stack suffices; the only other outcome is the panic of C11, on more than 256 levels; spheres: Verif.Dbvt.c22_spheres"
  },
  {
   "property": "C23",
   "status": "proved",
   "theorems": [
    "Verif.BroadPhase.c23_dbvt_brute",
    "Verif.BroadPhase.c23_sap_brute"
   ],
   "note": ""
  },
  {
   "property": "C24",
   "status": "proved",
   "theorems": [
    "Verif.Geom.c24_new2",
    "Verif.Geom.c24_new3"
   ],
   "note": ""
  },
  {
   "property": "C25",
   "status": "proved",
   "theorems": [
    "Verif.Geom.c25_grow2",
    "Verif.Geom.c25_grow3",
    "Verif.Geom.c25_union_contains2",
    "Verif.Geom.c25_union_contains3",
    "Verif.Geom.c25_union_least2",
    "Verif.Geom.c25_union_least3",
    "Verif.Geom.c25_union_laws2",
    "Verif.Geom.c25_union_laws3"
   ],
   "note": ""
  },
  {
   "property": "C26",
   "status": "proved",
   "theorems": [
    "Verif.Geom.c26_contains2",
    "Verif.Geom.c26_contains3",
    "Verif.Geom.c26_order2",
    "Verif.Geom.c26_order3",
    "Verif.Geom.c26_point_line2",
    "Verif.Geom.c26_point_line3",
    "Verif.Geom.c26_line_segment2"
   ],
   "note": ""
  },
  {
   "property": "C27",
   "status": "proved",
   "theorems": [
    "Verif.Geom.c27_exact2",
    "Verif.Geom.c27_exact3",
    "Verif.Geom.c27_laws2",
    "Verif.Geom.c27_laws3"
   ],
   "note": ""
  },
  {
   "property": "C28",
   "status": "proved",
   "theorems": [
    "Verif.Geom.c28_transform2",
    "Verif.Geom.c28_transform3"
   ],
   "note": "for every affine map"
  },
  {
   "property": "C29",
   "status": "proved",
   "theorems": [
    "Verif.Geom.c29_margin2",
    "Verif.Geom.c29_margin3",
    "Verif.Geom.c29_images2",
    "Verif.Geom.c29_images3",
    "Verif.Geom.c29_measures2",
    "Verif.Geom.c29_measures3",
    "Verif.Geom.c29_formulas"
   ],
   "note": ""
  },
  {
   "property": "C30",
   "status": "proved",
   "theorems": [
    "Verif.Geom.c30_ray_aabb2",
    "Verif.Geom.c30_which2"
   ],
   "note": "exact arithmetic with IEEE infinities and NaN"
  },
  {
   "property": "C31",
   "status": "proved",
   "theorems": [
    "Verif.Geom.c31_ray_aabb3",
    "Verif.Geom.c31_ray_flat3",
    "Verif.Geom.c31_which3",
    "Verif.Geom.c31_flat_not_monotone"
   ],
   "note": "c31_ray_flat3: every normalised box, flat ones included"
  },
  {
   "property": "C32",
   "status": "partial",
   "theorems": [
    "Verif.Geom.c32_sphere",
    "Verif.Geom.c32_segment",
    "Verif.Geom.c30_ray_aabb2",
    "Verif.Geom.c31_ray_aabb3",
    "Verif.Geom.c45_point_ray2",
    "Verif.Geom.c45_point_ray3",
    "Verif.Geom.c32_plane_partial",
    "Verif.Geom.c32_plane_false"
   ],
   "note": "FALSE for a ray lying in a plane: negation proved (c32_plane_false); holds for boxes, spheres, segments, points, and planes otherwise"
  },
  {
   "property": "C33",
   "status": "proved",
   "theorems": [
    "Verif.Geom.c33_point",
    "Verif.Geom.c33_sphere",
    "Verif.Geom.c33_box",
    "Verif.Geom.c33_box_sphere",
    "Verif.Geom.c33_extents",
    "Verif.Geom.c33_transform",
    "Verif.Geom.c33_transform_scale"
   ],
   "note": ""
  },
  {
   "property": "C34",
   "status": "proved",
   "theorems": [
    "Verif.Geom.c34_union"
   ],
   "note": ""
  },
  {
   "property": "C35",
   "status": "partial",
   "theorems": [
    "Verif.Geom.c35_box_union_sphere",
    "Verif.Geom.c35_sphere_union_box_partial",
    "Verif.Geom.c35_false"
   ],
   "note": "FALSE for Sphere.union(Aabb3): negation proved; proved for the code paths that are right"
  },
  {
   "property": "C36",
   "status": "proved",
   "theorems": [
    "Verif.Geom.c36_exact",
    "Verif.Geom.c36_laws"
   ],
   "note": ""
  },
  {
   "property": "C37",
   "status": "partial",
   "theorems": [
    "Verif.Geom.c37_first_hit_partial",
    "Verif.Geom.c37_false",
    "Verif.Primitive.c37_ball_partial",
    "Verif.Primitive.c37_circle_partial"
   ],
   "note": "FALSE when the origin is inside: negation proved; proved for origins not strictly inside"
  },
  {
   "property": "C38",
   "status": "partial",
   "theorems": [
    "Verif.Geom.c38_constructors",
    "Verif.Geom.c38_normalize",
    "Verif.Geom.c38_from_points_partial",
    "Verif.Geom.c38_false"
   ],
   "note": "FALSE for from_points (sign of d): negation proved"
  },
  {
   "property": "C39",
   "status": "partial",
   "theorems": [
    "Verif.Geom.c39_ray_plane_partial",
    "Verif.Geom.c39_false",
    "Verif.Geom.c39_from_points"
   ],
   "note": "FALSE under the documented convention: negation proved; exact for the convention n.x + d = 0"
  },
  {
   "property": "C40",
   "status": "proved",
   "theorems": [
    "Verif.Geom.c40_two_planes",
    "Verif.Geom.c40_three_planes"
   ],
   "note": ""
  },
  {
   "property": "C41",
   "status": "proved",
   "theorems": [
    "Verif.Geom.c41_point",
    "Verif.Geom.c41_box",
    "Verif.Geom.c41_sphere",
    "Verif.Geom.c41_frustum",
    "Verif.Geom.c41_frustum_point",
    "Verif.Geom.c41_frustum_box",
    "Verif.Geom.c41_frustum_sphere"
   ],
   "note": ""
  },
  {
   "property": "C42",
   "status": "proved",
   "theorems": [
    "Verif.Geom.c42_clip_space",
    "Verif.Geom.c42_none"
   ],
   "note": ""
  },
  {
   "property": "C43",
   "status": "partial",
   "theorems": [
    "Verif.Geom.c43_ortho_partial",
    "Verif.Geom.c43_false"
   ],
   "note": "FALSE (signs): negation proved; the partial theorem gives the box that is actually accepted"
  },
  {
   "property": "C44",
   "status": "proved",
   "theorems": [
    "Verif.Geom.c44_ray_segment"
   ],
   "note": ""
  },
  {
   "property": "C45",
   "status": "proved",
   "theorems": [
    "Verif.Geom.c45_point_ray2",
    "Verif.Geom.c45_point_ray3"
   ],
   "note": ""
  },
  {
   "property": "C46",
   "status": "partial",
   "theorems": [
    "Verif.Primitive.c46_rectangle",
    "Verif.Primitive.c46_cuboid",
    "Verif.Primitive.c46_quad",
    "Verif.Primitive.c46_line",
    "Verif.Primitive.c46_circle",
    "Verif.Primitive.c46_sphere",
    "Verif.Primitive.c46_capsule",
    "Verif.Primitive.c46_cylinder",
    "Verif.Primitive.c46_small_polygon",
    "Verif.Primitive.c46_polyhedron",
    "Verif.Primitive.c62_hill_climb"
   ],
   "note": "missing: polygons of ten or more vertices, where it is FALSE, see C50"
  },
  {
   "property": "C47",
   "status": "proved",
   "theorems": [
    "Verif.Primitive.c47_polytopes",
    "Verif.Primitive.c47_vertices2",
    "Verif.Primitive.c47_vertices3",
    "Verif.Primitive.c47_origin",
    "Verif.Primitive.c47_round"
   ],
   "note": ""
  },
  {
   "property": "C48",
   "status": "partial",
   "theorems": [
    "Verif.Primitive.c48_round_partial",
    "Verif.Primitive.c48_polyhedron",
    "Verif.Primitive.c48_polyhedron_faces",
    "Verif.Primitive.c48_false",
    "Verif.Primitive.c48_always_false",
    "Verif.Primitive.c48_box_axes_partial",
    "Verif.Primitive.c48_quad_axes_partial"
   ],
   "note": "FALSE for Cuboid, Cube and Quad: negation proved"
  },
  {
   "property": "C49",
   "status": "partial",
   "theorems": [
    "Verif.Primitive.c49_ray_polygon_partial",
    "Verif.Primitive.c49_last_edge_missed",
    "Verif.Primitive.c49_false",
    "Verif.Primitive.c49_empty_panics"
   ],
   "note": "FALSE: the edge between the last two vertices is never tested (negation proved, and that it fails on every polygon); proved for every entry point not on that edge"
  },
  {
   "property": "C50",
   "status": "partial",
   "theorems": [
    "Verif.Primitive.c50_support_partial",
    "Verif.Primitive.c50_vertex",
    "Verif.Primitive.c50_mid_start",
    "Verif.Primitive.c50_false",
    "Verif.Primitive.c50_tie_false"
   ],
   "note": "FALSE: negation proved; proved when the furthest vertex is unique and not the start of the climb or a neighbour of it"
  },
  {
   "property": "C51",
   "status": "partial",
   "theorems": [
    "Verif.Primitive.c51_dedup_partial",
    "Verif.Primitive.c51_trailing_partial",
    "Verif.Primitive.c51_panics",
    "Verif.Primitive.c51_false"
   ],
   "note": "FALSE: negation proved; exact characterisation of the indices that survive; holds when all repetitions come last"
  },
  {
   "property": "C52",
   "status": "partial",
   "theorems": [
    "Verif.Minkowski.c52_2d",
    "Verif.Minkowski.c52_prim2",
    "Verif.Minkowski.c52_3d_partial",
    "Verif.Minkowski.c52_prim3_partial",
    "Verif.Minkowski.c52_3d_false"
   ],
   "note": "2D: proved for all shapes and for every pair of library primitives. 3D: FALSE (negation proved: two overlapping cubes offset along x are reported apart); holds when the first two support points are not in line with the origin. Runs that never decide (also for overlapping shapes) are C83; ulps_eq! taken as equality, see C104 for its tolerance"
  },
  {
   "property": "C53",
   "status": "proved",
   "theorems": [
    "Verif.Minkowski.c53_2d",
    "Verif.Minkowski.c53_prim2",
    "Verif.Minkowski.c53_3d",
    "Verif.Minkowski.c53_prim3",
    "Verif.Minkowski.c53_3d_round",
    "Verif.Minkowski.c53_3d_all",
    "Verif.Minkowski.c53_3d_nan",
    "Verif.Minkowski.c53_prim3_all"
   ],
   "note": "2D and 3D: all primitives. In 3D a run can ask a sphere or capsule for its support in direction zero (NaN in the code, the model stops there); proved: only for shapes that share a point; ulps_eq! taken as equality, see C104 for its tolerance"
  },
  {
   "property": "C54",
   "status": "proved",
   "theorems": [
    "Verif.Minkowski.c54_2d",
    "Verif.Minkowski.c54_3d",
    "Verif.Minkowski.c54_prim2",
    "Verif.Minkowski.c54_prim3"
   ],
   "note": "soundness of a returned distance: at most the gap of any pair of points plus the tolerance bound, attained by a pair. Completeness is FALSE: c54_none_false (separated shapes reported None), c54_particles_false"
  },
  {
   "property": "C55",
   "status": "proved",
   "theorems": [
    "Verif.Minkowski.c55_2d",
    "Verif.Minkowski.c55_pipeline_2d",
    "Verif.Minkowski.c55_prim2",
    "Verif.Minkowski.c55_3d",
    "Verif.Minkowski.c55_prim3",
    "Verif.Minkowski.c55_3d_example"
   ],
   "note": "2D and 3D, every starting simplex; 2D also positive depth, contact point in the left shape, and end to end through GJK for every pair of primitives. The 3D outcome nan (first face of zero area) is outside the claim"
  },
  {
   "property": "C56",
   "status": "proved",
   "theorems": [
    "Verif.Minkowski.c56_full",
    "Verif.Minkowski.c56_only",
    "Verif.Minkowski.c56_total",
    "Verif.Minkowski.c56_toi",
    "Verif.Minkowski.c56_toi_only",
    "Verif.Minkowski.c56_distance",
    "Verif.Minkowski.c56_distance_prim2",
    "Verif.Minkowski.c56_intersect_prim2",
    "Verif.Minkowski.c56_toi_prim2",
    "Verif.Minkowski.c56_distance_prim3",
    "Verif.Minkowski.c56_intersect_prim3",
    "Verif.Minkowski.c56_toi_prim3"
   ],
   "note": "list part for any pairwise test; end to end for compound shapes of 2D and 3D primitives (3D as far as the pairwise theorems go)"
  },
  {
   "property": "C57",
   "status": "partial",
   "theorems": [
    "Verif.Primitive.c57_clip2",
    "Verif.Primitive.c57_clip3",
    "Verif.Primitive.c57_exact2",
    "Verif.Primitive.c57_exact3",
    "Verif.Primitive.c57_transformed2",
    "Verif.Primitive.c57_transformed3",
    "Verif.Primitive.c57_segment",
    "Verif.Primitive.c57_sphere_partial",
    "Verif.Primitive.c57_sphere_inside_false",
    "Verif.Primitive.c57_particle_ray2",
    "Verif.Primitive.c57_particle_ray3"
   ],
   "note": "exact for every shape whose own ray test is exact on the movement ray; FALSE for a particle that starts inside a sphere (negation proved)"
  },
  {
   "property": "C58",
   "status": "partial",
   "theorems": [
    "Verif.Geom.c58_ends",
    "Verif.Geom.c58_affine",
    "Verif.Geom.c58_same",
    "Verif.Geom.c58_reverse",
    "Verif.Geom.c58_translation",
    "Verif.Geom.c58_points",
    "Verif.Geom.c58_basis3",
    "Verif.Geom.c58_dec3",
    "Verif.Geom.c58_basis2_partial",
    "Verif.Geom.c58_basis2_false"
   ],
   "note": "proved for displacement, scale, quaternion rotations, 3D rotation matrices (through the conversions to and from quaternions) and translation_interpolate; FALSE for 2D rotations by negative angles (negation proved for all of them)"
  },
  {
   "property": "C59",
   "status": "proved",
   "theorems": [
    "Verif.Dbvt.c59_wrapped2",
    "Verif.Dbvt.c59_wrapped3",
    "Verif.Dbvt.c59_wrapped_sphere",
    "Verif.Dbvt.c59_wrapped_query2",
    "Verif.Dbvt.c59_fat2",
    "Verif.Dbvt.c59_fat3",
    "Verif.Dbvt.c59_fat_sphere"
   ],
   "note": "c59_fat*: the fat bound is the bound grown by exactly the margin"
  },
  {
   "property": "C60",
   "status": "partial",
   "theorems": [
    "Verif.Geom.c60_intersection2",
    "Verif.Geom.c60_intersection3",
    "Verif.Geom.c60_intersects2",
    "Verif.Geom.c60_intersects3",
    "Verif.Geom.c60_singular",
    "Verif.Geom.c60_segment",
    "Verif.Geom.c60_box2",
    "Verif.Geom.c60_box3",
    "Verif.Geom.c60_sphere_partial",
    "Verif.Geom.c60_sphere_decomposed_partial",
    "Verif.Geom.c60_false"
   ],
   "note": "proved for every shape whose own ray test is exact on the local ray, hence segments and boxes under every invertible affine map and spheres under isometries; FALSE for spheres under scaling (negation proved)"
  },
  {
   "property": "C61",
   "status": "proved",
   "theorems": [
    "Verif.Primitive.c61_rectangle",
    "Verif.Primitive.c61_square",
    "Verif.Primitive.c61_cuboid",
    "Verif.Primitive.c61_cube",
    "Verif.Primitive.c61_quad",
    "Verif.Primitive.c61_exact2",
    "Verif.Primitive.c61_exact3",
    "Verif.Primitive.c61_which2",
    "Verif.Primitive.c61_which3"
   ],
   "note": ""
  },
  {
   "property": "C62",
   "status": "proved",
   "theorems": [
    "Verif.Primitive.c62_hill_climb",
    "Verif.Primitive.c62_faces_iter",
    "Verif.Primitive.tetra_convex"
   ],
   "note": ""
  },
  {
   "property": "C63",
   "status": "proved",
   "theorems": [
    "Verif.Primitive.c63_ray",
    "Verif.Primitive.c63_inside"
   ],
   "note": "any number of faces, coplanar neighbours allowed"
  },
  {
   "property": "C64",
   "status": "partial",
   "theorems": [
    "Verif.Primitive.c63_ray",
    "Verif.Primitive.c63_no_faces_panics"
   ],
   "note": "FALSE for polyhedra built without faces: every ray test panics (proved for all vertex lists and rays); holds for convex polyhedra with faces"
  },
  {
   "property": "C65",
   "status": "proved",
   "theorems": [
    "Verif.Minkowski.c65",
    "Verif.Minkowski.c65_exact",
    "Verif.Minkowski.c65_prim2"
   ],
   "note": "rank argument: nested caps of the Minkowski difference; ulps_eq! taken as equality, see C104 for its tolerance"
  },
  {
   "property": "C66",
   "status": "proved",
   "theorems": [
    "Verif.Minkowski.c66_2d",
    "Verif.Minkowski.c66_prim2",
    "Verif.Minkowski.c66_no_panic",
    "Verif.Minkowski.c66_3d",
    "Verif.Minkowski.c66_prim3"
   ],
   "note": "2D and 3D, every run that answers; additionally two points of the shapes are at the reported time exactly as far apart as the reported depth, whose square is at most the tolerance, and the normal separates the shapes. Relative rest of circles, spheres and capsules, where a support point is NaN, is C93 (false). Termination of the loop (unbounded in the code) is C85"
  },
  {
   "property": "C67",
   "status": "proved",
   "theorems": [
    "Verif.Primitive.c67_support2",
    "Verif.Primitive.c67_support3",
    "Verif.Primitive.c67_bound2",
    "Verif.Primitive.c67_bound3"
   ],
   "note": "polygons with at most nine vertices (C50 for larger ones)"
  },
  {
   "property": "C68",
   "status": "partial",
   "theorems": [
    "Verif.Minkowski.c54_none_false",
    "Verif.Minkowski.c54_particles_false",
    "Verif.Minkowski.c68_cycle_false",
    "Verif.Minkowski.c95_circles",
    "Verif.Minkowski.c95_spheres"
   ],
   "note": "FALSE as stated, negation proved: a point and a segment at distance 1 give None; two particles always give None; a trapezoid and a particle two units apart, the nearest point in the middle of a side, send the search round in a circle. True for two circles and two spheres (C95)"
  },
  {
   "property": "C69",
   "status": "partial",
   "theorems": [
    "Verif.Minkowski.c69_toi_point_false",
    "Verif.Minkowski.c69_point2_partial",
    "Verif.Minkowski.c69_point3_partial"
   ],
   "note": "FALSE as stated, negation proved; the point that is reported is characterised exactly, in particular it is the position of the right shape for shapes in contact at the start"
  },
  {
   "property": "C70",
   "status": "partial",
   "theorems": [
    "Verif.Minkowski.c55_exact_2d",
    "Verif.Minkowski.c70_2d_partial",
    "Verif.Minkowski.c70_prim2_partial",
    "Verif.Minkowski.c70_polygons_2d_partial",
    "Verif.Minkowski.c70_polygons_prim2_partial",
    "Verif.Minkowski.c70_false"
   ],
   "note": "FALSE as stated, negation proved on two rectangles through GJK and EPA: an edge in line with the origin is skipped and a wrong face is reported. Proved exact (within the tolerance) in 2D when no side of the GJK triangle is in line with the origin; for shapes with vertices the tolerance test is then always met within the default 100 iterations. In 3D the property holds: C79"
  },
  {
   "property": "C71",
   "status": "proved",
   "theorems": [
    "Verif.Primitive.c71_capsule",
    "Verif.Primitive.c71_sound",
    "Verif.Primitive.c71_complete",
    "Verif.Primitive.c7x_example"
   ],
   "note": ""
  },
  {
   "property": "C72",
   "status": "partial",
   "theorems": [
    "Verif.Primitive.c72_capsule_partial",
    "Verif.Primitive.c72_surface_partial",
    "Verif.Primitive.c72_sound_partial",
    "Verif.Primitive.c72_false",
    "Verif.Primitive.c7x_example"
   ],
   "note": "FALSE in two ways (negation proved): answers that are not on the capsule, and hits on the end caps that are lost; proved for rays along the axis, rays starting inside the unbounded tube, and rays that enter by the straight side"
  },
  {
   "property": "C73",
   "status": "partial",
   "theorems": [
    "Verif.Primitive.c73_sound_partial",
    "Verif.Primitive.c73_complete_partial",
    "Verif.Primitive.c73_bottom_missed",
    "Verif.Primitive.c73_axis_partial",
    "Verif.Primitive.c74_surface_partial",
    "Verif.Primitive.c73_false"
   ],
   "note": "FALSE in two ways (negation proved): axis-parallel rays ignore the distance to the axis; the bottom disc is never tested (proved for all such rays)"
  },
  {
   "property": "C74",
   "status": "partial",
   "theorems": [
    "Verif.Primitive.c74_sound_partial",
    "Verif.Primitive.c74_side_partial",
    "Verif.Primitive.c74_top_partial",
    "Verif.Primitive.c74_axis_partial",
    "Verif.Primitive.c74_axis_inside",
    "Verif.Primitive.c74_surface_partial",
    "Verif.Primitive.c74_false",
    "Verif.Primitive.c7x_example"
   ],
   "note": "FALSE in three ways (negation proved); sound for all rays that are not parallel to the axis; exact for rays that enter by the side, that start above the cylinder inside the tube, or along the axis"
  },
  {
   "property": "C75",
   "status": "partial",
   "theorems": [
    "Verif.Primitive.c75_primitive2",
    "Verif.Primitive.c75_primitive3_partial",
    "Verif.Primitive.c75_capsule",
    "Verif.Primitive.c75_example"
   ],
   "note": "2D: proved for all primitives; 3D: not for cylinders and the continuous test of capsules, where it is FALSE (c72_false, c74_false)"
  },
  {
   "property": "C76",
   "status": "partial",
   "theorems": [
    "Verif.Geom.c76_basis2",
    "Verif.Geom.c76_ends_partial",
    "Verif.Geom.c76_quaternion_length",
    "Verif.Geom.c76_quaternion_false",
    "Verif.Geom.c76_shrinks_false",
    "Verif.Geom.c76_basis3_false",
    "Verif.Geom.c76_example"
   ],
   "note": "2D: proved; quaternions and 3D rotation matrices: FALSE for all interior amounts between different rotations (proved): lerp is not normalised, so lengths shrink"
  },
  {
   "property": "C77",
   "status": "proved",
   "theorems": [
    "Verif.Geom.c77_bound",
    "Verif.Geom.c77_box",
    "Verif.Geom.c77_sphere",
    "Verif.Geom.c77_point"
   ],
   "note": ""
  },
  {
   "property": "C78",
   "status": "partial",
   "theorems": [
    "Verif.Geom.c78_box2_partial",
    "Verif.Geom.c78_box3_partial",
    "Verif.Geom.c78_sphere_partial",
    "Verif.Geom.c78_false"
   ],
   "note": "FALSE as stated (negation proved): the empty volume is the origin, so it is neutral exactly for volumes that contain the origin (proved)"
  },
  {
   "property": "C79",
   "status": "proved",
   "theorems": [
    "Verif.Minkowski.c79_3d",
    "Verif.Minkowski.c79_3d_round",
    "Verif.Minkowski.c79_prim3",
    "Verif.Minkowski.c79_cuboids",
    "Verif.Minkowski.c79_prim3_round",
    "Verif.Minkowski.c79_3d_all",
    "Verif.Minkowski.c79_prim3_all",
    "Verif.Minkowski.c79_example"
   ],
   "note": "for every simplex GJK returns, every pair of primitives (a run that meets NaN, C87, returns none in the model). The polytope stays a closed convex surface around an inner point of the GJK tetrahedron (parity of the cones over its faces)"
  },
  {
   "property": "C80",
   "status": "partial",
   "theorems": [
    "Verif.Minkowski.c80_2d",
    "Verif.Minkowski.c80_pipeline_2d",
    "Verif.Minkowski.c80_prim2",
    "Verif.Minkowski.c80_3d_partial",
    "Verif.Minkowski.c80_prim3_partial",
    "Verif.Minkowski.c80_prim3_all_partial",
    "Verif.Minkowski.c80_particle",
    "Verif.Minkowski.c80_right_point",
    "Verif.Minkowski.c80_left_point",
    "Verif.Minkowski.c80_false"
   ],
   "note": "2D: proved. 3D: FALSE in general, negation proved on two axis-aligned boxes (contact point (-1, 6/5, 1), the left box ends at y = 1): when a flat side of the Minkowski difference is split into several triangles, EPA takes the first of equal distance, which need not hold the foot of the perpendicular, and the weights are negative. Proved in 3D: the point is the affine combination of support points whose difference is normal * depth; exact against a particle"
  },
  {
   "property": "C81",
   "status": "proved",
   "theorems": [
    "Verif.BroadPhase.c81_query2",
    "Verif.BroadPhase.c81_query3",
    "Verif.BroadPhase.c81_point2",
    "Verif.BroadPhase.c81_point3",
    "Verif.BroadPhase.c81_pairs2",
    "Verif.BroadPhase.c81_pairs3",
    "Verif.BroadPhase.c81_sap2",
    "Verif.BroadPhase.c81_sap3",
    "Verif.BroadPhase.c81_margin2",
    "Verif.BroadPhase.c81_margin3"
   ],
   "note": "any linear order of coordinates, arbitrary scalar operations; see also C24-C27, whose order laws hold for any linear order"
  },
  {
   "property": "C82",
   "status": "partial",
   "theorems": [
    "Verif.Geom.c82_quaternion",
    "Verif.Geom.c82_basis3_partial",
    "Verif.Geom.c82_basis3_false"
   ],
   "note": "quaternions: proved; 3D rotation matrices: proved up to a third of a turn, FALSE beyond (negation proved): the sign of the quaternion chosen by the conversion jumps"
  },
  {
   "property": "C83",
   "status": "partial",
   "theorems": [
    "Verif.Minkowski.c83_bound_partial",
    "Verif.Minkowski.c83_prim3_partial",
    "Verif.Minkowski.c83_false"
   ],
   "note": "FALSE as stated, negation proved: two overlapping boxes for which the search goes round in a circle with period 5, so GJK answers None with every iteration limit. Proved: beyond (mn)^3+(mn)^2+2 iterations the limit never changes the answer"
  },
  {
   "property": "C84",
   "status": "partial",
   "theorems": [
    "Verif.Minkowski.c84_2d_partial",
    "Verif.Minkowski.c84_prim2_partial",
    "Verif.Minkowski.c84_false"
   ],
   "note": "2D: proved, for all support functions that answer and for every pair of library primitives. 3D: FALSE, negation proved: a cube of side 2 and a box of 2 x 2 x 6 that are apart; the simplex becomes a degenerate triangle and Plane::from_points(..).unwrap() panics"
  },
  {
   "property": "C85",
   "status": "partial",
   "theorems": [
    "Verif.Minkowski.c85_2d_partial",
    "Verif.Minkowski.c85_prim2_partial",
    "Verif.Minkowski.c85_curved_2d",
    "Verif.Minkowski.c85_curved_prim2",
    "Verif.Minkowski.c85_false",
    "Verif.Minkowski.c85_panic_false"
   ],
   "note": "2D: proved for every pair of primitives with vertices, with the bound, and for every pair of primitives, circles included, that move relative to each other, with a bound from the tolerance. 3D: FALSE, negations proved: a cube and a box that move towards each other for which the loop goes round in a circle for ever (with every tolerance below 0.18), and another pair for which the assertion in get_closest_point_on_face fails"
  },
  {
   "property": "C86",
   "status": "proved",
   "theorems": [
    "Verif.Minkowski.c86_2d",
    "Verif.Minkowski.c86_prim2",
    "Verif.Minkowski.c86_exact_prim2",
    "Verif.Minkowski.c86_3d",
    "Verif.Minkowski.c86_prim3",
    "Verif.Minkowski.c86_3d_all",
    "Verif.Minkowski.c86_prim3_all"
   ],
   "note": "2D: all support functions, every pair of primitives. 3D: every pair of primitives, whenever the run of GJK meets no NaN (always so for primitives without rounded parts, c86_prim3)"
  },
  {
   "property": "C87",
   "status": "partial",
   "theorems": [
    "Verif.Minkowski.c87_circles",
    "Verif.Minkowski.c87_circles_depth",
    "Verif.Minkowski.c87_spheres_partial",
    "Verif.Minkowski.c87_false",
    "Verif.Minkowski.gjk_balls_axis",
    "Verif.Minkowski.c87_spheres_example"
   ],
   "note": "circles: full; spheres: all placements except centres that differ along the first axis only, where the property is false (c87_false: a support request in direction zero, NaN in the code)"
  },
  {
   "property": "C88",
   "status": "proved",
   "theorems": [
    "Verif.Minkowski.c88_collision_2d",
    "Verif.Minkowski.c88_full_2d",
    "Verif.Minkowski.c88_distance_2d",
    "Verif.Minkowski.c88_toi_2d",
    "Verif.Minkowski.c88_collision_3d",
    "Verif.Minkowski.c88_full_3d",
    "Verif.Minkowski.c88_distance_3d",
    "Verif.Minkowski.c88_toi_3d",
    "Verif.Minkowski.c88_example"
   ],
   "note": "exact arithmetic: every value the algorithms branch on is a difference of support points. Full resolution in 3D includes the answers NaN and exhausted"
  },
  {
   "property": "C89",
   "status": "partial",
   "theorems": [
    "Verif.Minkowski.c89_collision_2d_partial",
    "Verif.Minkowski.c89_full_2d_partial",
    "Verif.Minkowski.c89_distance_2d_partial",
    "Verif.Minkowski.c89_toi_2d",
    "Verif.Minkowski.c89_centred_2d",
    "Verif.Minkowski.c89_false"
   ],
   "note": "2D: proved for every pair of primitives whose placements put the origin at different points (time of impact: always); with the same origin the orders can differ only for shapes that just touch (c89_centred_2d). 3D: FALSE, negation proved: two overlapping cubes reported as colliding in one order and as apart in the other"
  },
  {
   "property": "C90",
   "status": "partial",
   "theorems": [
    "Verif.Scene.c90_brute",
    "Verif.Scene.c90_sweep",
    "Verif.Scene.c90_tree",
    "Verif.Scene.c90_tree_built",
    "Verif.Scene.c90_example",
    "Verif.Scene.c90_broad_3d_partial",
    "Verif.Scene.c90_thin_false"
   ],
   "note": "false: a very thin overlap of a circle and a polygon uses up the 100 iterations of GJK and is dropped (c90_thin_false). 2D: exact up to touching for pairs of polygons and pairs of circles; for a circle against a polygon: a reported pair shares a point, and a pair that overlaps by at least a 31st of its extent is reported. 3D: the broad phase loses no pair; the narrow phase does (c52_3d_false)"
  },
  {
   "property": "C91",
   "status": "proved",
   "theorems": [
    "Verif.Minkowski.c91_2d",
    "Verif.Minkowski.c91_default_2d",
    "Verif.Minkowski.c91_prim2",
    "Verif.Minkowski.c91_example",
    "Verif.Minkowski.c91_no_limit"
   ],
   "note": "c91_no_limit: no limit is enough for all overlaps of a circle and a triangle, so the bound in terms of r and m is needed; all 2D shapes with correct support functions; in 3D the search can go round in a circle (C83)"
  },
  {
   "property": "C92",
   "status": "partial",
   "theorems": [
    "Verif.Minkowski.epa2_bound",
    "Verif.Minkowski.c92_2d_partial",
    "Verif.Minkowski.c92_prim2_partial",
    "Verif.Minkowski.c92_example",
    "Verif.Minkowski.c92_false"
   ],
   "note": "proved when no side of the triangle from GJK is in line with the origin; false otherwise: EPA can report a wrong depth whatever the number of iterations (c92_false)"
  },
  {
   "property": "C93",
   "status": "partial",
   "theorems": [
    "Verif.Minkowski.c93_prim2_partial",
    "Verif.Minkowski.c93_prim3_partial",
    "Verif.Minkowski.c93_false",
    "Verif.Minkowski.c93_round3_false"
   ],
   "note": "2D, every pair of primitives with vertices: proved. 3D: proved for every run that answers (C85). Circles, spheres and capsules: FALSE, negation proved: a round shape at relative rest is asked for its support point in direction zero (NaN), and the code answers None, overlap or not"
  },
  {
   "property": "C94",
   "status": "proved",
   "theorems": [
    "Verif.Geom.c94_box2",
    "Verif.Geom.c94_box3",
    "Verif.Geom.c94_mono2",
    "Verif.Geom.c94_mono3",
    "Verif.Geom.c94_sphere"
   ],
   "note": "pi is the real number; the code uses its f64 approximation"
  },
  {
   "property": "C95",
   "status": "proved",
   "theorems": [
    "Verif.Minkowski.c95_circles",
    "Verif.Minkowski.c95_spheres",
    "Verif.Minkowski.c95_circle_particle",
    "Verif.Minkowski.c95_sphere_particle",
    "Verif.Minkowski.discs_distance",
    "Verif.Minkowski.balls_distance"
   ],
   "note": "in exact arithmetic, for shapes not both of radius zero (two particles: c54_particles_false)"
  },
  {
   "property": "C96",
   "status": "partial",
   "theorems": [
    "Verif.Minkowski.c96_collision_2d",
    "Verif.Minkowski.c96_full_2d",
    "Verif.Minkowski.c96_distance_2d",
    "Verif.Minkowski.c96_toi_2d",
    "Verif.Minkowski.c96_centred_2d",
    "Verif.Minkowski.c96_centred_false",
    "Verif.Minkowski.c96_example"
   ],
   "note": "proved for every pair of primitives and every similarity when the placements put the origin at different points, or the scene is not turned (time of impact: always). With the same origin and a turn the search starts in the fixed direction (1, 1): the collision answers can then differ only for shapes that just touch (c96_centred_2d); the normal then does not turn with the scene (c96_centred_false, negation proved on two concentric circles); ulps_eq! taken as equality, see C104 for its tolerance"
  },
  {
   "property": "C97",
   "status": "proved",
   "theorems": [
    "Verif.Geom.c97_perspective",
    "Verif.Geom.c97_fov",
    "Verif.Geom.c97_near_zero"
   ],
   "note": "the projection matrices are those of cgmath 0.18, written down in the model"
  },
  {
   "property": "C98",
   "status": "proved",
   "theorems": [
    "Verif.Scene.c98_boxes",
    "Verif.Scene.c98_spheres",
    "Verif.Scene.c98_built"
   ],
   "note": "trees of at most 256 levels (C11)"
  },
  {
   "property": "C99",
   "status": "proved",
   "theorems": [
    "Verif.Dbvt.c99_ray2",
    "Verif.Dbvt.c99_ray3",
    "Verif.Dbvt.c99_frustum",
    "Verif.Dbvt.c99_relate",
    "Verif.Dbvt.c99_mono_ray2",
    "Verif.Dbvt.c99_mono_ray3",
    "Verif.Dbvt.c99_mono_frustum",
    "Verif.Dbvt.c99_no_miss2",
    "Verif.Dbvt.c99_exact_intersects2",
    "Verif.Dbvt.c99_exact_intersection2",
    "Verif.Dbvt.c99_exact_ray3",
    "Verif.Dbvt.c99_exact_frustum",
    "Verif.Dbvt.c99_margin2",
    "Verif.Dbvt.c99_margin3",
    "Verif.Dbvt.c99_exact_margin2",
    "Verif.Dbvt.c99_exact_margin3",
    "Verif.Dbvt.rnd64_nearest",
    "Verif.Dbvt.c99_mono_nan3",
    "Verif.Dbvt.c99_exact_nan3",
    "Verif.Scene.c99_nan_ray3",
    "Verif.Scene.c99_nan_built",
    "Verif.Scene.c99_built",
    "Verif.Scene.c99_f64_2d",
    "Verif.Scene.c99_f64_3d"
   ],
   "note": "c99_ray2/3, c99_frustum: any rounding, without NaN, which cannot occur in the 2D test with a finite ray; c99_nan_ray3: f64 with NaN, every finite ray in 3D, boxes that are not flat (with flat boxes and a zero component the claim is false, c15_flat_false)"
  }
 ]
}