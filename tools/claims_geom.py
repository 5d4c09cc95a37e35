G='Verif.Geom.'; D='Verif.Dbvt.'
claims=[
c('C15','partial',['c15_query_ray2','c15_query_ray3','c15_flat_false'],'2D: all boxes; 3D: boxes of positive extent; FALSE in 3D for flat boxes (negation proved). Stack: as C07',D),
c('C16','partial',['c16_false','c16_closest2_partial','c16_closest3_partial','c16_outside2_partial','c16_outside3_partial','c16_some_iff2','c16_some_iff3'],'FALSE as stated: negation proved; nearest answer proved when the origin of the ray lies in no branch volume; for every ray: None exactly if nothing is hit, and an answer is a hit value at its reported point',D),
c('C24','proved',['c24_new2','c24_new3'],'',G),
c('C25','proved',['c25_grow2','c25_grow3','c25_union_contains2','c25_union_contains3','c25_union_least2','c25_union_least3','c25_union_laws2','c25_union_laws3'],'',G),
c('C26','proved',['c26_contains2','c26_contains3','c26_order2','c26_order3','c26_point_line2','c26_point_line3','c26_line_segment2'],'',G),
c('C27','proved',['c27_exact2','c27_exact3','c27_laws2','c27_laws3'],'',G),
c('C28','proved',['c28_transform2','c28_transform3'],'for every affine map',G),
c('C29','proved',['c29_margin2','c29_margin3','c29_images2','c29_images3','c29_measures2','c29_measures3','c29_formulas'],'',G),
c('C30','proved',['c30_ray_aabb2','c30_which2'],'exact arithmetic with IEEE infinities and NaN',G),
c('C31','proved',['c31_ray_aabb3','c31_ray_flat3','c31_which3','c31_flat_not_monotone'],'c31_ray_flat3: every normalised box, flat ones included',G),
c('C32','partial',['c32_sphere','c32_segment','c30_ray_aabb2','c31_ray_aabb3','c45_point_ray2','c45_point_ray3','c32_plane_partial','c32_plane_false'],'FALSE for a ray lying in a plane: negation proved (c32_plane_false); holds for boxes, spheres, segments, points, and planes otherwise',G),
c('C33','proved',['c33_point','c33_sphere','c33_box','c33_box_sphere','c33_extents','c33_transform','c33_transform_scale'],'',G),
c('C34','proved',['c34_union'],'',G),
c('C35','partial',['c35_box_union_sphere','c35_sphere_union_box_partial','c35_false'],'FALSE for Sphere.union(Aabb3): negation proved; proved for the code paths that are right',G),
c('C36','proved',['c36_exact','c36_laws'],'',G),
dict(property='C37',status='partial',theorems=[G+'c37_first_hit_partial',G+'c37_false','Verif.Primitive.c37_ball_partial','Verif.Primitive.c37_circle_partial'],note='FALSE when the origin is inside: negation proved; proved for origins not strictly inside'),
c('C38','partial',['c38_constructors','c38_normalize','c38_from_points_partial','c38_false'],'FALSE for from_points (sign of d): negation proved',G),
c('C39','partial',['c39_ray_plane_partial','c39_false','c39_from_points'],'FALSE under the documented convention: negation proved; exact for the convention n.x + d = 0',G),
c('C40','proved',['c40_two_planes','c40_three_planes'],'',G),
c('C41','proved',['c41_point','c41_box','c41_sphere','c41_frustum','c41_frustum_point','c41_frustum_box','c41_frustum_sphere'],'',G),
c('C42','proved',['c42_clip_space','c42_none'],'',G),
c('C43','partial',['c43_ortho_partial','c43_false'],'FALSE (signs): negation proved; the partial theorem gives the box that is actually accepted',G),
c('C44','proved',['c44_ray_segment'],'',G),
c('C45','proved',['c45_point_ray2','c45_point_ray3'],'',G),
c('C58','partial',['c58_ends','c58_affine','c58_same','c58_reverse','c58_translation','c58_points','c58_basis3','c58_dec3','c58_basis2_partial','c58_basis2_false'],'proved for displacement, scale, quaternion rotations, 3D rotation matrices (through the conversions to and from quaternions) and translation_interpolate; FALSE for 2D rotations by negative angles (negation proved for all of them)',G),
c('C76','partial',['c76_basis2','c76_ends_partial','c76_quaternion_length','c76_quaternion_false','c76_shrinks_false','c76_basis3_false','c76_example'],'2D: proved; quaternions and 3D rotation matrices: FALSE for all interior amounts between different rotations (proved): lerp is not normalised, so lengths shrink',G),
c('C82','partial',['c82_quaternion','c82_basis3_partial','c82_basis3_false'],'quaternions: proved; 3D rotation matrices: proved up to a third of a turn, FALSE beyond (negation proved): the sign of the quaternion chosen by the conversion jumps',G),
c('C77','proved',['c77_bound','c77_box','c77_sphere','c77_point'],'',G),
c('C78','partial',['c78_box2_partial','c78_box3_partial','c78_sphere_partial','c78_false'],'FALSE as stated (negation proved): the empty volume is the origin, so it is neutral exactly for volumes that contain the origin (proved)',G),
c('C94','proved',['c94_box2','c94_box3','c94_mono2','c94_mono3','c94_sphere'],'pi is the real number; the code uses its f64 approximation',G),
c('C97','proved',['c97_perspective','c97_fov','c97_near_zero'],'the projection matrices are those of cgmath 0.18, written down in the model',G),
c('C98','proved',['c98_boxes','c98_spheres','c98_built'],'trees of at most 256 levels (C11)','Verif.Scene.'),
c('C99','proved',['Verif.Dbvt.'+t for t in ['c99_ray2','c99_ray3','c99_frustum','c99_relate','c99_mono_ray2','c99_mono_ray3','c99_mono_frustum','c99_no_miss2','c99_exact_intersects2','c99_exact_intersection2','c99_exact_ray3','c99_exact_frustum','c99_margin2','c99_margin3','c99_exact_margin2','c99_exact_margin3','rnd64_nearest','c99_mono_nan3','c99_exact_nan3']]+['Verif.Scene.c99_nan_ray3','Verif.Scene.c99_nan_built','Verif.Scene.c99_built','Verif.Scene.c99_f64_2d','Verif.Scene.c99_f64_3d'],'c99_ray2/3, c99_frustum: any rounding, without NaN, which cannot occur in the 2D test with a finite ray; c99_nan_ray3: f64 with NaN, every finite ray in 3D, boxes that are not flat (with flat boxes and a zero component the claim is false, c15_flat_false)'),
c('C103','partial',['Verif.Dbvt.c103_false','Verif.Dbvt.c103_partial','Verif.Dbvt.c103_exact','Verif.Dbvt.rnd64_nearest'],'FALSE of the code: in binary64 the union of two spheres can be too small (radius rounded down), and the tree then loses a value (c103_false, the rounding is proved to be to nearest by rnd64_nearest); proved: a query reports only values that pass the test themselves, none twice',''),
c('C100','partial',['c100_pick2','c100_built2','c100_pick3','c100_built3','c100_example'],'2D: every primitive (for polygons only what their own test reports, C49); 3D: not cylinders and capsules, whose tests are wrong (C72, C74), and boxes of positive extent (with flat ones query_ray itself loses hits, C15). Boxes that the ray only grazes along a side are not hit (C30, C31)','Verif.Scene.'),
c('C101','partial',['c101_brute2','c101_sweep2','c101_tree2','c101_3d_partial','c101_example'],'2D: all pairs for which the time of impact answers: not a circle at relative rest (C93); 3D: every run that answers (some do not return, C85)','Verif.Scene.'),
]
