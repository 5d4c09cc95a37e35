G='Verif.Geom.'; P='Verif.Primitive.'
claims=[
c('C60','partial',['c60_intersection2','c60_intersection3','c60_intersects2','c60_intersects3','c60_singular','c60_segment','c60_box2','c60_box3','c60_sphere_partial','c60_sphere_decomposed_partial','c60_false'],'proved for every shape whose own ray test is exact on the local ray, hence segments and boxes under every invertible affine map and spheres under isometries; FALSE for spheres under scaling (negation proved)',G),
c('C46','partial',['c46_rectangle','c46_cuboid','c46_quad','c46_line','c46_circle','c46_sphere','c46_capsule','c46_cylinder','c46_small_polygon','c46_polyhedron','c62_hill_climb'],'missing: polygons of ten or more vertices, where it is FALSE, see C50',P),
c('C47','proved',['c47_polytopes','c47_vertices2','c47_vertices3','c47_origin','c47_round'],'',P),
c('C48','partial',['c48_round_partial','c48_polyhedron','c48_polyhedron_faces','c48_false','c48_always_false','c48_box_axes_partial','c48_quad_axes_partial'],'FALSE for Cuboid, Cube and Quad: negation proved',P),
c('C61','proved',['c61_rectangle','c61_square','c61_cuboid','c61_cube','c61_quad','c61_exact2','c61_exact3','c61_which2','c61_which3'],'',P),
c('C49','partial',['c49_ray_polygon_partial','c49_last_edge_missed','c49_false','c49_empty_panics'],'FALSE: the edge between the last two vertices is never tested (negation proved, and that it fails on every polygon); proved for every entry point not on that edge',P),
c('C50','partial',['c50_support_partial','c50_vertex','c50_mid_start','c50_false','c50_tie_false'],'FALSE: negation proved; proved when the furthest vertex is unique and not the start of the climb or a neighbour of it',P),
c('C62','proved',['c62_hill_climb','c62_faces_iter','tetra_convex'],'',P),
c('C51','partial',['c51_dedup_partial','c51_trailing_partial','c51_panics','c51_false'],'FALSE: negation proved; exact characterisation of the indices that survive; holds when all repetitions come last',P),
c('C63','proved',['c63_ray','c63_inside'],'any number of faces, coplanar neighbours allowed',P),
c('C64','partial',['c63_ray','c63_no_faces_panics'],'FALSE for polyhedra built without faces: every ray test panics (proved for all vertex lists and rays); holds for convex polyhedra with faces',P),
c('C57','partial',['c57_clip2','c57_clip3','c57_exact2','c57_exact3','c57_transformed2','c57_transformed3','c57_segment','c57_sphere_partial','c57_sphere_inside_false','c57_particle_ray2','c57_particle_ray3'],'exact for every shape whose own ray test is exact on the movement ray; FALSE for a particle that starts inside a sphere (negation proved)',P),
c('C71','proved',['c71_capsule','c71_sound','c71_complete','c7x_example'],'',P),
c('C72','partial',['c72_capsule_partial','c72_surface_partial','c72_sound_partial','c72_false','c7x_example'],'FALSE in two ways (negation proved): answers that are not on the capsule, and hits on the end caps that are lost; proved for rays along the axis, rays starting inside the unbounded tube, and rays that enter by the straight side',P),
c('C73','partial',['c73_sound_partial','c73_complete_partial','c73_bottom_missed','c73_axis_partial','c74_surface_partial','c73_false'],'FALSE in two ways (negation proved): axis-parallel rays ignore the distance to the axis; the bottom disc is never tested (proved for all such rays)',P),
c('C74','partial',['c74_sound_partial','c74_side_partial','c74_top_partial','c74_axis_partial','c74_axis_inside','c74_surface_partial','c74_false','c7x_example'],'FALSE in three ways (negation proved); sound for all rays that are not parallel to the axis; exact for rays that enter by the side, that start above the cylinder inside the tube, or along the axis',P),
c('C75','partial',['c75_primitive2','c75_primitive3_partial','c75_capsule','c75_example'],'2D: proved for all primitives; 3D: not for cylinders and the continuous test of capsules, where it is FALSE (c72_false, c74_false)',P),
]
