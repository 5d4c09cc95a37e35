G='Verif.Geom.'; D='Verif.Dbvt.'; B='Verif.BroadPhase.'
claims=[
c('C17','proved',['c17_frustum_boxes','c17_frustum_spheres'],'exact whenever the traversal stack suffices; the only other outcome is the panic of C11, on more than 256 levels',D),
c('C19','proved',['c19_brute_force'],'',B),
c('C20','proved',['c20_sweep_and_prune','c20_boxes2','c20_boxes3','c20_spheres','c20_runs2','c20_runs3'],'axis below the dimension (otherwise the code panics)',B),
c('C21','partial',['c21_false','c21_axis_always_x2','c21_axis_always_x3','c21_axis_partial','c21_axis3_partial','c21_compute_axis2_partial','c21_compute_axis3_partial'],'FALSE: the axis is always 0 (negation proved); right only if the shapes are spread most along x',B),
c('C22','proved',['c22_dbvt_general','c22_dbvt','c22_boxes2','c22_boxes3','c22_short_dirty_panics'],'exact whenever the traversal stack suffices; the only other outcome is the panic of C11, on more than 256 levels; spheres: Verif.Dbvt.c22_spheres',B),
c('C23','proved',['c23_dbvt_brute','c23_sap_brute'],'',B),
c('C59','proved',['c59_wrapped2','c59_wrapped3','c59_wrapped_sphere','c59_wrapped_query2','c59_fat2','c59_fat3','c59_fat_sphere'],'c59_fat*: the fat bound is the bound grown by exactly the margin',D),
c('C81','proved',['c81_query2','c81_query3','c81_point2','c81_point3','c81_pairs2','c81_pairs3','c81_sap2','c81_sap3','c81_margin2','c81_margin3'],'any linear order of coordinates, arbitrary scalar operations; see also C24-C27, whose order laws hold for any linear order',B),
c('C102','partial',['c102_sweep_false','c102_tree_false','c102_brute2','c102_brute3','c102_sweep2_partial','c102_sweep3_partial','c102_tree2_partial','c102_tree3_partial'],'FALSE of sweep and prune and of the tree (negations proved); true of brute force; the sweep is right if the coordinates along its axis are numbers, the tree if the boxes now in it are proper, whatever was in it before',B),
]
