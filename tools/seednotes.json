{
 "claims": {
  "g01": "C24 constructors and corners",
  "g03": "C28 transformed box contains the image of every point",
  "g04": "C28 transformed box contains the image of every point",
  "g05": "C29 measures, images, formulas",
  "g07": "C29 measures, images, formulas",
  "g12": "C29 measures, images, formulas",
  "g14": "C29 measures, images, formulas",
  "g15": "C29 measures, images, formulas",
  "g06": "C29/C59 margin on every side",
  "g08": "C26 half-open containment of points, lines",
  "g10": "C26 half-open containment of points, lines",
  "g09": "C26 containment is coordinatewise",
  "g11": "C25 union contains both",
  "g13": "C27 overlap is strict and symmetric",
  "r01": "C30 2D ray/box exact",
  "r02": "C30 2D ray/box exact",
  "r04": "C30 2D ray/box exact",
  "r03": "C31 3D ray/box exact",
  "r05": "C31 3D ray/box exact",
  "s01": "C37 first hit",
  "s02": "C37 first hit",
  "s03": "C33 containment",
  "s04": "C59 margin",
  "s05": "C34 union encloses both",
  "s06": "C36 overlap including touching",
  "s07": "C33 sphere/box containment",
  "s09": "C33 sphere/box containment",
  "s08": "C35 box union sphere",
  "s10": "C33 transformed sphere",
  "p01": "C38 plane equation",
  "p02": "C38 plane equation",
  "p07": "C38 plane equation",
  "p03": "C40 plane intersections",
  "p04": "C40 plane intersections",
  "p05": "C32 discrete = continuous",
  "p08": "C39 ray/plane",
  "f01": "C41 relation to a plane",
  "f04": "C41 relation to a plane",
  "f02": "C42/C77 frustum and clip space",
  "f03": "C42/C77 frustum and clip space",
  "f05": "C42/C77 frustum and clip space",
  "f06": "C42/C77 frustum and clip space",
  "f07": "C42/C77 frustum and clip space",
  "l01": "C44 ray/segment",
  "l02": "C44 ray/segment",
  "l03": "C44 ray/segment",
  "l04": "C45 point/ray",
  "t01": "C60 transformed rays",
  "t02": "C60 transformed rays",
  "i01": "C58 interpolation",
  "i02": "C58 interpolation",
  "i03": "C58 interpolation",
  "q02": "C46 support points",
  "q03": "C46 support points",
  "q04": "C46 support points",
  "q06": "C46 support points",
  "q10": "C46 support points",
  "q11": "C46 support points",
  "q12": "C46 support points",
  "q14": "C46 support points",
  "q05": "C47 boxes",
  "q07": "C37 circle",
  "q08": "C48 bounding spheres",
  "q09": "C48 bounding spheres",
  "q13": "C48 bounding spheres",
  "y01": "C49 polygon ray",
  "y02": "C49 polygon ray",
  "y07": "C49 polygon ray",
  "y03": "C50 hill climbing",
  "y04": "C50 hill climbing",
  "y06": "C50 hill climbing",
  "y05": "C46 small polygons",
  "h01": "C62/C63 half-edge structure",
  "h02": "C62/C63 half-edge structure",
  "h13": "C62/C63 half-edge structure",
  "h03": "C62 hill climbing",
  "h05": "C63 polyhedron rays",
  "h06": "C63 polyhedron rays",
  "h07": "C63 polyhedron rays",
  "h08": "C63 polyhedron rays",
  "h10": "C63 polyhedron rays",
  "h14": "C63 polyhedron rays",
  "h09": "C48 bounding sphere",
  "h12": "C51 dedup",
  "e01": "C67 dispatch",
  "e02": "C67 dispatch",
  "v01": "C75 enum rays",
  "v02": "C75 enum rays",
  "v03": "C75 enum rays",
  "c01": "C57 particle clipping",
  "c02": "C57 particle clipping",
  "o01": "C72 capsule first point",
  "o02": "C72 capsule first point",
  "o03": "C72 capsule first point",
  "o04": "C74 cylinder first point",
  "o05": "C71 capsule",
  "o06": "C71-C74",
  "o07": "C73 (equivalent: a ray that crosses the top inside the tube also meets the side or the test of the axis)",
  "o08": "C73 axial ray from inside",
  "k01": "C52 no collision only if separated",
  "k03": "C52 no collision only if separated",
  "k04": "C52 no collision only if separated",
  "k05": "C52 no collision only if separated",
  "k06": "C52 no collision only if separated",
  "k02": "C53 collision only if touching",
  "k07": "C53 collision only if touching",
  "k08": "C54 distance",
  "k09": "C54 distance",
  "k17": "C54 distance",
  "k10": "C68 None only when touching",
  "k11": "C66 time of impact",
  "k12": "C66 time of impact",
  "k13": "C55/C70 depth in 2D",
  "k14": "C55/C70 depth in 2D",
  "k26": "C55/C70 depth in 2D",
  "k15": "C79 depth in 3D",
  "k18": "C79 depth in 3D",
  "k19": "C79 depth in 3D",
  "k25": "C79 depth in 3D",
  "k16": "C80 contact point",
  "k27": "C80 contact point",
  "k20": "C56 complex shapes",
  "k21": "C56 complex shapes",
  "k22": "C56 complex shapes",
  "k23": "C56 complex shapes",
  "k24": "C56 complex shapes",
  "k28": "no claim: a starting guess"
 },
 "notes": {
  "f07": {
   "tightened": [
    "Verif.Geom.c77_bound"
   ],
   "note": "survived at first: the degenerate matrix was unobserved; C77 added"
  },
  "o08": {
   "tightened": [
    "Verif.Primitive.c73_axis_partial"
   ],
   "note": "survived at first"
  },
  "k18": {
   "tightened": [
    "the theorems of C79"
   ],
   "note": "survived at first: the EPA3 polytope was unconstrained; C79 added"
  },
  "k19": {
   "tightened": [
    "the theorems of C79"
   ],
   "note": "survived at first; C79 added"
  },
  "k27": {
   "tightened": [
    "the theorems of C80"
   ],
   "note": "survived at first; C80 added"
  },
  "d33": {
   "tightened": [
    "c18_rotation_gain_partial"
   ],
   "note": "survived at first: rotations were only shown harmless"
  },
  "h04": {
   "note": "equivalent edit"
  },
  "o07": {
   "note": "equivalent edit"
  }
 },
 "auto": {
  "BroadPhase/Model.lean:variance3:127|`.y` -> `.x` near `:= csumsq + ⟨c.x * c.x, c.y * c.y, c.z * c.z⟩     (c`": {
   "note": "equivalent: the result of this sum is dropped by the code (finding 5)"
  },
  "Minkowski/Toi.lean:Dec3.translationInterpolate:840|`-` -> `+` near `D'.rot, D.disp + (D'.disp - D.disp) * t⟩`": {
   "tightened": [
    "Verif.Minkowski.c69_point3_partial (added)"
   ],
   "note": "survived: nothing was said about the contact point of a time-of-impact query in 3D; with c69_point3_partial the edit is rejected"
  },
  "Primitive/RoundRay.lean:bothNeg:32|`<` -> `≤` near `e (t1, t2) => t1 < 0 ∧ t2 < 0`": {
   "tightened": [
    "Verif.Primitive.c74_surface_partial (added)",
    "Verif.Primitive.c72_surface_partial (added)"
   ],
   "note": "equivalent: t2 <= t1, so t1 < 0 already gives t2 < 0; the twin edit of both comparisons (origin exactly on the side surface) was not excluded by any theorem and is now, by the two surface theorems"
  },
  "Primitive/Model.lean:Quad.sphereRadius:145|`.x` -> `.y` near `d K) : K := max s.halfDim.x s.halfDim.y`": {
   "tightened": [
    "Verif.Primitive.c48_quad_axes_partial (added)"
   ],
   "note": "survived: C48 is false for quads and only the negation on a square was proved; the positive part for quads rejects the edit"
  },
  "Primitive/Model.lean:Quad.sphereRadius:145|`.y` -> `.x` near `max s.halfDim.x s.halfDim.y`": {
   "tightened": [
    "Verif.Primitive.c48_quad_axes_partial (added)"
   ],
   "note": "survived: C48 is false for quads and only the negation on a square was proved; the positive part for quads rejects the edit"
  },
  "Primitive/RoundRay.lean:Capsule.intersectionRay:80|`none` -> `some 0` near `.radius with   | none => none   | some q =>     if bot`": {
   "tightened": [
    "Verif.Primitive.c72_sound_partial (added)"
   ],
   "note": "survived: nothing was said about rays that miss the tube of the capsule; the soundness theorem rejects the edit"
  },
  "Dbvt/VolumeTree.lean:ballOps:108|`*` -> `+` near `a := 4 * pi * a.1.radius * a.1.radius   lt x y := de`": {
   "tightened": [
    "Verif.Geom.c94_sphere (added)"
   ],
   "note": "survived: the tree is correct whatever the areas are; the area is now a definition of its own (Sphere.surfaceArea) with property C94"
  },
  "Dbvt/VolumeTree.lean:ballOps:112|`*` -> `+` near `ns b.1   area a := 4 * pi * a.1.radius * a.1.radius`": {
   "tightened": [
    "Verif.Geom.c94_sphere (added)"
   ],
   "note": "survived: the tree is correct whatever the areas are; the area is now a definition of its own (Sphere.surfaceArea) with property C94"
  },
  "Dbvt/Model.lean:Node.getHeight:134|`0` -> `1` near `.leaf _ => 1   | .nil => 0`": {
   "tightened": [],
   "note": "survived: equivalent; the height of an empty slot is never read (the root of a tree with values is not empty, and recalculating a node panics on an empty child before the height is used)"
  },
  "BroadPhase/Model.lean:variance2:108|`*` -> `+` near `_ : V2 K := csumsq + ⟨c.x * c.x, c.y * c.y⟩     (csum`": {
   "note": "equivalent: the result of this sum is dropped by the code (finding 5)"
  },
  "BroadPhase/Model.lean:variance2:108|`+` -> `-` near `b     let sum := min_vec + max_vec     let c : V2 K`": {
   "note": "equivalent: the result of this sum is dropped by the code (finding 5)"
  },
  "Dbvt/Rounded.lean:intersectionF3:116|`.y` -> `.x` near `.x u), R.add o.y (R.mul d.y u), R.add o.z (R.mul d.z`": {
   "tightened": [
    "Verif.Dbvt.c99_exact_ray3 (added)"
   ],
   "note": "survived: C99 only spoke about which boxes are reported, not about the point; with the added theorem (without rounding the test is the exact one) the edit is rejected"
  },
  "Dbvt/Rounded.lean:intersectionF2:88|`.y` -> `.x` near `.x (R.mul d.x u), R.add o.y (R.mul d.y u)⟩`": {
   "tightened": [
    "Verif.Dbvt.c99_exact_intersection2 (added)"
   ],
   "note": "survived: C99 only spoke about which boxes are reported, not about the point; with the added theorem (without rounding the test is the exact one) the edit is rejected"
  },
  "Dbvt/Rounded.lean:intersectionF2:88|`.x` -> `.y` near `some ⟨R.add o.x (R.mul d.x u), R.add o.y (R.mul d.y`": {
   "tightened": [
    "Verif.Dbvt.c99_exact_intersection2 (added)"
   ],
   "note": "survived: C99 only spoke about which boxes are reported, not about the point; with the added theorem (without rounding the test is the exact one) the edit is rejected"
  },
  "Dbvt/Rounded.lean:intersectionF2:88|`≤` -> `<` near `let u := if R.zero ≤ t.1 then t.1 else t.2`": {
   "tightened": [
    "Verif.Dbvt.c99_exact_intersection2 (added)"
   ],
   "note": "survived: C99 only spoke about which boxes are reported, not about the point; with the added theorem (without rounding the test is the exact one) the edit is rejected"
  },
  "Dbvt/Rounded.lean:intersectionF2:88|`.1` -> `.2` near `let u := if R.zero ≤ t.1 then t.1 else t.2`": {
   "tightened": [
    "Verif.Dbvt.c99_exact_intersection2 (added)"
   ],
   "note": "survived: C99 only spoke about which boxes are reported, not about the point; with the added theorem (without rounding the test is the exact one) the edit is rejected"
  },
  "Primitive/PolyhedronModel.lean:maxExtent:117|`0` -> `1` near `p V3.norm with   | [] => 0   | x :: xs => xs.foldl`": {
   "tightened": [
    "Verif.Primitive.c48_polyhedron"
   ],
   "note": "survived: nothing was said about the sphere of a polyhedron without vertices; c48_polyhedron now says its radius is 0"
  },
  "BroadPhase/Model.lean:variance3:127|`.x` -> `.y` near `let c : V3 K := ⟨sum.x / (1 + 1), sum.y / (1 +`": {
   "note": "equivalent: the result of this sum is dropped by the code (finding 5)"
  },
  "Minkowski/Model.lean:reduce3:168|`.y` -> `.x` near `if v = 0 then ⟨1 / 10, v.y, v.z⟩ else v     (false,`": {
   "note": "survived: equivalent program: in that branch v = 0, so v.x = v.y = 0"
  },
  "BroadPhase/Model.lean:sapLe:68|`<` -> `≤` near `lse decide (O.minE a axis < O.minE b axis)`": {
   "note": "survived: equivalent program: in that branch the two starts differ, so < and ≤ agree"
  },
  "Primitive/PolyhedronModel.lean:Polyhedron.new:133|`none` -> `some 0` near `true }, [], [], fun _ => none⟩, [], getBound3 vs, Prim`": {
   "note": "survived: not observable; the edge map of a polyhedron without faces is never read (support points take the brute force path, rays panic first)"
  },
  "Dbvt/Model.lean:Node.branchHeight:261|`0` -> `1` near `h b => b.height   | _ => 0`": {
   "note": "survived: only branches are marked for refitting by disciplined histories, and the height only orders the refit queue"
  },
  "BroadPhase/Model.lean:variance2:108|`.y` -> `.x` near `if variance.x < variance.y then 1 else 0`": {
   "note": "survived: equivalent; the sums are never updated (C21), so both variances are always 0 and the axis is 0"
  },
  "Primitive/PolyhedronModel.lean:Polyhedron.new:133|`true` -> `false` near `th { edge := 0, ready := true }, [], [], fun _ => none`": {
   "note": "survived: not observable; the fields `edge` and `ready` of a vertex are read only while faces are added and by the hill climb, and a polyhedron made by `new` has no faces and never climbs (mode VertexOnly)"
  },
  "Primitive/PolyhedronModel.lean:Polyhedron.new:133|`0` -> `1` near `cate vs.length { edge := 0, ready := true }, [], []`": {
   "note": "survived: not observable; the fields `edge` and `ready` of a vertex are read only while faces are added and by the hill climb, and a polyhedron made by `new` has no faces and never climbs (mode VertexOnly)"
  },
  "BroadPhase/NanTree.lean:flOps:165|`-` -> `+` near `un a b => do return (← a) - (← b)) (fun a b => do ret`": {
   "note": "survived: surface areas and their comparison only decide the shape of the tree (which sibling is descended into, which rotation is made); no answer of the API claimed by a theorem about this instance depends on them, and the English claims stay true of the edited program"
  },
  "BroadPhase/NanTree.lean:flOps:165|`.max` -> `.min` near `x0 ← b.min.x; let x1 ← b.max.x; let y0 ← b.min.y; let`": {
   "note": "survived: surface areas and their comparison only decide the shape of the tree (which sibling is descended into, which rotation is made); no answer of the API claimed by a theorem about this instance depends on them, and the English claims stay true of the edited program"
  },
  "BroadPhase/NanTree.lean:flOps:165|`.x` -> `.y` near `> do       let x0 ← b.min.x; let x1 ← b.max.x; let y`": {
   "note": "survived: surface areas and their comparison only decide the shape of the tree (which sibling is descended into, which rotation is made); no answer of the API claimed by a theorem about this instance depends on them, and the English claims stay true of the edited program"
  },
  "BroadPhase/NanTree.lean:flOps:165|`.y` -> `.x` near `← b.max.x; let y0 ← b.min.y; let y1 ← b.max.y`": {
   "note": "survived: surface areas and their comparison only decide the shape of the tree (which sibling is descended into, which rotation is made); no answer of the API claimed by a theorem about this instance depends on them, and the English claims stay true of the edited program"
  },
  "Dbvt/VolumeTree.lean:ballOps:112|`<` -> `≤` near `pi   lt x y := decide (x < y)   sub x y := x - y   d`": {
   "note": "survived: surface areas and their comparison only decide the shape of the tree (which sibling is descended into, which rotation is made); no answer of the API claimed by a theorem about this instance depends on them, and the English claims stay true of the edited program"
  },
  "BroadPhase/NanTree.lean:flOps:165|`.min` -> `.max` near `x1 ← b.max.x; let y0 ← b.min.y; let y1 ← b.max.y`": {
   "note": "survived: equivalent for the claim: only the surface-area heuristic of the example tree changes, on which c102 does not depend"
  },
  "Dbvt/VolumeTree.lean:Wrapped.fat|`withMargin w.bound w.margin` -> `w.bound`": {
   "note": "the failing theorems only needed a bound that contains the stored one, which the edit keeps; the fat bound is now stated exactly (box grown by the margin on every side, sphere radius grown by it)",
   "tightened": [
    "c59_fat2",
    "c59_fat3",
    "c59_fat_sphere"
   ]
  }
 }
}