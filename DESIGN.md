# Formal model of rustgd/collision-rs in Lean 4

## Layout

* `lean/Verif/Dbvt/*` — the dynamic bounding volume tree (`src/dbvt/*.rs`).
* `lean/Verif/BroadPhase/*` — brute force, sweep-and-prune, DBVT broad phase.
* `lean/Verif/Geom/*` — vectors, `Aabb2/3`, `Sphere`, `Plane`, `Frustum`, `Ray`, `Line2`.
* `lean/Verif/Primitive/*` — shapes, support points, bounds, ray tests, particle.
* `lean/Verif/Minkowski/*` — GJK / EPA, complex shapes.
* `*/Theorems*.lean` / `*Props*.lean` — property theorems, each with a non-vacuity `example`.

## Modelling decisions

* **Panics are data.** Rust indexing out of bounds, `unwrap` on `None` and explicit `panic!` return
  `Res.panic`; a loop that needs fuel and runs out returns `Res.timeout`. Theorems say which of
  these can not happen.
* **DBVT is generic.** The bound type, scalar type and every operation on them (`union`,
  `contains`, `surface_area`, `<`, `-`, `/`) are arbitrary functions (type class without laws), so
  structural theorems hold for any implementation of the traits, including NaN-poisoned floats.
  Laws (union is an upper bound, monotone visitor ...) are explicit hypotheses of the theorems that
  need them, and are then discharged for the `Aabb2`/`Aabb3` models.
* **Randomness** in `refit_node` (10% rotation) is an arbitrary stream `ℕ → ℕ`; theorems quantify
  over all streams.
* **Integers**: `usize`/`u32` are `Nat` (no overflow: node counts below 2^32 are assumed).
* **Geometry**: scalars are an arbitrary linearly ordered field `K` (exact arithmetic); `sqrt` comes
  is `Real.sqrt` on `ℝ`. Rounding is *not* modelled. Where the code deliberately relies on IEEE
  infinities/NaN (3D ray/box division by zero), the scalar is the extended type
  `fin x | +inf | -inf | nan` with IEEE rules for the operations used. `ulps_eq!/relative_eq!` are
  modelled as exact equality, except in `Minkowski/Tolerance` (C104), where they have their tolerance: there the
  theorems of C52, C53, C65 and C96 carry over to scenes on a grid with spacing above the cube root of the machine
  epsilon, and fail for smaller scenes. (The "Rounding is not modelled" above has exceptions too: C99, C103.)
* **cgmath** is not in the repository; the few functions used (dot, cross, normalize, lerp, `Decomposed`, ...) are
  modelled from their public definition and are part of the trusted base.

## Per-property plan

| id | model | proof |
|----|-------|-------|
| C01 | `Dbvt` state + op histories | WF invariant (abstract tree `Rep`), refinement to `Nat → Option V` by induction over ops |
| C02 | same | consequence of WF |
| C03 | same | counting argument over WF |
| C04 | same | refit invariant: after do_refit every branch consistent |
| C05 | `doRefit` with fuel + rng stream | ranking function on multiset of pending marks weighted by depth; for all streams ∃ fuel |
| C06 | same | refit invariant + induction on the tree |
| C07 | query with stateful visitor | induction on the tree, stack refinement; hypothesis: stack depth not exceeded |
| C08 | same | stack invariant, no refit needed |
| C09 | same | corollary of refinement + C08 |
| C10 | same | **false** for the code: `clear` forgets `updated_list`; witness + `_partial` for histories that tick before the last removal |
| C11 | same | **false**: 256-slot stack; witness family of n equal boxes + `_partial`: height ≤ 255 suffices |
| C12 | `values_mut` permutation op | WF preserved |
| C13 | two rng streams | corollary of C01, C03, C07 |
| C14 | direct | case analysis |
| C15 | query + Aabb ray | C07 + monotonicity of `intersects` |
| C16 | `query_ray_closest` | **false**: exit-point pruning; witness + `_partial` (origin outside all node bounds; `c16_outside2/3_partial`: origin outside a box around all fat volumes); `c16_some_iff2/3`: for every ray, `None` exactly if nothing is hit |
| C17 | frustum visitor | C07 + C41 monotonicity |
| C18 | rotate | **false**: with up-to-date bounds the candidate area equals own area; proved "never fires" |
| C19 | nested loops | list induction |
| C20 | sort + active list | invariant over prefix |
| C21 | Variance | **false**: result of add_element_wise is dropped; proved axis is always 0 |
| C22 | loop over values using query | C07 + sorted insertion |
| C23 | all three | corollary |
| C24–C29 | Aabb over ordered field | order lattice lemmas |
| C30 | Ray2/Aabb2 | slab argument |
| C31 | Ray3/Aabb3 over extended scalars | slab argument with inf/NaN cases |
| C32 | all | case analysis per pair |
| C33–C37 | Sphere over ℝ (sqrt) | Cauchy–Schwarz in coordinates; C35, C37 **false** in part: witnesses + `_partial` |
| C38–C40 | Plane | algebra; C38 (`from_points`) and C39 convention mismatch: witnesses + `_partial` |
| C41–C43 | Frustum | max-fold lemma; C43 **false**: witness |
| C44,C45 | Ray2/Line2, point/ray | algebra |
| C46–C48 | primitives | fold lemma + per-shape inequality; C48 **false** for boxes |
| C49 | `PolygonModel`, `Polygon` | ray/edge sides; **false** (last edge): negation + `_partial` |
| C50 | `Climb` | hill climbing on a cyclic unimodal sequence; **false** on ties / mid start: negation + `_partial` |
| C51 | `Dedup` | exact characterisation of the surviving indices; **false**: negation |
| C52, C53, C65 | GJK over arbitrary support functions (`Gjk2`, `Gjk3`, `Gjk2Total`) | simplex invariants (every vertex is an extreme point of the Minkowski difference); termination in 2D by a rank on nested caps. C52 **false** in 3D (x axis): negation |
| C83 | `Gjk3Cycle` | the search direction is a function of the simplex, and simplices are pairs and triples of the finitely many support points: pigeonhole; **false**: two overlapping boxes with a cycle of period 5 |
| C84 | `Distance2`, `Fail3` | 2D: a simplex never becomes empty; 3D **false**: a run on two boxes, computed with rational numbers by square-root-free forms of the functions (proved equal) and carried over to the reals |
| C85 | `Toi2Total`, `Toi2Bound`, `Fail3` | 2D: a step that does not clip brings the closest point nearer, and it belongs to one of finitely many pairs; a normal clips at most once; for curved shapes a step above the tolerance shrinks the squared distance by a fixed fraction and the clips between two such steps are bounded; 3D **false**: a cycle of period 7, and a failing assertion, computed as for C84 |
| C54, C68 | `Distance`, `DistanceCycle` | projection onto simplices; C68 **false**: negation, also by a run that repeats its simplices (induction on the limit) |
| C86 | `Epa2Total`, `Round3` | 2D: the point found beyond an edge always makes a new edge that is not in line with the origin; 3D: C79 |
| C87 | `Balls`, `Balls3` | the run on two balls followed step by step in terms of the line of the centres; depth from C55/C79 and, in 2D, an invariant that keeps an edge at the deepest rim point; the failing 3D case as a run that asks for direction zero |
| C88 | `Translate` | every function on the way (reduce, closest, EPA, TOI) shown to commute with moving the support points: equality of the two runs as values |
| C89 | `Exchange` | 2D: the run on the exchanged shapes is the mirror image of the run, step by step; 3D: negation by a run over the rationals |
| C90 | `Scene/Pipeline`, `Scene/Thin` | thin overlaps **false** (`c90_thin_false`); composition: the box of an item holds it (C28, C67), boxes that miss each other give a separating line, the broad phases are exact on boxes (C19, C20, C22, C81), GJK is exact on a pair (C53, C65, C86, C87); 3D: broad phase only |
| C91 | `Gjk2Bound`, `Gjk2Thin` | (no limit is enough without r and m: `c91_no_limit`, the run halves an arc of the circle towards pi/3) the angle that the edge of the simplex covers, seen from the origin, grows by at least arcsin(r/m) in every iteration and stays below a half turn |
| C92 | `Epa2Bound` | the points EPA adds are pairwise a tolerance apart (they lie beyond the line of an edge that has all others on its inner side); a grid bounds how many fit in a disc |
| C93 | `Rest` | composition of C66 and C85 with a movement of zero; circles **false**: the first support request is in direction zero |
| C94 | `Area` | box: algebra of the cuts; sphere against box: the side is at least the diameter, the diagonal at most the diameter, and 3 < pi < 4 |
| C95 | `BallDistance` | the first two support points lie on the line of the centres, so the first closest point is already exact |
| C96 | `Similar`, `Centred` | (same origin: normal **false**, `c96_centred_false`) two runs step by step: every value the algorithms branch on is a dot product of differences, scaled by a positive factor; climbing search on polygons depends on signs only |
| C97 | `Perspective` | the matrices of cgmath 0.18 written down (part of the trusted base), then C42 (clip space) and C41 (planes to boxes and spheres); the specification is the cone over the window |
| C98 | `Scene/Culling` | C17 (frustum queries on the tree) composed with C97 |
| C99 | `Dbvt/Rounded` | the tests once more with rounded operations: exact operation in the extended reals, then an arbitrary monotone map to the representable numbers; each step is monotone or antitone in the box coordinate; `Dbvt/RoundedExact`: without rounding they are the tests of C30, C31 and C17; `Dbvt/Binary64`, `Scene/F64`: IEEE binary64 is such a rounding (to nearest, ties to even), so trees built from any at most 256 `f64` boxes with rounded margins answer every query exactly; `Dbvt/RoundedNan`, `Scene/F64Nan`: the 3D ray test with infinities and NaN, all finite rays, boxes that are not flat (gradual underflow: a rounded difference is zero only for equal numbers) |
| C100 | `Scene/Picking` | C15 (ray queries on the tree), C47 (bounds enclose) and C75 (ray tests of placed primitives) composed; the choice of the nearest is a function of the model with its own specification |
| C101 | `Scene/Moving` | the union of the boxes at both ends holds the movement (convexity); C19-C22 (broad phases), C66 (time of impact) and, in 2D, C85 (it answers) composed |
| C102 | `BroadPhase/Nan`, `BroadPhase/NanTree`, `Dbvt/Healing` | false of sweep and prune and of the tree (concrete shapes); brute force: proved; sweep: right if the coordinates along the sweep axis are numbers (the sort is a parameter); tree: exact again as soon as the values now in it have proper coordinates (the invariant of the tree restricted to sound bounds) |
| C103 | `Dbvt/Binary64`, `Dbvt/RoundedSphere` | IEEE binary64 (finite numbers, infinities, round to nearest, ties to even; no NaN, no signed zero) as an instance of the `Rounding` of C99; `Sphere` with rounded operations; false: concrete tree of two spheres, every rounded operation computed by hand; soundness from C08 |
| C104 | `Minkowski/Tolerance` | GJK, `Plane::from_points`, `new_with_faces` and point/ray with `ulps_eq!`/`relative_eq!` as they are: a comparison with tolerance `eps`, any number; `eps = 0` is the model of the other files; false: squares and cubes of side `10 s`, runs computed for every `s` with `s³` of the order of epsilon; positive: invariants of the loop that do not need exact directions, and integer multiples of a grid |
| C105 | `Minkowski/F64Gjk`, `F64Gjk3` | GJK written over any arithmetic (`Add`, `Mul`, … without laws); over a field it is the model of `Gjk2`/`Gjk3`; over `Fl R` (numbers of a `Rounding`, every operation rounded) it follows the exact run: invariant "all coordinates are integer multiples of a power of the unit, below the bound", for which every product is representable; the constant `0.1` of the 3D code is rounded, but only orders of products with it matter; instances: `binary64` |
| C106 | `Minkowski/RoundedMiss`, `Grain`, `Dbvt/Binary64Err` | the code of C105 over `Fl R` for arbitrary coordinates; forward error analysis of one support query and one dot product in the standard model (`Std`: relative error `u`, underflow `η`); loop invariant: the direction is representable, bounded and not zero (because of `NearG2`, of the strict test before it, or because the two points differ: a point can not be on both sides since rounding is odd), so only the last step's errors count; `Grain`: rounding keeps multiples of `2^-170j`, so that a direction that is not zero is at least `2^-1020` and underflow is negligible; `std64`, `keeps64`: binary64 satisfies this |
| C107 | `Minkowski/F64Hit` | **false**: concrete run in binary64 with integers of up to 91 bits, two of whose sums are rounded (`I_round`); `_partial`: the points of the simplex are near differences of points of the shapes |
| C108 | `Scene/F64Pipeline` | the code of the bounds over any arithmetic (`boundG`, `worldBoxG`; over the reals it is the model of C67 and C90); minima and maxima commute with rounding, the transformed corners have the error of `point_near`; `Deep2` in the four axis directions makes rounded bounds intersect; then C19, C20, C81 and C106 |
| C109 | `Scene/F64Culling` | the error of a rounded dot product of three terms (`dot3_err`); the relation of a corner follows up to the error, and of a box because the signed distance is affine; the frustum is the maximum over its planes; then the tree of C99 |
| C110 | `Scene/F64Ray` | at a rounded slab parameter the exact ray is within the error of the side (`slab_div`, `slab_mul`); the parameters kept by an axis are those between the sides, up to the error (`Ax`); axes with direction zero have the interval of all numbers or an empty one (3D: infinities); then the trees of C99 |
| C111 | `Scene/F64Closest` | the rounded dot product is monotone in the parameter of the hit (`term_mono`), and hits on enclosing boxes come first for the rounded parameters (C99), so pruning is exact for rounded distances; these are within an error of the exact ones (`term_err`). **Partial**: rays that start in a branch volume (C16 is false for them); `_outside`: all rays from outside the scene |
| C112 | `Dbvt/Within`, `Dbvt/RayOutside` | induction over histories for the leaves, over the stored heights for the branches (`local_ok`) |
| C113 | `Scene/F64Place3`, `F64Pipeline3` | as C108, with the code of the 3D bounds over any arithmetic (`boundG3`, `worldBoxG3`); then C19, C20, C81 and C114. **Partial**: the narrow phase also loses pairs by the direction zero |
| C114 | `Scene/F64Place3`, `F64Miss3` | the 3D code of C105 over `Fl R` for arbitrary coordinates; forward error analysis of one support query (`mink3_near`); loop invariant: the direction is finite, bounded, and zero or not small, since it is a product of numbers on a grain (`reduce3_good`); a support function that panics on the direction zero marks the runs that ask for it (`noZero`, `loop_noZero`). **Partial**: **false** for those runs (`c114_false`) |
| C115 | `Dbvt/Binary32`, `Minkowski/F32`, `Scene/Subnormal`, `Formats` | IEEE binary32 is built as a `Rounding` and its error theory is proved (`std32`); the run is compared with one whose support function refuses directions all of whose components are below `MIN_POSITIVE` (`refusing`, `loop_refusing`); for the others the error of a support query is relative to the direction, so no grain is needed |
| C116 | `Scene/Formats` | C108 and C113 for any format (`Fmt`), with C115 for the narrow phase; then C19, C20, C81 |
| C117 | `Scene/RoundErr`, `Round`, `Round3`, `RoundFormats` | the error of the rounded length, quotient and product is bounded (`RoundErr`), so the support point of a circle, sphere, capsule or cylinder in a direction that is not very short is near the exact one; C115's run argument with the support functions that refuse the others |
| C118 | `Scene/RoundPipeline` | the transform of a box with representable corners is near the exact one (as in C108, C113); only a capsule's local bound is rounded; C117 for the narrow phase; then C19, C20, C81 |
| C119 | `Dbvt/Graded`, `Scene/SphereErr`, `Scene/SphereUnion`, `Scene/SphereTree`, `Scene/SphereFormats` | error of the rounded `union`: both arguments lie inside of it up to 500 u N; induction on the height of the tree, what is known of the stored spheres getting weaker from level to level; error of the rounded test |
| C120, C121 | `Scene/F32Queries` | C99, C109, C110, C111 for binary32: the same format-independent lemmas with the constants of `f32` |
| C122 | `Scene/SphereRay` | errors of `tca`, `d2` and `thc` from the standard model, then real inequalities for the quadratic along the ray (`sound_real`, `complete_real`, `point_real`); circles are sections of spheres (`circle_ball`) |
| C123 | `Scene/SphereCulling` | induction over the levels of the tree with a bound that weakens from level to level (`graded_pure`, `sphere_found`), and the error of the plane test of a sphere (`relate_center`) |
| C124 | `Scene/SphereTreeRay` | as C123; the centre of a union lies between the two centres up to rounding (`between_dot`), so a half space that holds all given centres holds those of all branches up to rounding; the test of a branch then follows from C122 (`RayOk.ahead`) |
| C125 | `Scene/MatrixPlanes`, `Scene/MatrixTree` | errors of the sum of two rows, of the squared length (`mag2_err`), of the reciprocal of its root (`inv_norm_err`) and of a coefficient (`coef_err`) give a computed plane next to the exact one (`normalize_err`, `Computed.gap`); C109 and C123 do the rest; trees of boxes: C99 (the query returns the answers of the boxes themselves) |
| C126 | `Scene/GjkDistance` | the closest point of an edge with rounding is close to a point of the edge and the newer end is not nearer in its direction (`closestEdge_F`, `EdgeNear`); the simplex keeps points close to differences of points of the shapes (`NearDiff`, also for a NaN direction: `nan_near`); the stop test then gives both bounds (`stop_near`, `distance_loop`); example: `gap_run` |
| C127 | `Scene/PlaneRay` | forward error analysis of the quotient (`param_real`, `param_err`) and of the coordinates (`coord_real`); the sign of the rounded parameter decides both tests; parallel rays by cases over the infinities (`c127_parallel`); examples in `f32` and ℚ |
| C128 | `Scene/PlanePairs` | errors of cross products and combinations (`det_err`, `cross_err`, `comb_err`) propagated through the formulas (`cross_near`, `dot_near`, `axpy_err`); one lemma for the quotients (`quot_err`); the exact point times the denominator is the numerator (`three_num`, `two_num`); examples in `f32` |
| C129 | `Scene/SegmentRay` | errors of the three `perp_dot` (`sub2_err`, `perp_err`, `perp_near`) and of the two quotients (`quot_real`); the tests on the rounded parameters then follow; `c129_parallel`: the branch for parallel rays, through the errors of the two dot products (`dot2_near`); examples in `f32` |
| C55, C70 | `Epa2`, `Epa2Shapes`, `Epa2Total`, `Epa3` | convex polygon around the origin as loop invariant; termination: the edges form a fan, a new vertex is strictly inside one sector; C70 **false** in 2D when an edge is in line with the origin: negation + `_partial` |
| C56 | `Complex`, `Complex3` | fold lemmas over all pairs, then composed with C52–C55, C66 |
| C57 | `Particle` | segment clipping of an exact ray test |
| C58, C76 | `Interpolate` | algebra; `acos` of Basis2; **false** parts: negations |
| C59 | `TreeValueWrapped` | C29 + C34; `Dbvt/WrappedFat`: the fat bound exactly |
| C60 | transformed ray | affine invariance |
| C61 | `Primitive/Props` | C30/C31 on the box of the shape |
| C62–C64 | `Mesh`, `Polyhedron*` | half-edge structure invariants of the constructor; convexity: local maximum is global; face walk |
| C66, C69 | `Toi` | separating plane of the swept difference as loop invariant; in 3D also: the origin sees the kept face from outside, so a tetrahedron taken to contain it does; C69 **false**: negation |
| C67, C75 | `Enum`, `EnumRay` | dispatch composed with C46–C49, C60, C61, C63, C71–C74 |
| C71–C74 | `RoundRay` | quadratic formula over ℝ; several **false**: negations + `_partial` |
| C77 | `Clip` | C41 + C42 |
| C78 | `Empty` | **false**: exact characterisation |
| C79 | `Epa3Cone/Comb/Hull/Exact/Shapes`, `Round3` | the EPA polytope stays a closed convex triangulated surface: parity of faces crossed by a generic ray (in `ZMod 2`), horizon edges cancel in pairs; termination for finitely many support points |
| C80 | `Epa2Point`, `Epa3Point` | barycentric combination of support points; **false** in 3D: negation |
| C82 | `InterpolateBasis` | model of cgmath's conversions between rotation matrices and quaternions, shown to be right; **false** for matrices past a third of a turn: negation + `_partial` |
| C81 | `Rounding` | the tree and broad phase theorems instantiated with an arbitrary linear order and arbitrary scalar functions |

No property is "not applicable"; floating-point rounding is outside every theorem, except that the order laws of C24-C27, the generic tree theorems (C01-C14) and C81
assume nothing about the arithmetic and therefore hold for rounded coordinates too (NaN excluded).

## Trusted base

* Lean 4.33.0 kernel; Mathlib; the axioms `propext`, `Classical.choice`, `Quot.sound` only (no axiom of ours, no compiled evaluation).
* The reading of the Rust sources (each definition cites file and lines).
* Semantics of Rust std (`Vec`, `binary_search`, `sort_by`, `swap_remove`), `rand`, `cgmath`, `approx`, `bit-set` as described above. cgmath's `Matrix3`/`Quaternion`
  conversions are written down from version 0.18 (its source is not in the sandbox); that they are mutually inverse on rotations is proved.
* IEEE special values where the code meets them: `Ext` (`fin | +inf | -inf | nan`) in ray/box tests and plane tests; elsewhere a NaN result is
  an explicit outcome (`none` of an `Option`, `Epa3Out.nan`, a face without plane) whose treatment by later comparisons is part of the model.
  A NaN support point (round shapes in direction zero, `nanPoint`) stops the model like a panic: theorems about answers do not speak of such runs,
  theorems of the form "the function answers" say that there is none.
  The sign of a zero direction component (IEEE `1/-0`) is the extra argument `nz`, over which theorems quantify.
* In `EnumRay` a ray test whose point has a non-finite component is read as "no point" (`finite2/3`).

### Modelled

`src/dbvt/*` (all of it), `src/algorithm/broad_phase/*`, `src/algorithm/minkowski/*` (GJK intersect / distance / time of impact / complex shapes, both
simplex processors, EPA2, EPA3), `src/volume/aabb/*`, `src/volume/sphere.rs`, `src/frustum.rs`, `src/plane.rs`, `src/ray.rs`, `src/line.rs`,
`src/bound.rs`, `src/contact.rs`, `src/primitive/*` (all shapes, support points, bounds, ray tests, both enums), `src/traits.rs` (interpolation,
transformed tests).

### Not modelled

Rounding (except for C81, C99, C101–C103, C105–C111 and C113–C129, where the arithmetic is arbitrary or rounded, and C104, where comparisons have a tolerance); `Display`/`Debug`/serde/`From` boilerplate; `volume/obb.rs` and `volume/cylinder.rs` (data types with a constructor only); integer overflow of
`usize`/`u32`; allocation failure; `profiling`-style benchmarks and examples.

## Disagreements between code and documentation found while modelling

1. `DynamicBoundingVolumeTree::clear` does not clear `updated_list`: insert, update_node, remove, tick panics.
2. The query traversal stack is a fixed array of 256: degenerate trees (≥ 257 equal boxes) panic.
3. `query_ray_closest` may skip the closest hit when the ray starts inside a branch volume.
4. `rotate` compares the node's own area with the area of the union of the same leaves, so never fires on refit trees.
5. `Variance::add_bound` drops the results of `add_element_wise`: sweep axis is always 0 after the first run.
6. `Plane::from_points` stores `-a·n` whereas the documented equation (and `from_point_normal`) needs `+a·n`; ray/plane uses the former convention, everything else the latter.
7. `Ortho::to_frustum`: right/top/far distances have the wrong sign.
8. `Sphere::union(Aabb3)`: wrong when nested, division by zero when concentric.
9. Ray/sphere with the origin inside: returns a point behind the origin or `None`.
10. Bounding spheres of `Cuboid`, `Cube`, `Quad` use the largest half dimension, not the half diagonal.
11. `ConvexPolygon` ray test skips the closing edge; panics (underflow) on no vertices.
12. `ConvexPolygon` hill climbing support (≥ 10 vertices) can return a non-extreme vertex.
13. `dedup_vertices` does not remap shifted indices.
14. `Cylinder` axial ray tests ignore the radial offset; `Sphere::transform_volume` ignores scale.
15. 3D ray/box on flat boxes: the slab test is not monotone (a ray in the plane of a flat box may miss it and hit a sub-box), because 0/0 = NaN is dropped by `min`/`max`.
16. Ray lying in a plane: `intersection` returns `Some` point with NaN coordinates while `intersects` is `false`.
17. Sphere/circle ray tests assume a unit direction; the blanket `intersects_transformed`/`intersection_transformed` passes the local
    direction, which is not of unit length under a scaling transform: real hits are reported as misses (`c60_false`).
18. `Basis2::interpolate` recovers the angle by `acos` and so loses its sign: interpolating to a rotation by a negative angle turns the wrong way.
    Quaternion interpolation is a plain `lerp`, so in between lengths shrink (`c76_quaternion_false`).
19. Polyhedra built without faces panic on every ray test. `dedup_vertices` can also panic. The polygon hill climb fails on ties and from some starts.
20. GJK in 3D reports overlapping shapes offset exactly along x as apart: the fallback direction is the x axis (`c52_3d_false`).
21. `GJK::distance` tests convergence against `simplex[0]` and so returns `None` for separated shapes (`c54_none_false`).
22. Time of impact normalises a zero normal (NaN) when the shapes overlap at the start.
23. The distance of two particles is always `None` in 2D; the 3D analogue panics on a degenerate face.
24. The contact point of a time-of-impact query is not on the shapes (`c69_toi_point_false`).
25. EPA2 skips edges in line with the origin: wrong normal and depth for shapes whose difference has the origin on the line of a simplex edge (`c70_false`). 3D is exact (C79).
26. A particle that starts inside a sphere reports a hit behind its start.
27. The capsule's continuous ray test is wrong on the end caps (`c72_false`).
28. The cylinder never tests its bottom disc, loses top-disc hits from outside the tube, and axis-parallel rays ignore x and z (`c73_false`, `c74_false`).
29. `Bound::empty` is the origin, which is not neutral for `union` (`c78_false`).
30. The EPA3 contact point can lie outside both shapes (`c80_false`).
31. `translation_interpolate` takes rotation and scale of the end, not of the start.
32. `Basis3::interpolate` goes through quaternions whose sign jumps when a rotation passes a third of a turn: halfway between turns by 106° and 135° about
    the same axis there is almost no turn (`c82_basis3_false`).
33. The 3D GJK has no vertex region and can go round in a circle: two boxes with a ball of radius 1/10 in common for which it never decides, with any
    iteration limit, and reports no collision (`c83_false`).
34. `intersection_time_of_impact` in 3D can run for ever: a cube of side 2 at rest and a box of 4 × 6 × 2 that moves into it; after two iterations the
    state repeats with period 7 (`c85_false`). On other boxes the assertion in `get_closest_point_on_face` fails (`c85_panic_false`).
35. `distance` in 3D panics on two boxes that are apart, because the simplex becomes a degenerate triangle (`c84_false`).
36. Two overlapping spheres whose centres differ along the x axis only, e.g. at (0,0,0) and (1,0,0): GJK asks for the support point in direction zero (0/0), returns a simplex with a NaN point, and full resolution a contact with NaN normal, depth and point (`c87_false`, `gjk_balls_axis`).
37. Two overlapping cubes of side 4, the second turned by a quarter about z at (-1, 1, 0): `GJK3::intersection` reports a collision for (first, second) and none for (second, first) (`c89_false`).
38. Circles, spheres and capsules at relative rest: `intersection_time_of_impact` asks for the support point in direction zero (0/0), the loop ends at once and the answer is `None`,
    also when the shapes overlap; polygons in the same position report a contact at time 0 (`c93_false`, `c93_prim2_partial`).
39. A trapezoid (2,-2), (3,-4), (3,4), (2,2) placed at (3,1) and a particle at the origin, two units apart: the simplices of `GJK2::distance` repeat after four steps, and the answer
    is `None` for every number of iterations (`c68_cycle_false`). The code keeps the edge to the second last point when the origin is outside both new edges, even if the other edge is nearer.
40. One bound with NaN hides other shapes. Sweep and prune: `sort_by` with a comparator that calls NaN equal to everything leaves `[2,4]`, NaN, `[1,3]` unsorted, and the broken shape
    empties the active list, so the overlapping pair is lost (`c102_sweep_false`; newer standard libraries may panic instead). Tree: `min`/`max` keep their first argument when the two do not compare,
    so a branch over a broken box is broken and every query skips everything below it (`c102_tree_false`). Brute force is not affected; the tree recovers when the box is removed or repaired.
41. A circle and the corner of a triangle that reaches into it by less than about 4^(-n): `GJK2` halves an arc of the circle in every iteration and has no answer after n iterations, for
    every n, so with the limit of 100 a real overlap is reported as no collision (`c91_no_limit`, `c90_thin_false`). Two polygons, or two circles, are always decided.
42. In `f64`, the union of the sphere of radius 1 around the origin and the point (2^53, 0, 0) has radius 2^52 and centre (2^52 - 1, 0, 0): the radius `(1 + 0 + 2^53) / 2` is rounded
    down, and the point lies outside. A tree with these two values does not report the point when queried with the point itself (`c103_false`). Trees of boxes cannot do this (C99):
    their union takes minima and maxima, which are not rounded.
43. `ulps_eq!(v, zero)` compares with the machine epsilon, absolutely, but the vectors compared in GJK are of the third degree in the lengths of the scene (second in `Plane::from_points`). With `f32`
   and shapes of a few millimetres (scene in metres): in 2D the direction towards the origin is replaced by a perpendicular that may point away from it, the old edge is never tested again, and shapes
   that are apart collide (`c104_false_2d`: squares of side 2.4 mm with a gap of 0.24 mm); in 3D the direction becomes `(0.1, y, z)`, the support point in it is one the simplex has already, the triangle
   is degenerate, the next direction is zero, and shapes that overlap do not collide (`c104_false_3d`: cubes of side 2.4 mm offset by (0.24, 0.49, 0.49) mm); `ConvexPolyhedron::new_with_faces` panics
   (`unwrap` of `Plane::from_points`) on meshes with edges below 0.34 mm (`c104_false_mesh`).
44. The 2D `triple_product` is computed as `b (a·c) - a (b·c)`. For a long edge that the origin lies far beyond, the two terms agree to many digits, and in floating point the component of the search
   direction along the edge is lost. The next support point is then one that the simplex already has, the "triangle" has no area, both edge tests compute zero, and zero counts as a hit: GJK in `f64`
   reports that the segment from (1, 2^-30) to (2, -2^-30) (times 2^30) and a particle at the origin intersect (`c107_false`). Simulation in `f64` finds such hits in 4% of scenes of nearly collinear
   points with a first direction across them. Computing `perp(c) * cross(…)`, or not counting zero as a hit when two points of the simplex are equal, would avoid it. Misses, on the other hand, are right
   up to rounding (C106).
45. In 3D, asking for a support point in the direction zero is the only way in which GJK misses solids that overlap by more than rounding (C114): every other direction it uses is far from zero compared
    with its rounding error. A check for the direction zero in the loop (as `firstDirection` has for the first one) would make the 3D test right up to rounding.
46. In `f32` and `f64`, for coordinates however small, a search direction that has underflown (every component subnormal or zero) is the only way, besides the iteration limit, in which GJK misses
    primitives that overlap by more than rounding (C115). In `f32` the directions are products of three or four coordinates, so coordinates below about `2^-31` (4·10^-10) are enough for it.
47. A round primitive normalizes the direction, which squares it: in `f32` a direction with all components below about `2^-61` loses its length to underflow although the direction itself is a normal number, and the support
    point may then be wrong by a good part of the radius (for a square that rounds from `1.49 * 2^-149` to `2^-149`, by 22%). A cylinder does so with the part across its axis, which can be that short in a long direction (C117).
48. The tests of rays against spheres subtract two squares (`l·l - tca²`), so their error is relative to the square of the distance: in `f32` a ray whose direction has length 1 up to one unit roundoff and that passes exactly through the centre of a sphere of radius 1 at a distance of 8192 is reported as a miss (`c122_false`). The distance of the centre from the nearest point of the ray would not have this error.
49. `query_ray` on a tree of bounding spheres loses values: the ray test of a sphere returns `None` for every ray that starts beyond the centre, also inside of the sphere (finding 9), so a ray that starts inside the sphere of a branch, beyond its centre, never reaches the values below it, however clearly it hits them (`c124_false`: spheres of radius 1 at 0 and 10, ray from 8 in positive direction; no rounding involved).
50. `Frustum::from_matrix4` returns `None`, and `relate_clip_space` `Cross` for everything, when a plane of the matrix has a normal whose components are all at most the machine epsilon: `Plane::normalize` takes it for zero (`ulps_eq!`, an absolute tolerance). The clip volume of a matrix does not change when the matrix is multiplied by a positive number, the answer does (`c125_false`).
51. When the edge of the simplex of `GJK::distance` has squared length zero (both first support points are the same, or the square underflows), `get_closest_point_on_edge` gives NaN; `get_max_point` (`src/primitive/util.rs:21-28`) answers for a direction of NaN the origin of the shape's frame, also when this is not a point of the polygon. C126 therefore asks polygons to contain the origin of their frame.
52. A ray parallel to a plane never meets it (or lies in it), but `Plane: Discrete<Ray3>` answers `true` when it runs on the side where `n·p + d < 0` (the parameter is `+∞`), and `Continuous<Ray3>` then returns a point without finite components; for a ray in the plane the parameter is NaN, Discrete answers `false` and Continuous `Some` (`c127_parallel`).