import Verif.Res
import Verif.Geom.Transform
import Verif.Geom.Sphere
import Verif.Geom.Line
/-!
# Model of the shapes in `src/primitive/` (all but polyhedra)

Polytopes over any ordered field `K`, round shapes over `ℝ` (they need a square root).  `Point::from_vec`/`to_vec` are identities.
`nz` tells if a zero component is the float `-0` (only `signum` and `is_sign_negative` see the difference).
-/
namespace Verif.Primitive
open Verif Verif.Geom
set_option linter.unusedSectionVars false

section
variable {K : Type} [Field K] [LinearOrder K]

/-- Common frame of every `Primitive::support_point`: move the direction into the local frame (`unwrap` panics without inverse), find the
local support point `loc`, move it into the world: `src/primitive/util.rs:18,29`, `line.rs:17-23`,
`cylinder.rs:55-76`, `polygon.rs:128,181`, `polyhedron.rs:392-399`. -/
def support {P : Type} (loc : P → P) (T : Tr P) (d : P) : Res P := do
  let e ← Res.ofOption (T.invVector d)
  return T.point (loc e)

/-- A point with NaN coordinates (`0 / 0`).  The model stops there, as at a panic: no theorem about the answer of a function speaks of a run in
which a support point is NaN, and a theorem that a function answers says that none is. -/
def nanPoint {P : Type} : Res P := .panic

/-- `support` for the round shapes: `normalize_to` of the direction zero is NaN, `src/primitive/circle.rs:38-39`, `sphere.rs:36-37`,
`capsule.rs:55-59`. -/
def supportRound {P : Type} [Zero P] [DecidableEq P] (loc : P → P) (T : Tr P) (d : P) : Res P := do
  let e ← Res.ofOption (T.invVector d)
  if e = 0 then nanPoint else return T.point (loc e)

/-- The fold of `get_max_point`, `src/primitive/util.rs:19-28`; `none` is the initial `neg_infinity`, below every dot product. -/
def maxPoint2 (vs : List (V2 K)) (e : V2 K) : V2 K :=
  (vs.foldl (fun (acc : V2 K × Option K) v =>
    match acc.2 with
    | none => (v, some (v.dot e))
    | some m => if v.dot e > m then (v, some (v.dot e)) else acc) (0, none)).1
/-- `get_max_point` (3D), `src/primitive/util.rs:19-28`; also `brute_force_support_point`, `src/primitive/polyhedron.rs:160-176` -/
def maxPoint3 (vs : List (V3 K)) (e : V3 K) : V3 K :=
  (vs.foldl (fun (acc : V3 K × Option K) v =>
    match acc.2 with
    | none => (v, some (v.dot e))
    | some m => if v.dot e > m then (v, some (v.dot e)) else acc) (0, none)).1

/-- `get_bound`, `src/primitive/util.rs:32-38` -/
def getBound2 (vs : List (V2 K)) : Aabb2 K := vs.foldl (fun b p => b.grow p) Aabb2.zero
/-- the bound of a polyhedron, `src/primitive/polyhedron.rs:113-115, 129-131` -/
def getBound3 (vs : List (V3 K)) : Aabb3 K := vs.foldl (fun b p => b.grow p) Aabb3.zero

/-! ## Rectangle, Square (`src/primitive/rectangle.rs`) -/

/-- `Rectangle`, `src/primitive/rectangle.rs:19-24` -/
structure Rectangle (K : Type) where
  dim : V2 K
  halfDim : V2 K
  corners : List (V2 K)
/-- `generate_corners`, `src/primitive/rectangle.rs:55-62` -/
def Rectangle.generateCorners (h : V2 K) : List (V2 K) := [⟨h.x, h.y⟩, ⟨-h.x, h.y⟩, ⟨-h.x, -h.y⟩, ⟨h.x, -h.y⟩]
/-- `new_impl`, `src/primitive/rectangle.rs:36-43` -/
def Rectangle.newImpl (dim : V2 K) : Rectangle K :=
  let h := dim / (1 + 1 : K)
  ⟨dim, h, Rectangle.generateCorners h⟩
/-- `new`, `src/primitive/rectangle.rs:31-33` -/
def Rectangle.new (dimX dimY : K) : Rectangle K := Rectangle.newImpl ⟨dimX, dimY⟩
/-- `support_point`, `src/primitive/rectangle.rs:71-76` -/
def Rectangle.supportPoint (s : Rectangle K) (T : Tr (V2 K)) (d : V2 K) : Res (V2 K) := support (maxPoint2 s.corners) T d
/-- `compute_bound`, `src/primitive/rectangle.rs:83-88` -/
def Rectangle.bound (s : Rectangle K) : Aabb2 K := Aabb2.new (-s.halfDim) s.halfDim
/-- `intersects(Ray2)`, `src/primitive/rectangle.rs:96-98` -/
def Rectangle.intersectsRay (s : Rectangle K) (r : Ray2 K) : Bool := r.intersectsAabb s.bound
/-- `intersection(Ray2)`, `src/primitive/rectangle.rs:108-110` -/
def Rectangle.intersectionRay (s : Rectangle K) (r : Ray2 K) : Option (V2 (Ext K)) := r.intersectionAabb s.bound

/-- `Square`, `src/primitive/rectangle.rs:122-124` -/
structure Square (K : Type) where
  rectangle : Rectangle K
/-- `new`, `src/primitive/rectangle.rs:131-135` -/
def Square.new (dim : K) : Square K := ⟨Rectangle.new dim dim⟩
/-- `support_point`, `src/primitive/rectangle.rs:154-159` -/
def Square.supportPoint (s : Square K) (T : Tr (V2 K)) (d : V2 K) : Res (V2 K) := s.rectangle.supportPoint T d
/-- `compute_bound`, `src/primitive/rectangle.rs:166-168` -/
def Square.bound (s : Square K) : Aabb2 K := s.rectangle.bound
/-- `intersects(Ray2)`, `src/primitive/rectangle.rs:176-178` -/
def Square.intersectsRay (s : Square K) (r : Ray2 K) : Bool := s.rectangle.intersectsRay r
/-- `intersection(Ray2)`, `src/primitive/rectangle.rs:188-190` -/
def Square.intersectionRay (s : Square K) (r : Ray2 K) : Option (V2 (Ext K)) := s.rectangle.intersectionRay r

/-! ## Cuboid, Cube (`src/primitive/cuboid.rs`) -/

/-- `Cuboid`, `src/primitive/cuboid.rs:18-23` -/
structure Cuboid (K : Type) where
  dim : V3 K
  halfDim : V3 K
  corners : List (V3 K)
/-- `generate_corners`, `src/primitive/cuboid.rs:54-65` -/
def Cuboid.generateCorners (h : V3 K) : List (V3 K) :=
  [⟨h.x, h.y, h.z⟩, ⟨-h.x, h.y, h.z⟩, ⟨-h.x, -h.y, h.z⟩, ⟨h.x, -h.y, h.z⟩,
   ⟨h.x, h.y, -h.z⟩, ⟨-h.x, h.y, -h.z⟩, ⟨-h.x, -h.y, -h.z⟩, ⟨h.x, -h.y, -h.z⟩]
/-- `new_impl`, `src/primitive/cuboid.rs:35-42` -/
def Cuboid.newImpl (dim : V3 K) : Cuboid K :=
  let h := dim / (1 + 1 : K)
  ⟨dim, h, Cuboid.generateCorners h⟩
/-- `new`, `src/primitive/cuboid.rs:30-32` -/
def Cuboid.new (dimX dimY dimZ : K) : Cuboid K := Cuboid.newImpl ⟨dimX, dimY, dimZ⟩
/-- `support_point`, `src/primitive/cuboid.rs:74-79` -/
def Cuboid.supportPoint (s : Cuboid K) (T : Tr (V3 K)) (d : V3 K) : Res (V3 K) := support (maxPoint3 s.corners) T d
/-- `compute_bound` to `Aabb3`, `src/primitive/cuboid.rs:86-91` -/
def Cuboid.bound (s : Cuboid K) : Aabb3 K := Aabb3.new (-s.halfDim) s.halfDim
/-- radius of `compute_bound` to `Sphere`, `src/primitive/cuboid.rs:98-104` -/
def Cuboid.sphereRadius (s : Cuboid K) : K := max (max s.halfDim.x s.halfDim.y) s.halfDim.z
/-- `intersects(Ray3)`, `src/primitive/cuboid.rs:111-117` -/
def Cuboid.intersectsRay (nz : V3 Bool) (s : Cuboid K) (r : Ray3 K) : Bool := r.intersectsAabb nz (Aabb3.new (-s.halfDim) s.halfDim)
/-- `intersection(Ray3)`, `src/primitive/cuboid.rs:126-132` -/
def Cuboid.intersectionRay (nz : V3 Bool) (s : Cuboid K) (r : Ray3 K) : Option (V3 (Ext K)) :=
  r.intersectionAabb nz (Aabb3.new (-s.halfDim) s.halfDim)

/-- `Cube`, `src/primitive/cuboid.rs:144-146` -/
structure Cube (K : Type) where
  cuboid : Cuboid K
/-- `new`, `src/primitive/cuboid.rs:153-157` -/
def Cube.new (dim : K) : Cube K := ⟨Cuboid.new dim dim dim⟩
/-- `support_point`, `src/primitive/cuboid.rs:176-181` -/
def Cube.supportPoint (s : Cube K) (T : Tr (V3 K)) (d : V3 K) : Res (V3 K) := s.cuboid.supportPoint T d
/-- `compute_bound` to `Aabb3`, `src/primitive/cuboid.rs:188-190` -/
def Cube.bound (s : Cube K) : Aabb3 K := s.cuboid.bound
/-- radius of `compute_bound` to `Sphere`, `src/primitive/cuboid.rs:197-199` -/
def Cube.sphereRadius (s : Cube K) : K := s.cuboid.sphereRadius
/-- `intersects(Ray3)`, `src/primitive/cuboid.rs:206-208` -/
def Cube.intersectsRay (nz : V3 Bool) (s : Cube K) (r : Ray3 K) : Bool := s.cuboid.intersectsRay nz r
/-- `intersection(Ray3)`, `src/primitive/cuboid.rs:217-219` -/
def Cube.intersectionRay (nz : V3 Bool) (s : Cube K) (r : Ray3 K) : Option (V3 (Ext K)) := s.cuboid.intersectionRay nz r

/-! ## Quad (`src/primitive/quad.rs`) -/

/-- `Quad`, `src/primitive/quad.rs:19-24` -/
structure Quad (K : Type) where
  dim : V2 K
  halfDim : V2 K
  corners : List (V3 K)
/-- `generate_corners`, `src/primitive/quad.rs:55-62` -/
def Quad.generateCorners (h : V2 K) : List (V3 K) := [⟨h.x, h.y, 0⟩, ⟨-h.x, h.y, 0⟩, ⟨-h.x, -h.y, 0⟩, ⟨h.x, -h.y, 0⟩]
/-- `new_impl`, `src/primitive/quad.rs:36-43` -/
def Quad.newImpl (dim : V2 K) : Quad K :=
  let h := dim / (1 + 1 : K)
  ⟨dim, h, Quad.generateCorners h⟩
/-- `new`, `src/primitive/quad.rs:31-33` -/
def Quad.new (dimX dimY : K) : Quad K := Quad.newImpl ⟨dimX, dimY⟩
/-- `support_point`, `src/primitive/quad.rs:71-76` -/
def Quad.supportPoint (s : Quad K) (T : Tr (V3 K)) (d : V3 K) : Res (V3 K) := support (maxPoint3 s.corners) T d
/-- `compute_bound` to `Aabb3`, `src/primitive/quad.rs:83-88` -/
def Quad.bound (s : Quad K) : Aabb3 K := Aabb3.new ⟨-s.halfDim.x, -s.halfDim.y, 0⟩ ⟨s.halfDim.x, s.halfDim.y, 0⟩
/-- radius of `compute_bound` to `Sphere`, `src/primitive/quad.rs:95-100` -/
def Quad.sphereRadius (s : Quad K) : K := max s.halfDim.x s.halfDim.y
/-- `intersects(Ray3)`, `src/primitive/quad.rs:108-111` -/
def Quad.intersectsRay (nz : V3 Bool) (s : Quad K) (r : Ray3 K) : Bool := r.intersectsAabb nz s.bound
/-- `intersection(Ray3)`, `src/primitive/quad.rs:121-124` -/
def Quad.intersectionRay (nz : V3 Bool) (s : Quad K) (r : Ray3 K) : Option (V3 (Ext K)) := r.intersectionAabb nz s.bound

/-! ## Line (`src/primitive/line.rs`) -/

/-- local part of `support_point`, `src/primitive/line.rs:18-23` -/
def lineLocal (l : Line2 K) (e : V2 K) : V2 K := if e.dot (l.dest - l.origin) ≥ 0 then l.dest else l.origin
/-- `support_point`, `src/primitive/line.rs:13-24` -/
def lineSupport (l : Line2 K) (T : Tr (V2 K)) (d : V2 K) : Res (V2 K) := support (lineLocal l) T d
/-- `compute_bound`, `src/primitive/line.rs:31-33` -/
def lineBound (l : Line2 K) : Aabb2 K := Aabb2.new l.origin l.dest

end

noncomputable section

/-! ## Circle and Sphere (`src/primitive/circle.rs`, `sphere.rs`) -/

/-- `Circle`, `src/primitive/circle.rs:16-19` -/
structure Circle where
  radius : ℝ
/-- `support_point`, `src/primitive/circle.rs:34-40` -/
def Circle.supportPoint (s : Circle) (T : Tr (V2 ℝ)) (d : V2 ℝ) : Res (V2 ℝ) :=
  supportRound (fun e => e.normalizeTo s.radius) T d
/-- `compute_bound`, `src/primitive/circle.rs:47-52` -/
def Circle.bound (s : Circle) : Aabb2 ℝ := Aabb2.new ⟨-s.radius, -s.radius⟩ ⟨s.radius, s.radius⟩
/-- `intersects(Ray2)`, `src/primitive/circle.rs:59-68` -/
def Circle.intersectsRay (s : Circle) (r : Ray2 ℝ) : Bool :=
  let l : V2 ℝ := ⟨-r.origin.x, -r.origin.y⟩
  let tca := l.dot r.direction
  if tca < 0 then false else
  let d2 := l.dot l - tca * tca
  d2 ≤ s.radius * s.radius
/-- `intersection(Ray2)`, `src/primitive/circle.rs:77-91` -/
def Circle.intersectionRay (s : Circle) (r : Ray2 ℝ) : Option (V2 ℝ) :=
  let l : V2 ℝ := ⟨-r.origin.x, -r.origin.y⟩
  let tca := l.dot r.direction
  if tca < 0 then none else
  let d2 := l.dot l - tca * tca
  if d2 > s.radius * s.radius then none else
  let thc := Real.sqrt (s.radius * s.radius - d2)
  some (r.origin + r.direction * (tca - thc))

/-- `primitive::Sphere`, `src/primitive/sphere.rs:14-17` -/
structure Ball where
  radius : ℝ
/-- `support_point`, `src/primitive/sphere.rs:32-38` -/
def Ball.supportPoint (s : Ball) (T : Tr (V3 ℝ)) (d : V3 ℝ) : Res (V3 ℝ) :=
  supportRound (fun e => e.normalizeTo s.radius) T d
/-- `compute_bound` to `Aabb3`, `src/primitive/sphere.rs:45-50` -/
def Ball.bound (s : Ball) : Aabb3 ℝ := Aabb3.new (V3.fromValue (-s.radius)) (V3.fromValue s.radius)
/-- `compute_bound` to `Sphere`, `src/primitive/sphere.rs:57-62` -/
def Ball.sphere (s : Ball) : Sphere := ⟨0, s.radius⟩
/-- `intersects(Ray3)`, `src/primitive/sphere.rs:69-78` -/
def Ball.intersectsRay (s : Ball) (r : Ray3 ℝ) : Bool :=
  let l : V3 ℝ := ⟨-r.origin.x, -r.origin.y, -r.origin.z⟩
  let tca := l.dot r.direction
  if tca < 0 then false else
  let d2 := l.dot l - tca * tca
  d2 ≤ s.radius * s.radius
/-- `intersection(Ray3)`, `src/primitive/sphere.rs:87-101` -/
def Ball.intersectionRay (s : Ball) (r : Ray3 ℝ) : Option (V3 ℝ) :=
  let l : V3 ℝ := ⟨-r.origin.x, -r.origin.y, -r.origin.z⟩
  let tca := l.dot r.direction
  if tca < 0 then none else
  let d2 := l.dot l - tca * tca
  if d2 > s.radius * s.radius then none else
  let thc := Real.sqrt (s.radius * s.radius - d2)
  some (r.origin + r.direction * (tca - thc))

/-- bounding spheres of the boxes, `src/primitive/cuboid.rs:98-104` -/
def Cuboid.sphere (s : Cuboid ℝ) : Sphere := ⟨0, s.sphereRadius⟩
/-- `src/primitive/cuboid.rs:197-199` -/
def Cube.sphere (s : Cube ℝ) : Sphere := ⟨0, s.sphereRadius⟩
/-- `src/primitive/quad.rs:95-100` -/
def Quad.sphere (s : Quad ℝ) : Sphere := ⟨0, s.sphereRadius⟩

/-! ## Capsule (`src/primitive/capsule.rs`) -/

/-- `Capsule`, `src/primitive/capsule.rs:17-20` -/
structure Capsule where
  halfHeight : ℝ
  radius : ℝ
/-- `Float::is_sign_negative` -/
def signNeg (nz : Bool) (y : ℝ) : Bool := y < 0 || (y = 0 && nz)
/-- `Float::signum` -/
def signum (nz : Bool) (y : ℝ) : ℝ := if signNeg nz y then -1 else 1
/-- local part of `support_point`, `src/primitive/capsule.rs:57-59` -/
def Capsule.local (s : Capsule) (nz : Bool) (e : V3 ℝ) : V3 ℝ := ⟨0, signum nz e.y * s.halfHeight, 0⟩ + e.normalizeTo s.radius
/-- `support_point`, `src/primitive/capsule.rs:51-60` -/
def Capsule.supportPoint (s : Capsule) (nz : Bool) (T : Tr (V3 ℝ)) (d : V3 ℝ) : Res (V3 ℝ) :=
  supportRound (s.local nz) T d
/-- `compute_bound` to `Aabb3`, `src/primitive/capsule.rs:67-72` -/
def Capsule.bound (s : Capsule) : Aabb3 ℝ :=
  Aabb3.new ⟨-s.radius, -s.halfHeight - s.radius, -s.radius⟩ ⟨s.radius, s.halfHeight + s.radius, s.radius⟩
/-- `compute_bound` to `Sphere`, `src/primitive/capsule.rs:79-84` -/
def Capsule.sphere (s : Capsule) : Sphere := ⟨0, s.halfHeight + s.radius⟩

/-! ## Cylinder (`src/primitive/cylinder.rs`) -/

/-- `Cylinder`, `src/primitive/cylinder.rs:17-20` -/
structure Cylinder where
  halfHeight : ℝ
  radius : ℝ
/-- local part of `support_point`, `src/primitive/cylinder.rs:57-76` -/
def Cylinder.local (s : Cylinder) (nz : Bool) (e : V3 ℝ) : V3 ℝ :=
  let negative := signNeg nz e.y
  let result : V3 ℝ := ⟨e.x, 0, e.z⟩
  let result : V3 ℝ := if result.dot result = 0 then 0 else
    let n := result.normalize
    if n = 0 then 0 else n * s.radius
  if negative then ⟨result.x, -s.halfHeight, result.z⟩ else ⟨result.x, s.halfHeight, result.z⟩
/-- `support_point`, `src/primitive/cylinder.rs:51-77` -/
def Cylinder.supportPoint (s : Cylinder) (nz : Bool) (T : Tr (V3 ℝ)) (d : V3 ℝ) : Res (V3 ℝ) := support (s.local nz) T d
/-- `compute_bound` to `Aabb3`, `src/primitive/cylinder.rs:84-89` -/
def Cylinder.bound (s : Cylinder) : Aabb3 ℝ :=
  Aabb3.new ⟨-s.radius, -s.halfHeight, -s.radius⟩ ⟨s.radius, s.halfHeight, s.radius⟩
/-- `compute_bound` to `Sphere`, `src/primitive/cylinder.rs:96-101` -/
def Cylinder.sphere (s : Cylinder) : Sphere := ⟨0, Real.sqrt (s.radius * s.radius + s.halfHeight * s.halfHeight)⟩

end
end Verif.Primitive
