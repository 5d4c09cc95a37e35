import Verif.Primitive.PolyhedronModel
/-!
# Model of `src/algorithm/minkowski/`: GJK and EPA

Primitives enter GJK only through `Primitive::support_point(direction, transform)` and through the images of the origin under the two
transforms, so `left` and `right` are arbitrary functions from a direction to a support point (`Res`: they may panic).
A `SmallVec`/`Vec` of support points is a `List`, oldest point first. Floating point is exact; where the code divides by zero and
goes on with NaN the comment of the definition says what the model does instead.
-/
namespace Verif.Minkowski
open Verif Geom Primitive
set_option linter.unusedSectionVars false

/-- `SupportPoint`, `src/algorithm/minkowski/mod.rs:16-23` -/
structure SP (V : Type) where
  v : V
  supA : V
  supB : V
  deriving DecidableEq

/-- `SupportPoint::from_minkowski`, `src/algorithm/minkowski/mod.rs:39-60` -/
def SP.fromMinkowski {V : Type} [Neg V] [Sub V] (left right : V → Res V) (direction : V) : Res (SP V) := do
  let l ← left direction
  let r ← right (-direction)
  return ⟨l - r, l, r⟩

/-- `SupportPoint - Point`, `src/algorithm/minkowski/mod.rs:69-75` -/
def SP.subPoint {V : Type} [Sub V] (p : SP V) (q : V) : SP V := ⟨p.v - q, p.supA, p.supB⟩

/-- `CollisionStrategy`, `src/contact.rs:16-22` -/
inductive Strategy where
  | fullResolution
  | collisionOnly
  deriving DecidableEq

/-- `Contact`, `src/contact.rs:30-46` -/
structure Contact (V K : Type) where
  strategy : Strategy
  normal : V
  depth : K
  point : V
  toi : K

/-- `Contact::new_with_point`, `src/contact.rs:68-81` -/
def Contact.newWithPoint {V K : Type} [Zero K] (s : Strategy) (n : V) (d : K) (p : V) : Contact V K := ⟨s, n, d, p, 0⟩
/-- `Contact::new` (through `new_impl`), `src/contact.rs:54-65` -/
def Contact.new {V K : Type} [Zero K] [Zero V] (s : Strategy) : Contact V K := Contact.newWithPoint s 0 0 0

/-- What `GJK::intersect` uses of the vector space: `InnerSpace::dot` and `Array::from_value(1)`. -/
class Inner (V : Type) (K : outParam Type) where
  dot : V → V → K
  ones : V
instance {K : Type} [Add K] [Mul K] [One K] : Inner (V2 K) K := ⟨V2.dot, ⟨1, 1⟩⟩
instance {K : Type} [Add K] [Mul K] [One K] : Inner (V3 K) K := ⟨V3.dot, ⟨1, 1, 1⟩⟩

section generic
variable {V K : Type} [Neg V] [Sub V] [Zero V] [DecidableEq V] [Zero K] [LinearOrder K] [Inner V K]

/-- How `GJK::intersect` ends: `Some(simplex)` (line 140), `None` because the support point does not pass the origin
(lines 125, 133), `None` because the iterations are used up (line 145). -/
inductive Out (V : Type) where
  | hit (s : List (SP V))
  | miss
  | exhausted
  deriving DecidableEq

/-- The loop of `GJK::intersect`, `src/algorithm/minkowski/gjk/mod.rs:130-145`. `reduce` is
`SimplexProcessor::reduce_to_closest_feature`: the result, the simplex and the direction it leaves. -/
def gjkLoop (reduce : List (SP V) → V → Bool × List (SP V) × V) (left right : V → Res V) :
    Nat → List (SP V) → V → Res (Out V)
  | 0, _, _ => .ok .exhausted
  | n + 1, simplex, d => do
    let a ← SP.fromMinkowski left right d
    if Inner.dot a.v d ≤ 0 then return .miss
    else
      let r := reduce (simplex ++ [a]) d
      if r.1 then return .hit r.2.1 else gjkLoop reduce left right n r.2.1 r.2.2

/-- The first search direction, `src/algorithm/minkowski/gjk/mod.rs:117-122` (also 288-294); `leftPos`, `rightPos` are the images
of the origin under the transforms. -/
def firstDirection (leftPos rightPos : V) : V :=
  let d := rightPos - leftPos
  if d = 0 then Inner.ones else d

/-- `GJK::intersect` with the reason for `None`, `src/algorithm/minkowski/gjk/mod.rs:101-146` -/
def gjkRun (reduce : List (SP V) → V → Bool × List (SP V) × V) (maxIterations : Nat) (left right : V → Res V) (leftPos rightPos : V) :
    Res (Out V) := do
  let d := firstDirection leftPos rightPos
  let a ← SP.fromMinkowski left right d
  if Inner.dot a.v d ≤ 0 then return .miss
  else gjkLoop reduce left right maxIterations [a] (-d)

/-- the `Option` that `GJK::intersect` returns -/
def Out.toOption {V : Type} : Out V → Option (List (SP V))
  | .hit s => some s
  | .miss => none
  | .exhausted => none

/-- `GJK::intersect`, `src/algorithm/minkowski/gjk/mod.rs:101-146` -/
def gjkIntersect (reduce : List (SP V) → V → Bool × List (SP V) × V) (maxIterations : Nat) (left right : V → Res V)
    (leftPos rightPos : V) : Res (Option (List (SP V))) := do
  let o ← gjkRun reduce maxIterations left right leftPos rightPos
  return o.toOption

/-- `GJK::intersection`, `src/algorithm/minkowski/gjk/mod.rs:362-391`; `epa` is `get_contact_manifold` (326-344) on the simplex. -/
def gjkIntersection (reduce : List (SP V) → V → Bool × List (SP V) × V) (maxIterations : Nat)
    (epa : List (SP V) → Res (Option (Contact V K))) (strategy : Strategy) (left right : V → Res V)
    (leftPos rightPos : V) : Res (Option (Contact V K)) := do
  let o ← gjkIntersect reduce maxIterations left right leftPos rightPos
  match o with
  | none => return none
  | some simplex =>
    match strategy with
    | .collisionOnly => return some (Contact.new .collisionOnly)
    | .fullResolution => epa simplex
end generic

section simplex
variable {K : Type} [Field K] [LinearOrder K] [IsStrictOrderedRing K]

/-- `triple_product`, `src/primitive/util.rs:42-49` -/
def tripleProduct (a b c : V2 K) : V2 K :=
  let ac := a.x * c.x + a.y * c.y
  let bc := b.x * c.x + b.y * c.y
  ⟨b.x * ac - a.x * bc, b.y * ac - a.y * bc⟩

/-- `SimplexProcessor2::reduce_to_closest_feature`, `src/algorithm/minkowski/gjk/simplex/simplex2d.rs:23-67`
(`ulps_eq!` with zero is equality) -/
def reduce2 (simplex : List (SP (V2 K))) (d : V2 K) : Bool × List (SP (V2 K)) × V2 K :=
  match simplex with
  | [s0, s1, s2] =>
    let a := s2.v
    let b := s1.v
    let c := s0.v
    let ao := -a
    let ab := b - a
    let ac := c - a
    let abp := tripleProduct ac ab ab
    if abp.dot ao > 0 then (false, [s1, s2], abp)
    else
      let acp := tripleProduct ab ac ac
      if acp.dot ao > 0 then (false, [s0, s2], acp) else (true, [s0, s1, s2], d)
  | [s0, s1] =>
    let a := s1.v
    let b := s0.v
    let ao := -a
    let ab := b - a
    let d := tripleProduct ab ao ab
    let d : V2 K := if d = 0 then ⟨-ab.y, ab.x⟩ else d
    (false, [s0, s1], d)
  | _ => (false, simplex, d)

/-- `cross_aba`, `src/algorithm/minkowski/gjk/simplex/simplex3d.rs:172-177` -/
def crossAba (a b : V3 K) : V3 K := (a.cross b).cross a

/-- `check_side`, `src/algorithm/minkowski/gjk/simplex/simplex3d.rs:180-220`, on the simplex `[s0, s1, s2]`: the new simplex and
direction. -/
def checkSide (abc ab ac ao : V3 K) (s0 s1 s2 : SP (V3 K)) (above ignoreAb : Bool) : List (SP (V3 K)) × V3 K :=
  let abPerp := ab.cross abc
  if !ignoreAb ∧ abPerp.dot ao > 0 then ([s1, s2], crossAba ab ao)
  else
    let acPerp := abc.cross ac
    if acPerp.dot ao > 0 then ([s0, s2], crossAba ac ao)
    else if above ∨ abc.dot ao > 0 then ([s0, s1, s2], abc)
    else ([s1, s0, s2], -abc)

/-- `SimplexProcessor3::reduce_to_closest_feature`, `src/algorithm/minkowski/gjk/simplex/simplex3d.rs:24-98`; in the two-point case
`0.1` replaces the first component of a zero vector (92-94). -/
def reduce3 (simplex : List (SP (V3 K))) (v : V3 K) : Bool × List (SP (V3 K)) × V3 K :=
  match simplex with
  | [s0, s1, s2, s3] =>
    let a := s3.v
    let b := s2.v
    let c := s1.v
    let d := s0.v
    let ao := -a
    let ab := b - a
    let ac := c - a
    let abc := ab.cross ac
    if abc.dot ao > 0 then
      let r := checkSide abc ab ac ao s1 s2 s3 true false
      (false, r.1, r.2)
    else
      let ad := d - a
      let acd := ac.cross ad
      if acd.dot ao > 0 then
        let r := checkSide acd ac ad ao s0 s1 s3 true true
        (false, r.1, r.2)
      else
        let adb := ad.cross ab
        if adb.dot ao > 0 then (false, [s2, s0, s3], adb) else (true, [s0, s1, s2, s3], v)
  | [s0, s1, s2] =>
    let a := s2.v
    let b := s1.v
    let c := s0.v
    let ao := -a
    let ab := b - a
    let ac := c - a
    let r := checkSide (ab.cross ac) ab ac ao s0 s1 s2 false false
    (false, r.1, r.2)
  | [s0, s1] =>
    let a := s1.v
    let b := s0.v
    let ao := -a
    let ab := b - a
    let v := crossAba ab ao
    let v : V3 K := if v = 0 then ⟨1 / 10, v.y, v.z⟩ else v
    (false, [s0, s1], v)
  | _ => (false, simplex, v)
end simplex

/-! ## Closest points, distance, time of impact -/
noncomputable section
open Classical

/-- `get_closest_point_on_edge` (2D), `src/primitive/util.rs:98-114`, with `point` the origin. For `start = end` the code normalises the
zero vector and returns a vector of NaN: `none`. -/
def closestOnEdge2 (start «end» : V2 ℝ) : Option (V2 ℝ) :=
  let line := «end» - start
  if line = 0 then none
  else
    let lineDir := line.normalize
    let v := 0 - start
    let d := v.dot lineDir
    some (if d < 0 then start else if d * d > line.dot line then «end» else start + lineDir * d)
/-- `get_closest_point_on_edge` (3D), same remark. -/
def closestOnEdge3 (start «end» : V3 ℝ) : Option (V3 ℝ) :=
  let line := «end» - start
  if line = 0 then none
  else
    let lineDir := line.normalize
    let v := 0 - start
    let d := v.dot lineDir
    some (if d < 0 then start else if d * d > line.dot line then «end» else start + lineDir * d)

/-- `SimplexProcessor2::get_closest_point_to_origin`, `src/algorithm/minkowski/gjk/simplex/simplex2d.rs:72-89`: the point (`none`: NaN) and the
simplex left. A simplex with fewer points panics (indexing). -/
def closest2 (simplex : List (SP (V2 ℝ))) : Res (Option (V2 ℝ) × List (SP (V2 ℝ))) :=
  let r := reduce2 simplex 0
  if r.1 then .ok (some r.2.2, r.2.1)
  else
    match r.2.1 with
    | [s0] => .ok (some s0.v, [s0])
    | s0 :: s1 :: rest => .ok (closestOnEdge2 s1.v s0.v, s0 :: s1 :: rest)
    | [] => .panic

/-- `get_closest_point_on_face`, `src/algorithm/minkowski/gjk/simplex/simplex3d.rs:131-161`. `Plane::from_points(..).unwrap()` panics on
a degenerate face, the `assert!` panics when the point is outside the face. -/
def closestOnFace (a b c normal : V3 ℝ) : Res (V3 ℝ) := do
  let plane ← Res.ofOption (Plane.fromPoints a b c)
  match plane.intersectionRay false ⟨0, -normal⟩ with
  | some ⟨.fin x, .fin y, .fin z⟩ =>
    let point : V3 ℝ := ⟨x, y, z⟩
    let uvw := barycentric point a b c
    if inRange uvw.1 ∧ inRange uvw.2.1 ∧ inRange uvw.2.2 then return point else .panic
  | some _ => .panic
  | none => return 0

/-- `SimplexProcessor3::get_closest_point_to_origin`, `src/algorithm/minkowski/gjk/simplex/simplex3d.rs:103-121` -/
def closest3 (simplex : List (SP (V3 ℝ))) : Res (Option (V3 ℝ) × List (SP (V3 ℝ))) :=
  let r := reduce3 simplex 0
  if r.1 then .ok (some r.2.2, r.2.1)
  else
    match r.2.1 with
    | [s0] => .ok (some s0.v, [s0])
    | [s0, s1] => .ok (closestOnEdge3 s1.v s0.v, [s0, s1])
    | s0 :: s1 :: s2 :: rest => do
      let p ← closestOnFace s2.v s1.v s0.v r.2.2
      return (some p, s0 :: s1 :: s2 :: rest)
    | [] => .panic

section
variable {V : Type} [Neg V] [Sub V] [Zero V] [HMul V ℝ V] [Inner V ℝ]

/-- `InnerSpace::magnitude` -/
def mag (v : V) : ℝ := Real.sqrt (Inner.dot v v)

/-- The loop of `GJK::distance`, `src/algorithm/minkowski/gjk/mod.rs:304-320`; `closest` is `get_closest_point_to_origin`;
`nan` is the support point found for a direction of NaN components (every comparison with it is false, so the loop goes on with it). -/
def distanceLoop (closest : List (SP V) → Res (Option V × List (SP V))) (tolerance : ℝ) (left right : V → Res V) (nan : Res (SP V)) :
    Nat → List (SP V) → Res (Option ℝ)
  | 0, _ => .ok none
  | n + 1, simplex => do
    let c ← closest simplex
    match c.1 with
    | none => do
      let p ← nan
      distanceLoop closest tolerance left right nan n (c.2 ++ [p])
    | some v =>
    if v = 0 then return none
    else do
      let d := -v
      let p ← SP.fromMinkowski left right d
      let dp := Inner.dot p.v d
      let s0 ← Res.ofOption c.2[0]?
      let d0 := Inner.dot s0.v d
      if dp - d0 < tolerance then return some (mag d)
      else distanceLoop closest tolerance left right nan n (c.2 ++ [p])

/-- `GJK::distance`, `src/algorithm/minkowski/gjk/mod.rs:271-321` -/
def gjkDistance (closest : List (SP V) → Res (Option V × List (SP V))) (tolerance : ℝ) (maxIterations : Nat) (left right : V → Res V)
    (nan : Res (SP V)) (leftPos rightPos : V) : Res (Option ℝ) := do
  let d : V := firstDirection leftPos rightPos
  let s0 ← SP.fromMinkowski left right d
  let s1 ← SP.fromMinkowski left right (-d)
  distanceLoop closest tolerance left right nan maxIterations [s0, s1]

/-- State of `intersection_time_of_impact` at the end of its loop: `lambda`, `normal` (before the final normalisation), `ray_origin`, `v`. -/
structure Impact (V : Type) where
  lambda : ℝ
  normal : V
  rayOrigin : V
  v : V

/-- The `while` loop of `GJK::intersection_time_of_impact`, `src/algorithm/minkowski/gjk/mod.rs:204-241`; the code has no bound on the
number of iterations, so running out of fuel is `timeout`. A closest point of NaN components would end the loop with a contact of NaN depth; the model panics instead. -/
def toiLoop (closest : List (SP V) → Res (Option V × List (SP V))) (tolerance : ℝ) (left right : V → Res V) (ray : V) :
    Nat → List (SP V) → Impact V → Res (Option (Impact V))
  | fuel, simplex, st =>
    if Inner.dot st.v st.v > tolerance then
      match fuel with
      | 0 => .timeout
      | fuel + 1 => do
        let p ← SP.fromMinkowski left right (-st.v)
        let vp := Inner.dot st.v p.v
        let vr := Inner.dot st.v ray
        if vp > st.lambda * vr then
          if vr > 0 then
            let lambda := vp / vr
            if lambda > 1 then return none
            else do
              let o := ray * lambda
              let c ← closest [p.subPoint o]
              let v ← Res.ofOption c.1
              toiLoop closest tolerance left right ray fuel c.2 ⟨lambda, -st.v, o, v⟩
          else return none
        else do
          let c ← closest (simplex ++ [p.subPoint st.rayOrigin])
          let v ← Res.ofOption c.1
          toiLoop closest tolerance left right ray fuel c.2 { st with v := v }
    else .ok (some st)

/-- `GJK::intersection_time_of_impact`, `src/algorithm/minkowski/gjk/mod.rs:163-256`. `left`, `right` are the supports at the start
transforms, `lStart`, .. the images of the origin; `place λ p` is
`right.start.translation_interpolate(right.end, λ).transform_point(p)`; `normalize` is `InnerSpace::normalize` (NaN on zero in the code). -/
def gjkToi (closest : List (SP V) → Res (Option V × List (SP V))) (normalize : V → V) (tolerance : ℝ) (fuel : Nat) (left right : V → Res V)
    (lStart lEnd rStart rEnd : V) (place : ℝ → V → V) : Res (Option (Contact V ℝ)) := do
  let ray := (rEnd - rStart) - (lEnd - lStart)
  let p ← SP.fromMinkowski left right (-ray)
  let o ← toiLoop closest tolerance left right ray fuel [] ⟨0, 0, 0, p.v⟩
  match o with
  | none => return none
  | some st => return some { Contact.newWithPoint .fullResolution (-(normalize st.normal)) (mag st.v) (place st.lambda st.rayOrigin) with toi := st.lambda }
end

/-! ## EPA -/

/-- `Edge`, `src/algorithm/minkowski/epa/epa2d.rs:114-118` -/
structure EEdge where
  normal : V2 ℝ
  distance : ℝ
  index : Nat

/-- The loop of `closest_edge`, `src/algorithm/minkowski/epa/epa2d.rs:141-152`, from edge `i`; `none` is the initial edge at infinite
distance. An edge whose line passes through the origin has a NaN normal and distance in the code; the comparison is false and the
edge is skipped. -/
def closestEdgeLoop (vs : List (V2 ℝ)) : List Nat → Option EEdge → Res (Option EEdge)
  | [], best => .ok best
  | i :: is, best => do
    let j := if i + 1 = vs.length then 0 else i + 1
    let a ← Res.ofOption vs[i]?
    let b ← Res.ofOption vs[j]?
    let e := b - a
    let t := tripleProduct e a e
    if t = 0 then closestEdgeLoop vs is best
    else
      let n := t.normalize
      let d := n.dot a
      match best with
      | none => closestEdgeLoop vs is (some ⟨n, d, j⟩)
      | some b => closestEdgeLoop vs is (if d < b.distance then some ⟨n, d, j⟩ else some b)

/-- `closest_edge`, `src/algorithm/minkowski/epa/epa2d.rs:133-156`; the assertion fails when no edge has a finite distance. -/
def closestEdge (simplex : List (SP (V2 ℝ))) : Res (Option EEdge) :=
  if simplex.length < 3 then .ok none
  else do
    let e ← closestEdgeLoop (simplex.map SP.v) (List.range simplex.length) none
    match e with
    | none => .panic
    | some e => return some e

/-- `point`, `src/algorithm/minkowski/epa/epa2d.rs:91-111` -/
def epaPoint2 (simplex : List (SP (V2 ℝ))) (edge : EEdge) : Res (V2 ℝ) := do
  let b ← Res.ofOption simplex[edge.index]?
  let a ← if edge.index = 0 then Res.ofOption simplex[simplex.length - 1]? else Res.ofOption simplex[edge.index - 1]?
  let oa := -a.v
  let ab := b.v - a.v
  let t := oa.dot ab / ab.dot ab
  if t < 0 then return a.supA else if t > 1 then return b.supA else return a.supA + (b.supA - a.supA) * t

/-- The loop of `EPA2::process`, `src/algorithm/minkowski/epa/epa2d.rs:46-61`: the simplex, the edge, and whether the loop was left by the
tolerance test (line 56). -/
def epa2Loop (tolerance : ℝ) (left right : V2 ℝ → Res (V2 ℝ)) : Nat → List (SP (V2 ℝ)) → EEdge → Res (List (SP (V2 ℝ)) × EEdge × Bool)
  | 0, simplex, e => .ok (simplex, e, false)
  | n + 1, simplex, e => do
    let p ← SP.fromMinkowski left right e.normal
    let d := p.v.dot e.normal
    if d - e.distance < tolerance then return (simplex, e, true)
    else do
      let simplex := simplex.take e.index ++ p :: simplex.drop e.index
      let o ← closestEdge simplex
      let e ← Res.ofOption o
      epa2Loop tolerance left right n simplex e

/-- `EPA2::process` with the flag of `epa2Loop`, `src/algorithm/minkowski/epa/epa2d.rs:27-69` -/
def epa2Run (tolerance : ℝ) (maxIterations : Nat) (left right : V2 ℝ → Res (V2 ℝ)) (simplex : List (SP (V2 ℝ))) :
    Res (Option (Contact (V2 ℝ) ℝ × Bool)) := do
  let o ← closestEdge simplex
  match o with
  | none => return none
  | some e =>
    let r ← epa2Loop tolerance left right maxIterations simplex e
    let p ← epaPoint2 r.1 r.2.1
    return some (Contact.newWithPoint .fullResolution r.2.1.normal r.2.1.distance p, r.2.2)
/-- `EPA2::process`, `src/algorithm/minkowski/epa/epa2d.rs:27-69` -/
def epa2 (tolerance : ℝ) (maxIterations : Nat) (left right : V2 ℝ → Res (V2 ℝ)) (simplex : List (SP (V2 ℝ))) :
    Res (Option (Contact (V2 ℝ) ℝ)) := do
  let o ← epa2Run tolerance maxIterations left right simplex
  return o.map Prod.fst

/-- `Face`, `src/algorithm/minkowski/epa/epa3d.rs:179-183`. `plane = none` is a face with NaN normal and distance (zero area). -/
structure EFace where
  vertices : Nat × Nat × Nat
  plane : Option (V3 ℝ × ℝ)

/-- `Face::new_impl`, `src/algorithm/minkowski/epa/epa3d.rs:189-199` -/
def EFace.newImpl (simplex : List (SP (V3 ℝ))) (a b c : Nat) : Res EFace := do
  let sb ← Res.ofOption simplex[b]?
  let sa ← Res.ofOption simplex[a]?
  let sc ← Res.ofOption simplex[c]?
  let ab := sb.v - sa.v
  let ac := sc.v - sa.v
  let n := ab.cross ac
  if n = 0 then return ⟨(a, b, c), none⟩
  else return ⟨(a, b, c), some (n.normalize, n.normalize.dot sa.v)⟩

/-- `Face::new`, `src/algorithm/minkowski/epa/epa3d.rs:201-208` -/
def EFace.newAll (simplex : List (SP (V3 ℝ))) : Res (List EFace) := do
  let f0 ← EFace.newImpl simplex 3 2 1
  let f1 ← EFace.newImpl simplex 3 1 0
  let f2 ← EFace.newImpl simplex 3 0 2
  let f3 ← EFace.newImpl simplex 2 0 1
  return [f0, f1, f2, f3]

/-- `f.distance < face.distance` (false on NaN) -/
def EFace.closer (f g : EFace) : Prop :=
  match f.plane, g.plane with
  | some (_, d), some (_, e) => d < e
  | _, _ => False

/-- `Polytope::closest_face_to_origin`, `src/algorithm/minkowski/epa/epa3d.rs:137-145`; no face is a panic. -/
def closestFace : List EFace → Res EFace
  | [] => .panic
  | f :: fs => .ok (fs.foldl (fun face f => if f.closer face then f else face) f)

/-- `remove_or_add_edge`, `src/algorithm/minkowski/epa/epa3d.rs:212-219` -/
def removeOrAddEdge (edges : List (Nat × Nat)) (edge : Nat × Nat) : List (Nat × Nat) :=
  match edges.findIdx? (fun e => edge.1 = e.2 ∧ edge.2 = e.1) with
  | some i => edges.eraseIdx i
  | none => edges ++ [edge]

/-- The `while` loop of `Polytope::add`, `src/algorithm/minkowski/epa/epa3d.rs:151-163`, from face `i`; `swap_remove` moves the last face
to position `i`. Fuel: the number of faces not yet decided. -/
def addLoop (vertices : List (SP (V3 ℝ))) (p : V3 ℝ) : Nat → List EFace → Nat → List (Nat × Nat) → Res (List EFace × List (Nat × Nat))
  | 0, faces, i, edges => if i < faces.length then .timeout else .ok (faces, edges)
  | fuel + 1, faces, i, edges =>
    match faces[i]? with
    | none => .ok (faces, edges)
    | some f => do
      let v0 ← Res.ofOption vertices[f.vertices.1]?
      let visible : Prop := match f.plane with
        | some (n, _) => n.dot (p - v0.v) > 0
        | none => False
      if visible then
        let (a, b, c) := f.vertices
        let faces := (faces.set i (faces.getLast?.getD f)).dropLast
        addLoop vertices p fuel faces i (removeOrAddEdge (removeOrAddEdge (removeOrAddEdge edges (a, b)) (b, c)) (c, a))
      else addLoop vertices p fuel faces (i + 1) edges

/-- `Face::new_impl(vertices, n, a, b)` for every horizon edge, `src/algorithm/minkowski/epa/epa3d.rs:170-173` -/
def newFaces (vertices : List (SP (V3 ℝ))) (n : Nat) : List (Nat × Nat) → Res (List EFace)
  | [] => .ok []
  | (a, b) :: es => do
    let f ← EFace.newImpl vertices n a b
    let fs ← newFaces vertices n es
    return f :: fs

/-- `Polytope::add`, `src/algorithm/minkowski/epa/epa3d.rs:147-175` -/
def polytopeAdd (vertices : List (SP (V3 ℝ))) (faces : List EFace) (sup : SP (V3 ℝ)) : Res (List (SP (V3 ℝ)) × List EFace) := do
  let r ← addLoop vertices sup.v faces.length faces 0 []
  let vertices' := vertices ++ [sup]
  let fs ← newFaces vertices' vertices.length r.2
  return (vertices', r.1 ++ fs)

/-- `point`, `src/algorithm/minkowski/epa/epa3d.rs:100-114` -/
def epaPoint3 (vertices : List (SP (V3 ℝ))) (f : EFace) (n : V3 ℝ) (d : ℝ) : Res (V3 ℝ) := do
  let a ← Res.ofOption vertices[f.vertices.1]?
  let b ← Res.ofOption vertices[f.vertices.2.1]?
  let c ← Res.ofOption vertices[f.vertices.2.2]?
  let uvw := barycentric (n * d) a.v b.v c.v
  return a.supA * uvw.1 + b.supA * uvw.2.1 + c.supA * uvw.2.2

/-- Outcome of EPA3: a contact with the flag "left by the tolerance test", or a contact full of NaN (the first face has zero area: it is
never replaced, so the code iterates to the end and returns its NaN normal and distance). -/
inductive Epa3Out where
  | contact (c : Contact (V3 ℝ) ℝ) (converged : Bool)
  | nan

/-- The loop of `EPA3::process`, `src/algorithm/minkowski/epa/epa3d.rs:45-64`; `fuel` is `max_iterations - i` -/
def epa3Loop (tolerance : ℝ) (left right : V3 ℝ → Res (V3 ℝ)) : Nat → List (SP (V3 ℝ)) → List EFace → Res Epa3Out
  | fuel, vertices, faces => do
    let face ← closestFace faces
    match face.plane with
    | none => return .nan
    | some (n, dist) => do
      let p ← SP.fromMinkowski left right n
      let d := p.v.dot n
      if d - dist < tolerance then do
        let q ← epaPoint3 vertices face n dist
        return .contact (Contact.newWithPoint .fullResolution n dist q) true
      else
        match fuel with
        | 0 => do
          let q ← epaPoint3 vertices face n dist
          return .contact (Contact.newWithPoint .fullResolution n dist q) false
        | fuel + 1 => do
          let r ← polytopeAdd vertices faces p
          epa3Loop tolerance left right fuel r.1 r.2

/-- `EPA3::process`, `src/algorithm/minkowski/epa/epa3d.rs:27-65`; `i` starts at 1 and the loop ends at `i ≥ max_iterations`. -/
def epa3 (tolerance : ℝ) (maxIterations : Nat) (left right : V3 ℝ → Res (V3 ℝ)) (simplex : List (SP (V3 ℝ))) :
    Res (Option Epa3Out) :=
  if simplex.length < 4 then .ok none
  else do
    let faces ← EFace.newAll simplex
    let o ← epa3Loop tolerance left right (maxIterations - 1) simplex faces
    return some o
end

/-! ## Complex shapes -/
section complex
variable {PL PR TL TR GL GR UL UR V K : Type} [LinearOrder K]

/-- The nested loops over the primitives of two shapes, `src/algorithm/minkowski/gjk/mod.rs:431-434, 494-497, 557-562`: the pairs in the
order visited, with the concatenated transforms. `concatL`, `concatR` are `Transform::concat`; for the time of impact `GL` is a range of
transforms and both ends are concatenated with the local transform. -/
def pairs (concatL : GL → TL → UL) (concatR : GR → TR → UR) (left : List (PL × TL)) (leftT : GL) (right : List (PR × TR)) (rightT : GR) :
    List ((PL × UL) × (PR × UR)) :=
  left.flatMap fun l => right.map fun r => ((l.1, concatL leftT l.2), (r.1, concatR rightT r.2))

/-- `GJK::intersection_complex`, `src/algorithm/minkowski/gjk/mod.rs:430-450`: the contacts collected (`inl`), or the contact returned at
once in `CollisionOnly` mode (`inr`). -/
def collect (strategy : Strategy) (test : (PL × UL) → (PR × UR) → Res (Option (Contact V K))) :
    List ((PL × UL) × (PR × UR)) → List (Contact V K) → Res (List (Contact V K) ⊕ Contact V K)
  | [], acc => .ok (.inl acc)
  | (l, r) :: ps, acc => do
    let o ← test l r
    match o with
    | none => collect strategy test ps acc
    | some c =>
      match strategy with
      | .collisionOnly => return .inr c
      | .fullResolution => collect strategy test ps (acc ++ [c])

/-- `Iterator::max_by` on `penetration_depth`: the last of the maximal elements. `partial_cmp` is never `None` on a linear order. -/
def maxByDepth : List (Contact V K) → Option (Contact V K)
  | [] => none
  | c :: cs => some (cs.foldl (fun m x => if x.depth < m.depth then m else x) c)
/-- `Iterator::min_by` on `time_of_impact`: the first of the minimal elements. -/
def minByToi : List (Contact V K) → Option (Contact V K)
  | [] => none
  | c :: cs => some (cs.foldl (fun m x => if x.toi < m.toi then x else m) c)

/-- `GJK::intersection_complex`, `src/algorithm/minkowski/gjk/mod.rs:412-462`; `test` is `self.intersection(strategy, ..)` -/
def intersectionComplex (concatL : GL → TL → UL) (concatR : GR → TR → UR) (test : Strategy → (PL × UL) → (PR × UR) → Res (Option (Contact V K)))
    (strategy : Strategy) (left : List (PL × TL)) (leftT : GL) (right : List (PR × TR)) (rightT : GR) : Res (Option (Contact V K)) := do
  let r ← collect strategy (test strategy) (pairs concatL concatR left leftT right rightT) []
  match r with
  | .inl cs => return maxByDepth cs
  | .inr c => return some c

/-- `GJK::distance_complex`, the loop, `src/algorithm/minkowski/gjk/mod.rs:493-515` -/
def distanceComplexLoop (dist : (PL × UL) → (PR × UR) → Res (Option K)) : List ((PL × UL) × (PR × UR)) → Option K → Res (Option K)
  | [], m => .ok m
  | (l, r) :: ps, m => do
    let o ← dist l r
    match o with
    | none => return none
    | some d => distanceComplexLoop dist ps (some (match m with | none => d | some m => min d m))

/-- `GJK::distance_complex`, `src/algorithm/minkowski/gjk/mod.rs:477-516` -/
def distanceComplex (concatL : GL → TL → UL) (concatR : GR → TR → UR) (dist : (PL × UL) → (PR × UR) → Res (Option K))
    (left : List (PL × TL)) (leftT : GL) (right : List (PR × TR)) (rightT : GR) : Res (Option K) :=
  distanceComplexLoop dist (pairs concatL concatR left leftT right rightT) none

/-- `GJK::intersection_complex_time_of_impact`, `src/algorithm/minkowski/gjk/mod.rs:538-588`. `leftT`, `rightT` are
ranges of transforms; `test` is `self.intersection_time_of_impact`. -/
def toiComplex (concatL : GL → TL → UL) (concatR : GR → TR → UR) (test : (PL × UL) → (PR × UR) → Res (Option (Contact V K)))
    (strategy : Strategy) (left : List (PL × TL)) (leftT : GL) (right : List (PR × TR)) (rightT : GR) : Res (Option (Contact V K)) := do
  let r ← collect strategy test (pairs concatL concatR left leftT right rightT) []
  match r with
  | .inl cs => return minByToi cs
  | .inr c => return some { c with strategy := .collisionOnly }
end complex

end Verif.Minkowski
