import Verif.Primitive.Model
import Verif.Geom.Plane
/-!
# Model of `src/primitive/polyhedron.rs`

The fields of `Vertex`, `Edge` and `Face` are kept as lists of the combinatorial part (`Mesh`) and lists of the positions and planes; indexing out of
bounds is `Res.panic`.  `HashMap` and `BitSet` are functions; unbounded loops take fuel.
-/
namespace Verif.Primitive
open Verif Verif.Geom
set_option linter.unusedSectionVars false

/-- `Edge`, `src/primitive/polyhedron.rs:42-49` -/
structure HEdge where
  target : Nat
  left : Nat := 0
  next : Nat := 0
  prev : Nat := 0
  twin : Nat
  ready : Bool := false
  deriving DecidableEq, Repr

/-- The combinatorial part of `Vertex`: `edge`, `ready`; `src/primitive/polyhedron.rs:30-34` -/
structure HVert where
  edge : Nat := 0
  ready : Bool := false
  deriving DecidableEq, Repr

/-- a triangle: three vertex numbers -/
abbrev Tri := Nat × Nat × Nat

/-- The combinatorial part of `Face`: `edge`, `vertices`; `src/primitive/polyhedron.rs:57-65` (`ready` is always true after construction) -/
structure HFace where
  edge : Nat
  verts : Tri
  deriving DecidableEq, Repr

/-- The state of `build_half_edges`, `src/primitive/polyhedron.rs:289-299` -/
structure Mesh where
  verts : List HVert
  edges : List HEdge
  faces : List HFace
  emap : Nat × Nat → Option Nat

/-- `l[i] = f(l[i])`, panics out of bounds -/
def updAt {α : Type} (l : List α) (i : Nat) (f : α → α) : Res (List α) := do
  let x ← Res.ofOption l[i]?
  return l.set i (f x)

/-- `HashMap::insert` -/
def mapIns (m : Nat × Nat → Option Nat) (k : Nat × Nat) (v : Nat) : Nat × Nat → Option Nat := fun k' => if k' = k then some v else m k'

/-- Look up or create the two half edges between `v0` and `v1`: `src/primitive/polyhedron.rs:320-348` -/
def Mesh.findEdge (m : Mesh) (v0 v1 : Nat) : Res (Mesh × Nat) := do
  match m.emap (v0, v1) with
  | some e =>
    let ed ← Res.ofOption m.edges[e]?
    return ({ m with emap := mapIns (mapIns m.emap (v0, v1) e) (v1, v0) ed.twin }, e)
  | none =>
    let i := m.edges.length
    return ({ m with
      edges := m.edges ++ [({ target := v1, twin := i + 1 } : HEdge), ({ target := v0, twin := i } : HEdge)]
      emap := mapIns (mapIns m.emap (v0, v1) i) (v1, v0) (i + 1) }, i)

/-- One round of the first inner loop: `src/primitive/polyhedron.rs:316-365` -/
def Mesh.halfEdge (m : Mesh) (faceIndex v0 v1 : Nat) : Res (Mesh × Nat) := do
  let (m, e) ← m.findEdge v0 v1
  let edges ← updAt m.edges e fun ed => if ed.ready then ed else { ed with left := faceIndex, ready := true }
  let verts ← updAt m.verts v0 fun v => if v.ready then v else { edge := e, ready := true }
  return ({ m with edges := edges, verts := verts }, e)

/-- One round of the second inner loop: `src/primitive/polyhedron.rs:372-375` -/
def linkEdges (edges : List HEdge) (i j : Nat) : Res (List HEdge) := do
  let edges ← updAt edges i fun ed => { ed with next := j }
  updAt edges j fun ed => { ed with prev := i }

/-- The body of the outer loop for one face: `src/primitive/polyhedron.rs:300-377` (the plane is computed in `build`) -/
def Mesh.addFace (m : Mesh) (f : Tri) : Res Mesh := do
  let (a, b, c) := f
  let fi := m.faces.length
  let (m, e2) ← m.halfEdge fi c a
  let (m, e0) ← m.halfEdge fi a b
  let (m, e1) ← m.halfEdge fi b c
  let faces := m.faces ++ [({ edge := e2, verts := (a, b, c) } : HFace)]
  let edges ← linkEdges m.edges e2 e0
  let edges ← linkEdges edges e0 e1
  let edges ← linkEdges edges e1 e2
  return { m with faces := faces, edges := edges }

/-- all faces: `src/primitive/polyhedron.rs:300` -/
def Mesh.addFaces (m : Mesh) : List Tri → Res Mesh
  | [] => .ok m
  | f :: fs => do
    let m ← m.addFace f
    m.addFaces fs

/-- initial state: `src/primitive/polyhedron.rs:289-299` -/
def Mesh.init (n : Nat) : Mesh := ⟨List.replicate n {}, [], [], fun _ => none⟩

noncomputable section

/-- `Plane::from_points(..).unwrap()` of one face: `src/primitive/polyhedron.rs:305-310` -/
def facePlane (vs : List (V3 ℝ)) (f : Tri) : Res (Plane ℝ) := do
  let a ← Res.ofOption vs[f.1]?
  let b ← Res.ofOption vs[f.2.1]?
  let c ← Res.ofOption vs[f.2.2]?
  Res.ofOption (Plane.fromPoints a b c)

/-- the planes of all faces -/
def facePlanes (vs : List (V3 ℝ)) : List Tri → Res (List (Plane ℝ))
  | [] => .ok []
  | f :: fs => do
    let p ← facePlane vs f
    let ps ← facePlanes vs fs
    return p :: ps

/-- `max_extent`, `src/primitive/polyhedron.rs:116-120, 132-136`; `max_by` keeps the last maximum, which has the same value -/
def maxExtent (vs : List (V3 ℝ)) : ℝ :=
  match vs.map V3.norm with
  | [] => 0
  | x :: xs => xs.foldl (fun m y => if y < m then m else y) x

/-- `ConvexPolyhedron`, `src/primitive/polyhedron.rs:83-93` -/
structure Polyhedron where
  /-- `PolyhedronMode::HalfEdge` -/
  halfEdge : Bool
  positions : List (V3 ℝ)
  mesh : Mesh
  planes : List (Plane ℝ)
  bound : Aabb3 ℝ
  maxExtent : ℝ

/-- `ConvexPolyhedron::new`, `src/primitive/polyhedron.rs:100-122` -/
def Polyhedron.new (vs : List (V3 ℝ)) : Polyhedron :=
  ⟨false, vs, ⟨List.replicate vs.length { edge := 0, ready := true }, [], [], fun _ => none⟩, [], getBound3 vs, Primitive.maxExtent vs⟩

/-- `ConvexPolyhedron::new_with_faces`, `src/primitive/polyhedron.rs:125-141`, with `build_half_edges`, `282-380`.  The code computes the plane of a face just before
its edges; the edges cannot panic when the plane did not, so the order is not visible. -/
def Polyhedron.newWithFaces (vs : List (V3 ℝ)) (fs : List Tri) : Res Polyhedron := do
  let planes ← facePlanes vs fs
  let mesh ← (Mesh.init vs.length).addFaces fs
  return ⟨true, vs, mesh, planes, getBound3 vs, Primitive.maxExtent vs⟩

/-- `dedup_vertices`, `src/primitive/polyhedron.rs:244-263`: the kept vertices, and the map from duplicate numbers to kept numbers; `i` is the number of the next vertex -/
def dedupLoop : List (V3 ℝ) → Nat → List (V3 ℝ) → (Nat → Option Nat) → List (V3 ℝ) × (Nat → Option Nat)
  | [], _, vs, dup => (vs, dup)
  | v :: rest, i, vs, dup =>
    let r := vs.zipIdx.foldl (fun (acc : (Nat → Option Nat) × Bool) p =>
      haveI := Classical.decEq (V3 ℝ)
      if p.1 = v then ((fun k => if k = i then some p.2 else acc.1 k), true) else acc) (dup, false)
    if r.2 then dedupLoop rest (i + 1) vs r.1 else dedupLoop rest (i + 1) (vs ++ [v]) r.1
/-- `dedup_vertices`, `src/primitive/polyhedron.rs:244-263` -/
def dedupVertices (vs : List (V3 ℝ)) : List (V3 ℝ) × (Nat → Option Nat) := dedupLoop vs 0 [] fun _ => none
/-- `dedup_faces`, `src/primitive/polyhedron.rs:265-279` -/
def dedupFaces (fs : List Tri) (dup : Nat → Option Nat) : List Tri :=
  fs.map fun f => ((dup f.1).getD f.1, (dup f.2.1).getD f.2.1, (dup f.2.2).getD f.2.2)
/-- `ConvexPolyhedron::new_with_faces_dedup`, `src/primitive/polyhedron.rs:145-148` -/
def Polyhedron.newWithFacesDedup (vs : List (V3 ℝ)) (fs : List Tri) : Res Polyhedron :=
  Polyhedron.newWithFaces (dedupVertices vs).1 (dedupFaces fs (dedupVertices vs).2)

/-- `FaceIterator::next` for face number `k`: `src/primitive/polyhedron.rs:229-241` -/
def Polyhedron.faceAt (p : Polyhedron) (k : Nat) : Res (Option (V3 ℝ × V3 ℝ × V3 ℝ)) :=
  match p.mesh.faces[k]? with
  | none => .ok none
  | some f => do
    let a ← Res.ofOption p.positions[f.verts.1]?
    let b ← Res.ofOption p.positions[f.verts.2.1]?
    let c ← Res.ofOption p.positions[f.verts.2.2]?
    return some (a, b, c)

/-- The inner loop of the hill climb, round the vertex: `src/primitive/polyhedron.rs:188-201` -/
def climbRing (pos : List (V3 ℝ)) (m : Mesh) (d : V3 ℝ) (start : Nat) : Nat → Nat → Nat → ℝ → Res (Nat × ℝ)
  | 0, _, _, _ => .timeout
  | fuel + 1, e, best, bestDot => do
    let ed ← Res.ofOption m.edges[e]?
    let v ← Res.ofOption pos[ed.target]?
    let r : Nat × ℝ := if v.dot d > bestDot then (ed.target, v.dot d) else (best, bestDot)
    let tw ← Res.ofOption m.edges[ed.twin]?
    if start = tw.next then return r else climbRing pos m d start fuel tw.next r.1 r.2

/-- The outer loop: `src/primitive/polyhedron.rs:183-206` -/
def climbVerts (pos : List (V3 ℝ)) (m : Mesh) (d : V3 ℝ) : Nat → Nat → ℝ → Res Nat
  | 0, _, _ => .timeout
  | fuel + 1, best, bestDot => do
    let hv ← Res.ofOption m.verts[best]?
    let r ← climbRing pos m d hv.edge (m.edges.length + 1) hv.edge best bestDot
    if r.2 = bestDot then return r.1 else climbVerts pos m d fuel r.1 r.2

/-- `hill_climb_support_point`, `src/primitive/polyhedron.rs:179-209` -/
def hillClimb (pos : List (V3 ℝ)) (m : Mesh) (d : V3 ℝ) : Res (V3 ℝ) := do
  let v0 ← Res.ofOption pos[0]?
  let b ← climbVerts pos m d (pos.length + 1) 0 (v0.dot d)
  Res.ofOption pos[b]?

/-- `support_point`, `src/primitive/polyhedron.rs:388-400`; `brute_force_support_point` (160-176) is `maxPoint3` -/
def Polyhedron.supportPoint (p : Polyhedron) (T : Tr (V3 ℝ)) (d : V3 ℝ) : Res (V3 ℝ) :=
  if p.halfEdge then do
    let e ← Res.ofOption (T.invVector d)
    let q ← hillClimb p.positions p.mesh e
    return T.point q
  else support (maxPoint3 p.positions) T d

/-- `compute_bound` to `Sphere`, `src/primitive/polyhedron.rs:416-421` -/
def Polyhedron.sphere (p : Polyhedron) : Sphere := ⟨0, p.maxExtent⟩

/-! ## Rays -/

/-- `barycentric_point`, `src/primitive/util.rs:75-95` -/
def barycentric (p a b c : V3 ℝ) : ℝ × ℝ × ℝ :=
  let v0 := b - a
  let v1 := c - a
  let v2 := p - a
  let d00 := v0.dot v0
  let d01 := v0.dot v1
  let d11 := v1.dot v1
  let d20 := v2.dot v0
  let d21 := v2.dot v1
  let inv := 1 / (d00 * d11 - d01 * d01)
  let v := (d11 * d20 - d01 * d21) * inv
  let w := (d00 * d21 - d01 * d20) * inv
  (1 - v - w, v, w)

/-- `intersect_ray_face`, `src/primitive/polyhedron.rs:567-591`, with `Plane::intersection(Ray3)`, `src/plane.rs:178-187`; the division is finite because
`n_dir < 0`. -/
def rayFace (pos : List (V3 ℝ)) (pl : Plane ℝ) (f : HFace) (r : Ray3 ℝ) : Res (Option (ℝ × ℝ × ℝ)) :=
  if pl.n.dot r.direction < 0 then
    let t := -(pl.d + r.origin.dot pl.n) / r.direction.dot pl.n
    if t < 0 then .ok none else do
      let a ← Res.ofOption pos[f.verts.1]?
      let b ← Res.ofOption pos[f.verts.2.1]?
      let c ← Res.ofOption pos[f.verts.2.2]?
      return some (barycentric (r.origin + r.direction * t) a b c)
  else .ok none

/-- `in_range`, `src/primitive/polyhedron.rs:487-492` -/
def inRange (v : ℝ) : Prop := 0 ≤ v ∧ v ≤ 1

/-- `while next < len && checked.contains(next) { next += 1 }`, `src/primitive/polyhedron.rs:513-521` -/
def scanFrom (n : Nat) (checked : Nat → Bool) (next : Nat) : Option Nat := (List.range n).find? fun k => decide (next ≤ k) && !checked k
/-- the last loop over all faces, `src/primitive/polyhedron.rs:553-559` -/
def scanAll (n : Nat) (checked : Nat → Bool) : Option Nat := (List.range n).find? fun k => !checked k

/-- the three edges of the face in the order in which they are tried: `src/primitive/polyhedron.rs:534-544` -/
def faceEdges (m : Mesh) (f : HFace) (target : Nat) : Res (List Nat) := do
  let fe ← Res.ofOption m.edges[f.edge]?
  if fe.target = target then return [f.edge, fe.next, fe.prev]
  else do
    let pe ← Res.ofOption m.edges[fe.prev]?
    if pe.target = target then return [fe.prev, f.edge, fe.next] else return [fe.next, fe.prev, f.edge]

/-- `src/primitive/polyhedron.rs:546-551` -/
def uncheckedNeighbour (m : Mesh) (checked : Nat → Bool) : List Nat → Res (Option Nat)
  | [] => .ok none
  | e :: es => do
    let ed ← Res.ofOption m.edges[e]?
    let tw ← Res.ofOption m.edges[ed.twin]?
    if checked tw.left then uncheckedNeighbour m checked es else return some tw.left

/-- `next_face_classify`, `src/primitive/polyhedron.rs:495-563` -/
def nextFace (m : Mesh) (i : Nat) (uvw : Option (ℝ × ℝ × ℝ)) (checked : Nat → Bool) : Res (Option Nat) :=
  if m.faces.length < 10 then
    if i = m.faces.length - 1 then .ok none else .ok (some (i + 1))
  else
    match uvw with
    | none => .ok (scanFrom m.faces.length checked (i + 1))
    | some (u, v, _) => do
      let f ← Res.ofOption m.faces[i]?
      let target := if u < 0 then f.verts.2.2 else if v < 0 then f.verts.1 else f.verts.2.1
      let es ← faceEdges m f target
      let o ← uncheckedNeighbour m checked es
      match o with
      | some k => return some k
      | none => return scanAll m.faces.length checked

open Classical in
/-- the loop of `find_intersecting_face`, `src/primitive/polyhedron.rs:469-482` -/
def findFaceLoop (p : Polyhedron) (r : Ray3 ℝ) : Nat → Nat → (Nat → Bool) → Res (Option (Nat × ℝ × ℝ × ℝ))
  | 0, _, _ => .timeout
  | fuel + 1, i, checked => do
    let checked := fun k => decide (k = i) || checked k
    let f ← Res.ofOption p.mesh.faces[i]?
    let pl ← Res.ofOption p.planes[i]?
    let uvw ← rayFace p.positions pl f r
    let next := do
      let o ← nextFace p.mesh i uvw checked
      match o with
      | some j => findFaceLoop p r fuel j checked
      | none => return none
    match uvw with
    | some (u, v, w) => if inRange u ∧ inRange v ∧ inRange w then return some (i, u, v, w) else next
    | none => next

/-- `find_intersecting_face`, `src/primitive/polyhedron.rs:460-484`; every round checks a new face, so `len + 1` rounds are enough -/
def findFace (p : Polyhedron) (r : Ray3 ℝ) : Res (Option (Nat × ℝ × ℝ × ℝ)) := findFaceLoop p r (p.mesh.faces.length + 1) 0 fun _ => false

/-- `intersects(Ray3)`, `src/primitive/polyhedron.rs:430-432` -/
def Polyhedron.intersectsRay (p : Polyhedron) (r : Ray3 ℝ) : Res Bool := do
  let o ← findFace p r
  return o.isSome

/-- `intersection(Ray3)`, `src/primitive/polyhedron.rs:442-452` -/
def Polyhedron.intersectionRay (p : Polyhedron) (r : Ray3 ℝ) : Res (Option (V3 ℝ)) := do
  let o ← findFace p r
  match o with
  | none => return none
  | some (i, u, v, w) =>
    let f ← Res.ofOption p.mesh.faces[i]?
    let a ← Res.ofOption p.positions[f.verts.1]?
    let b ← Res.ofOption p.positions[f.verts.2.1]?
    let c ← Res.ofOption p.positions[f.verts.2.2]?
    return some (a * u + b * v + c * w)

end
end Verif.Primitive
