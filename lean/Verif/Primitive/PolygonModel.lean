import Verif.Primitive.Model
/-!
# Model of `src/primitive/polygon.rs`

Slice indexing that leaves the slice is `Res.panic`.  Not modelled: the `as i32` casts wrap for more than `2^31` vertices; here `Int` is unbounded.
-/
namespace Verif.Primitive
open Verif Verif.Geom
set_option linter.unusedSectionVars false
variable {K : Type} [Field K] [LinearOrder K]

/-- `ConvexPolygon`, `src/primitive/polygon.rs:20-23` -/
structure Polygon (K : Type) where
  vertices : List (V2 K)
/-- `new`, `src/primitive/polygon.rs:27-29` -/
def Polygon.new (vs : List (V2 K)) : Polygon K := ⟨vs⟩

/-- Body of the loop of the ray tests for one `j`: predecessor, edge normal, ray against edge; `src/primitive/polygon.rs:66-81, 98-115` -/
def Polygon.edgeHit (vs : List (V2 K)) (r : Ray2 K) (j : Nat) : Res (Option (V2 K)) := do
  let i := if j = 0 then vs.length - 1 else j - 1
  let vj ← Res.ofOption vs[j]?
  let vi ← Res.ofOption vs[i]?
  let normal : V2 K := ⟨vj.y - vi.y, vi.x - vj.x⟩
  if r.direction.dot normal < 0 then return r.intersectionLine ⟨vi, vj⟩ else return none

/-- `for j in 0..len - 1`, returning at the first hit: `js` are the values of `j` still to come; `src/primitive/polygon.rs:97-118` -/
def Polygon.rayLoop (vs : List (V2 K)) (r : Ray2 K) : List Nat → Res (Option (V2 K))
  | [] => .ok none
  | j :: js => do
    let h ← Polygon.edgeHit vs r j
    match h with
    | some p => return some p
    | none => Polygon.rayLoop vs r js

/-- `intersection(Ray2)`, `src/primitive/polygon.rs:96-119`; `len() - 1` underflows (panics) without vertices -/
def Polygon.intersectionRay (s : Polygon K) (r : Ray2 K) : Res (Option (V2 K)) :=
  if s.vertices.length = 0 then .panic else Polygon.rayLoop s.vertices r (List.range (s.vertices.length - 1))

/-- the loop of `intersects(Ray2)`, `src/primitive/polygon.rs:65-85` -/
def Polygon.rayLoopB (vs : List (V2 K)) (r : Ray2 K) : List Nat → Res Bool
  | [] => .ok false
  | j :: js => do
    let h ← Polygon.edgeHit vs r j
    if h.isSome then return true else Polygon.rayLoopB vs r js
/-- `intersects(Ray2)`, `src/primitive/polygon.rs:64-86` -/
def Polygon.intersectsRay (s : Polygon K) (r : Ray2 K) : Res Bool :=
  if s.vertices.length = 0 then .panic else Polygon.rayLoopB s.vertices r (List.range (s.vertices.length - 1))

/-- `compute_bound`, `src/primitive/polygon.rs:54-56` -/
def Polygon.bound (s : Polygon K) : Aabb2 K := getBound2 s.vertices

/-- `dot_index`, `src/primitive/polygon.rs:185-199`; a negative index other than `-1` becomes a huge `usize` and panics -/
def dotIndex (vs : List (V2 K)) (index : Int) (d : V2 K) : Res K := do
  let v ← if index = vs.length then Res.ofOption vs[0]?
    else if index = -1 then Res.ofOption vs[vs.length - 1]?
    else if index < 0 then .panic
    else Res.ofOption vs[index.toNat]?
  return v.dot d

/-- index wrap-around, `src/primitive/polygon.rs:157-162, 171-176` -/
def wrapIndex (n : Nat) (index : Int) : Int :=
  let i := if index = n then 0 else index
  if i = -1 then n - 1 else i

/-- the `while` loop of the hill climb, `src/primitive/polygon.rs:163-178` -/
def climbLoop (vs : List (V2 K)) (d : V2 K) (start add : Int) : Nat → Int → K → K → Res (V2 K)
  | 0, _, _, _ => .timeout
  | fuel + 1, index, prev, cur =>
    if index = start then Res.ofOption vs[index.toNat]?
    else do
      let next ← dotIndex vs (index + add) d
      if cur > prev ∧ cur > next then Res.ofOption vs[index.toNat]?
      else climbLoop vs d start add fuel (wrapIndex vs.length (index + add)) cur next

/-- `support_point` in the local frame (hill climb), `src/primitive/polygon.rs:130-179`.  The loop runs with fuel `len + 1`. -/
def climb (vs : List (V2 K)) (d : V2 K) : Res (V2 K) := do
  let v0 ← Res.ofOption vs[0]?
  let m0 := v0.dot d
  let start : Int := if m0 < 0 then (vs.length / 2 : Nat) else 0
  let maxDot ← if m0 < 0 then dotIndex vs start d else .ok m0
  let left ← dotIndex vs (start - 1) d
  let right ← dotIndex vs (start + 1) d
  if start = 0 ∧ maxDot > left ∧ maxDot > right then return v0
  else
    let back := left > maxDot ∧ left > right
    let add : Int := if back then -1 else 1
    let prev := if back then right else left
    climbLoop vs d start add (vs.length + 1) (wrapIndex vs.length (start + add)) prev maxDot

/-- `Primitive::support_point`, `src/primitive/polygon.rs:38-47` with `122-129, 181` -/
def Polygon.supportPoint (s : Polygon K) (T : Tr (V2 K)) (d : V2 K) : Res (V2 K) :=
  if s.vertices.length < 10 then support (maxPoint2 s.vertices) T d
  else do
    let e ← Res.ofOption (T.invVector d)
    let p ← climb s.vertices e
    return T.point p

end Verif.Primitive
