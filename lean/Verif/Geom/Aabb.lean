import Verif.Geom.Vec
/-!
# Model of `src/volume/aabb/{mod,aabb2,aabb3}.rs` (everything except ray tests and plane relation)
-/
namespace Verif.Geom
variable {K : Type} [LinearOrder K]

/-- `min`, `src/volume/aabb/mod.rs:21-26` (on a linear order `partial_cmp` is total) -/
def pmin (l r : K) : K := if l ≤ r then l else r
/-- `max`, `src/volume/aabb/mod.rs:28-33` -/
def pmax (l r : K) : K := if r ≤ l then l else r

/-- `MinMax::min` for `Point2`, `src/volume/aabb/mod.rs:48-50` -/
def V2.pmin (a b : V2 K) : V2 K := ⟨Geom.pmin a.x b.x, Geom.pmin a.y b.y⟩
/-- `MinMax::max` for `Point2`, `src/volume/aabb/mod.rs:52-54` -/
def V2.pmax (a b : V2 K) : V2 K := ⟨Geom.pmax a.x b.x, Geom.pmax a.y b.y⟩
/-- `MinMax::min` for `Point3`, `src/volume/aabb/mod.rs:61-63` -/
def V3.pmin (a b : V3 K) : V3 K := ⟨Geom.pmin a.x b.x, Geom.pmin a.y b.y, Geom.pmin a.z b.z⟩
/-- `MinMax::max` for `Point3`, `src/volume/aabb/mod.rs:65-67` -/
def V3.pmax (a b : V3 K) : V3 K := ⟨Geom.pmax a.x b.x, Geom.pmax a.y b.y, Geom.pmax a.z b.z⟩

/-- `Aabb2`, `src/volume/aabb/aabb2.rs:20-25` -/
@[ext] structure Aabb2 (K : Type) where
  min : V2 K
  max : V2 K
  deriving DecidableEq, Repr

/-- `Aabb3`, `src/volume/aabb/aabb3.rs:20-25` -/
@[ext] structure Aabb3 (K : Type) where
  min : V3 K
  max : V3 K
  deriving DecidableEq, Repr

namespace Aabb2
/-- `src/volume/aabb/aabb2.rs:30-35` -/
def new (p1 p2 : V2 K) : Aabb2 K :=
  { min := ⟨pmin p1.x p2.x, pmin p1.y p2.y⟩, max := ⟨pmax p1.x p2.x, pmax p1.y p2.y⟩ }
/-- `src/volume/aabb/aabb2.rs:39-46` -/
def toCorners (b : Aabb2 K) : List (V2 K) :=
  [b.min, ⟨b.max.x, b.min.y⟩, ⟨b.min.x, b.max.y⟩, b.max]
/-- `Aabb::zero`, `src/volume/aabb/mod.rs:85-88` -/
def zero [Zero K] : Aabb2 K := new 0 0
/-- `Aabb::dim`, `src/volume/aabb/mod.rs:98-100` -/
def dim [Sub K] (b : Aabb2 K) : V2 K := b.max - b.min
/-- `Aabb::volume` (product of the components), `src/volume/aabb/mod.rs:104-106` -/
def volume [Sub K] [Mul K] (b : Aabb2 K) : K := b.dim.x * b.dim.y
/-- `Aabb::center`, `src/volume/aabb/mod.rs:110-113` -/
def center [Add K] [Sub K] [Div K] [One K] (b : Aabb2 K) : V2 K := b.min + b.dim / (1 + 1 : K)
/-- `Aabb::grow`, `src/volume/aabb/mod.rs:116-118` -/
def grow (b : Aabb2 K) (p : V2 K) : Aabb2 K := new (V2.pmin b.min p) (V2.pmax b.max p)
/-- `Aabb::add_v`, `src/volume/aabb/mod.rs:122-124` -/
def addV [Add K] (b : Aabb2 K) (v : V2 K) : Aabb2 K := new (b.min + v) (b.max + v)
/-- `add_margin`, `src/volume/aabb/aabb2.rs:70-75` -/
def addMargin [Add K] [Sub K] (b : Aabb2 K) (m : V2 K) : Aabb2 K :=
  new ⟨b.min.x - m.x, b.min.y - m.y⟩ ⟨b.max.x + m.x, b.max.y + m.y⟩
/-- `Aabb::mul_s`, `src/volume/aabb/mod.rs:131-133` -/
def mulS [Mul K] (b : Aabb2 K) (s : K) : Aabb2 K := new (b.min * s) (b.max * s)
/-- `Aabb::mul_v`, `src/volume/aabb/mod.rs:136-140` -/
def mulV [Mul K] (b : Aabb2 K) (v : V2 K) : Aabb2 K := new (b.min.mulE v) (b.max.mulE v)
/-- `transform`, `src/volume/aabb/aabb2.rs:78-88`; `T` is `Transform::transform_point` -/
def transform (b : Aabb2 K) (T : V2 K → V2 K) : Aabb2 K :=
  b.toCorners.tail.foldl (fun u c => u.grow (T c)) (new (T b.min) (T b.min))
/-- `Contains<Point2>`, `src/volume/aabb/aabb2.rs:99-101` -/
def containsPoint (b : Aabb2 K) (p : V2 K) : Bool :=
  b.min.x ≤ p.x && p.x < b.max.x && b.min.y ≤ p.y && p.y < b.max.y
/-- `Contains<Aabb2>`, `src/volume/aabb/aabb2.rs:106-114` -/
def contains (b o : Aabb2 K) : Bool :=
  b.min.x ≤ o.min.x && b.min.y ≤ o.min.y && o.max.x ≤ b.max.x && o.max.y ≤ b.max.y
/-- `Contains<Line2>`, `src/volume/aabb/aabb2.rs:119-121` -/
def containsLine (b : Aabb2 K) (l : Line2 K) : Bool := b.containsPoint l.origin && b.containsPoint l.dest
/-- `Union`, `src/volume/aabb/aabb2.rs:127-129` -/
def union (b o : Aabb2 K) : Aabb2 K := (b.grow o.min).grow o.max
/-- `SurfaceArea`, `src/volume/aabb/aabb2.rs:135-137` -/
def surfaceArea [Sub K] [Mul K] (b : Aabb2 K) : K := b.dim.x * b.dim.y
/-- `Discrete<Aabb2>`, `src/volume/aabb/aabb2.rs:219-224` -/
def intersects (a b : Aabb2 K) : Bool :=
  b.min.x < a.max.x && a.min.x < b.max.x && b.min.y < a.max.y && a.min.y < b.max.y
end Aabb2

namespace Aabb3
/-- `src/volume/aabb/aabb3.rs:30-35` -/
def new (p1 p2 : V3 K) : Aabb3 K :=
  { min := ⟨pmin p1.x p2.x, pmin p1.y p2.y, pmin p1.z p2.z⟩,
    max := ⟨pmax p1.x p2.x, pmax p1.y p2.y, pmax p1.z p2.z⟩ }
/-- `src/volume/aabb/aabb3.rs:39-50` -/
def toCorners (b : Aabb3 K) : List (V3 K) :=
  [b.min, ⟨b.max.x, b.min.y, b.min.z⟩, ⟨b.min.x, b.max.y, b.min.z⟩, ⟨b.max.x, b.max.y, b.min.z⟩,
   ⟨b.min.x, b.min.y, b.max.z⟩, ⟨b.max.x, b.min.y, b.max.z⟩, ⟨b.min.x, b.max.y, b.max.z⟩, b.max]
/-- `Aabb::zero`, `src/volume/aabb/mod.rs:85-88` -/
def zero [Zero K] : Aabb3 K := new 0 0
/-- `Aabb::dim`, `src/volume/aabb/mod.rs:98-100` -/
def dim [Sub K] (b : Aabb3 K) : V3 K := b.max - b.min
/-- `Aabb::volume`, `src/volume/aabb/mod.rs:104-106` -/
def volume [Sub K] [Mul K] (b : Aabb3 K) : K := b.dim.x * b.dim.y * b.dim.z
/-- `Aabb::center`, `src/volume/aabb/mod.rs:110-113` -/
def center [Add K] [Sub K] [Div K] [One K] (b : Aabb3 K) : V3 K := b.min + b.dim / (1 + 1 : K)
/-- `Aabb::grow`, `src/volume/aabb/mod.rs:116-118` -/
def grow (b : Aabb3 K) (p : V3 K) : Aabb3 K := new (V3.pmin b.min p) (V3.pmax b.max p)
/-- `Aabb::add_v`, `src/volume/aabb/mod.rs:122-124` -/
def addV [Add K] (b : Aabb3 K) (v : V3 K) : Aabb3 K := new (b.min + v) (b.max + v)
/-- `add_margin`, `src/volume/aabb/aabb3.rs:74-87` -/
def addMargin [Add K] [Sub K] (b : Aabb3 K) (m : V3 K) : Aabb3 K :=
  new ⟨b.min.x - m.x, b.min.y - m.y, b.min.z - m.z⟩ ⟨b.max.x + m.x, b.max.y + m.y, b.max.z + m.z⟩
/-- `Aabb::mul_s`, `src/volume/aabb/mod.rs:131-133` -/
def mulS [Mul K] (b : Aabb3 K) (s : K) : Aabb3 K := new (b.min * s) (b.max * s)
/-- `Aabb::mul_v`, `src/volume/aabb/mod.rs:136-140` -/
def mulV [Mul K] (b : Aabb3 K) (v : V3 K) : Aabb3 K := new (b.min.mulE v) (b.max.mulE v)
/-- `transform`, `src/volume/aabb/aabb3.rs:90-100`; `T` is `Transform::transform_point` -/
def transform (b : Aabb3 K) (T : V3 K → V3 K) : Aabb3 K :=
  b.toCorners.tail.foldl (fun u c => u.grow (T c)) (new (T b.min) (T b.min))
/-- `Contains<Point3>`, `src/volume/aabb/aabb3.rs:111-118` -/
def containsPoint (b : Aabb3 K) (p : V3 K) : Bool :=
  b.min.x ≤ p.x && p.x < b.max.x && b.min.y ≤ p.y && p.y < b.max.y && b.min.z ≤ p.z && p.z < b.max.z
/-- `Contains<Aabb3>`, `src/volume/aabb/aabb3.rs:123-133` -/
def contains (b o : Aabb3 K) : Bool :=
  b.min.x ≤ o.min.x && b.min.y ≤ o.min.y && b.min.z ≤ o.min.z &&
  o.max.x ≤ b.max.x && o.max.y ≤ b.max.y && o.max.z ≤ b.max.z
/-- `Contains<Line3>`, `src/volume/aabb/aabb3.rs:151-153` -/
def containsLine (b : Aabb3 K) (l : Line3 K) : Bool := b.containsPoint l.origin && b.containsPoint l.dest
/-- `Union`, `src/volume/aabb/aabb3.rs:159-161` -/
def union (b o : Aabb3 K) : Aabb3 K := (b.grow o.min).grow o.max
/-- `SurfaceArea`, `src/volume/aabb/aabb3.rs:271-275` -/
def surfaceArea [Add K] [Sub K] [Mul K] [One K] (b : Aabb3 K) : K :=
  (1 + 1) * ((b.dim.x * b.dim.y) + (b.dim.x * b.dim.z) + (b.dim.y * b.dim.z))
/-- `Discrete<Aabb3>`, `src/volume/aabb/aabb3.rs:247-252` -/
def intersects (a b : Aabb3 K) : Bool :=
  b.min.x < a.max.x && a.min.x < b.max.x && b.min.y < a.max.y && a.min.y < b.max.y &&
  b.min.z < a.max.z && a.min.z < b.max.z
end Aabb3

/-! ## Specification vocabulary -/

/-- `p` is in the closed box. -/
def Aabb2.Mem (b : Aabb2 K) (p : V2 K) : Prop :=
  (b.min.x ≤ p.x ∧ p.x ≤ b.max.x) ∧ (b.min.y ≤ p.y ∧ p.y ≤ b.max.y)
/-- `p` is in the closed box. -/
def Aabb3.Mem (b : Aabb3 K) (p : V3 K) : Prop :=
  (b.min.x ≤ p.x ∧ p.x ≤ b.max.x) ∧ (b.min.y ≤ p.y ∧ p.y ≤ b.max.y) ∧ (b.min.z ≤ p.z ∧ p.z ≤ b.max.z)
/-- `p` is in the open box. -/
def Aabb2.IMem (b : Aabb2 K) (p : V2 K) : Prop :=
  (b.min.x < p.x ∧ p.x < b.max.x) ∧ (b.min.y < p.y ∧ p.y < b.max.y)
/-- `p` is in the open box. -/
def Aabb3.IMem (b : Aabb3 K) (p : V3 K) : Prop :=
  (b.min.x < p.x ∧ p.x < b.max.x) ∧ (b.min.y < p.y ∧ p.y < b.max.y) ∧ (b.min.z < p.z ∧ p.z < b.max.z)
/-- Normalised box: `min ≤ max` in every coordinate. -/
def Aabb2.Valid (b : Aabb2 K) : Prop := b.min.x ≤ b.max.x ∧ b.min.y ≤ b.max.y
/-- Normalised box: `min ≤ max` in every coordinate. -/
def Aabb3.Valid (b : Aabb3 K) : Prop := b.min.x ≤ b.max.x ∧ b.min.y ≤ b.max.y ∧ b.min.z ≤ b.max.z
/-- Box of positive extent. -/
def Aabb2.Pos (b : Aabb2 K) : Prop := b.min.x < b.max.x ∧ b.min.y < b.max.y
/-- Box of positive extent. -/
def Aabb3.Pos (b : Aabb3 K) : Prop := b.min.x < b.max.x ∧ b.min.y < b.max.y ∧ b.min.z < b.max.z

/-- `T` is affine: it maps points of a line to points of a line, with the same parameter. -/
def Affine2 [Add K] [Sub K] [Mul K] (T : V2 K → V2 K) : Prop := ∀ p q (t : K), T (p + (q - p) * t) = T p + (T q - T p) * t
/-- `T` is affine: it maps points of a line to points of a line, with the same parameter. -/
def Affine3 [Add K] [Sub K] [Mul K] (T : V3 K → V3 K) : Prop := ∀ p q (t : K), T (p + (q - p) * t) = T p + (T q - T p) * t

@[simp] theorem pmin_eq (a b : K) : pmin a b = Min.min a b := by simp [pmin, min_def]
@[simp] theorem pmax_eq (a b : K) : pmax a b = Max.max a b := by
  unfold pmax
  rw [max_comm, max_def]

end Verif.Geom
