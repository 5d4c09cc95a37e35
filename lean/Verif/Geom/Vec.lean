import Mathlib.Algebra.Order.Field.Basic
import Mathlib.Tactic.Ring
import Mathlib.Tactic.Linarith
import Mathlib.Tactic.FieldSimp
/-!
# Vectors and points (cgmath)

`cgmath::{Point2, Point3, Vector2, Vector3}` over an arbitrary linearly ordered field (exact
arithmetic).  Points and vectors are the same type here; `origin + v`, `p - q`, `v * s`, `v / s`, `dot`,
`cross`, `perp_dot`, `mul_element_wise` have their cgmath meaning.
-/
namespace Verif.Geom

/-- `cgmath::Vector2` / `Point2` -/
@[ext] structure V2 (K : Type) where
  x : K
  y : K
  deriving DecidableEq, Repr

/-- `cgmath::Vector3` / `Point3` -/
@[ext] structure V3 (K : Type) where
  x : K
  y : K
  z : K
  deriving DecidableEq, Repr

variable {K : Type}

namespace V2
instance [Add K] : Add (V2 K) := ⟨fun a b => ⟨a.x + b.x, a.y + b.y⟩⟩
instance [Sub K] : Sub (V2 K) := ⟨fun a b => ⟨a.x - b.x, a.y - b.y⟩⟩
instance [Neg K] : Neg (V2 K) := ⟨fun a => ⟨-a.x, -a.y⟩⟩
instance [Zero K] : Zero (V2 K) := ⟨⟨0, 0⟩⟩
instance [Mul K] : HMul (V2 K) K (V2 K) := ⟨fun a s => ⟨a.x * s, a.y * s⟩⟩
instance [Div K] : HDiv (V2 K) K (V2 K) := ⟨fun a s => ⟨a.x / s, a.y / s⟩⟩
/-- `InnerSpace::dot` -/
def dot [Add K] [Mul K] (a b : V2 K) : K := a.x * b.x + a.y * b.y
/-- `Vector2::perp_dot` -/
def perpDot [Sub K] [Mul K] (a b : V2 K) : K := a.x * b.y - a.y * b.x
/-- `ElementWise::mul_element_wise` -/
def mulE [Mul K] (a b : V2 K) : V2 K := ⟨a.x * b.x, a.y * b.y⟩
/-- `Array::from_value` -/
def fromValue (s : K) : V2 K := ⟨s, s⟩

@[simp] theorem add_x [Add K] (a b : V2 K) : (a + b).x = a.x + b.x := rfl
@[simp] theorem add_y [Add K] (a b : V2 K) : (a + b).y = a.y + b.y := rfl
@[simp] theorem sub_x [Sub K] (a b : V2 K) : (a - b).x = a.x - b.x := rfl
@[simp] theorem sub_y [Sub K] (a b : V2 K) : (a - b).y = a.y - b.y := rfl
@[simp] theorem neg_x [Neg K] (a : V2 K) : (-a).x = -a.x := rfl
@[simp] theorem neg_y [Neg K] (a : V2 K) : (-a).y = -a.y := rfl
@[simp] theorem zero_x [Zero K] : (0 : V2 K).x = 0 := rfl
@[simp] theorem zero_y [Zero K] : (0 : V2 K).y = 0 := rfl
@[simp] theorem mul_x [Mul K] (a : V2 K) (s : K) : (a * s).x = a.x * s := rfl
@[simp] theorem mul_y [Mul K] (a : V2 K) (s : K) : (a * s).y = a.y * s := rfl
@[simp] theorem div_x [Div K] (a : V2 K) (s : K) : (a / s).x = a.x / s := rfl
@[simp] theorem div_y [Div K] (a : V2 K) (s : K) : (a / s).y = a.y / s := rfl
end V2

namespace V3
instance [Add K] : Add (V3 K) := ⟨fun a b => ⟨a.x + b.x, a.y + b.y, a.z + b.z⟩⟩
instance [Sub K] : Sub (V3 K) := ⟨fun a b => ⟨a.x - b.x, a.y - b.y, a.z - b.z⟩⟩
instance [Neg K] : Neg (V3 K) := ⟨fun a => ⟨-a.x, -a.y, -a.z⟩⟩
instance [Zero K] : Zero (V3 K) := ⟨⟨0, 0, 0⟩⟩
instance [Mul K] : HMul (V3 K) K (V3 K) := ⟨fun a s => ⟨a.x * s, a.y * s, a.z * s⟩⟩
instance [Div K] : HDiv (V3 K) K (V3 K) := ⟨fun a s => ⟨a.x / s, a.y / s, a.z / s⟩⟩
/-- `InnerSpace::dot` -/
def dot [Add K] [Mul K] (a b : V3 K) : K := a.x * b.x + a.y * b.y + a.z * b.z
/-- `Vector3::cross` -/
def cross [Sub K] [Mul K] (a b : V3 K) : V3 K :=
  ⟨a.y * b.z - a.z * b.y, a.z * b.x - a.x * b.z, a.x * b.y - a.y * b.x⟩
/-- `ElementWise::mul_element_wise` -/
def mulE [Mul K] (a b : V3 K) : V3 K := ⟨a.x * b.x, a.y * b.y, a.z * b.z⟩
/-- `Array::from_value` -/
def fromValue (s : K) : V3 K := ⟨s, s, s⟩

@[simp] theorem add_x [Add K] (a b : V3 K) : (a + b).x = a.x + b.x := rfl
@[simp] theorem add_y [Add K] (a b : V3 K) : (a + b).y = a.y + b.y := rfl
@[simp] theorem add_z [Add K] (a b : V3 K) : (a + b).z = a.z + b.z := rfl
@[simp] theorem sub_x [Sub K] (a b : V3 K) : (a - b).x = a.x - b.x := rfl
@[simp] theorem sub_y [Sub K] (a b : V3 K) : (a - b).y = a.y - b.y := rfl
@[simp] theorem sub_z [Sub K] (a b : V3 K) : (a - b).z = a.z - b.z := rfl
@[simp] theorem neg_x [Neg K] (a : V3 K) : (-a).x = -a.x := rfl
@[simp] theorem neg_y [Neg K] (a : V3 K) : (-a).y = -a.y := rfl
@[simp] theorem neg_z [Neg K] (a : V3 K) : (-a).z = -a.z := rfl
@[simp] theorem zero_x [Zero K] : (0 : V3 K).x = 0 := rfl
@[simp] theorem zero_y [Zero K] : (0 : V3 K).y = 0 := rfl
@[simp] theorem zero_z [Zero K] : (0 : V3 K).z = 0 := rfl
@[simp] theorem mul_x [Mul K] (a : V3 K) (s : K) : (a * s).x = a.x * s := rfl
@[simp] theorem mul_y [Mul K] (a : V3 K) (s : K) : (a * s).y = a.y * s := rfl
@[simp] theorem mul_z [Mul K] (a : V3 K) (s : K) : (a * s).z = a.z * s := rfl
@[simp] theorem div_x [Div K] (a : V3 K) (s : K) : (a / s).x = a.x / s := rfl
@[simp] theorem div_y [Div K] (a : V3 K) (s : K) : (a / s).y = a.y / s := rfl
@[simp] theorem div_z [Div K] (a : V3 K) (s : K) : (a / s).z = a.z / s := rfl
end V3

/-- `Ray2`, `src/ray.rs:15-22, 67` -/
structure Ray2 (K : Type) where
  origin : V2 K
  direction : V2 K
  deriving DecidableEq

/-- `Ray3`, `src/ray.rs:15-22, 70` -/
structure Ray3 (K : Type) where
  origin : V3 K
  direction : V3 K
  deriving DecidableEq

/-- `Line2`, `src/line.rs:20-28, 54` -/
structure Line2 (K : Type) where
  origin : V2 K
  dest : V2 K
  deriving DecidableEq

/-- `Line3`, `src/line.rs:20-28, 57` -/
structure Line3 (K : Type) where
  origin : V3 K
  dest : V3 K
  deriving DecidableEq

/-- The point of the ray at parameter `t` (specification). -/
def Ray2.at [Add K] [Mul K] (r : Ray2 K) (t : K) : V2 K := r.origin + r.direction * t
/-- The point of the ray at parameter `t` (specification). -/
def Ray3.at [Add K] [Mul K] (r : Ray3 K) (t : K) : V3 K := r.origin + r.direction * t

end Verif.Geom
