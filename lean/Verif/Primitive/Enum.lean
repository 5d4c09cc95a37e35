import Verif.Primitive.Polygon
import Verif.Primitive.PolyhedronWalk
/-!
# The wrapper enums `Primitive2` and `Primitive3` (C67)
-/
namespace Verif.Primitive
open Verif Geom
set_option linter.unusedSectionVars false
noncomputable section

/-- `Primitive2`, `src/primitive/primitive2.rs:18-31` (a particle has no data) -/
inductive Prim2 where
  | particle
  | line (l : Line2 ℝ)
  | circle (s : Circle)
  | rectangle (s : Rectangle ℝ)
  | square (s : Square ℝ)
  | polygon (s : Polygon ℝ)

/-- `Primitive2::support_point`, `src/primitive/primitive2.rs:92-104` -/
def Prim2.supportPoint (s : Prim2) (T : Tr (V2 ℝ)) (d : V2 ℝ) : Res (V2 ℝ) :=
  match s with
  | .particle => .ok (T.point 0)
  | .line l => lineSupport l T d
  | .circle s => s.supportPoint T d
  | .rectangle s => s.supportPoint T d
  | .square s => s.supportPoint T d
  | .polygon s => s.supportPoint T d

/-- `Primitive2::compute_bound`, `src/primitive/primitive2.rs:73-82` -/
def Prim2.bound : Prim2 → Aabb2 ℝ
  | .particle => Aabb2.zero
  | .line l => lineBound l
  | .circle s => s.bound
  | .rectangle s => s.bound
  | .square s => s.bound
  | .polygon s => s.bound

/-- `Primitive3`, `src/primitive/primitive3.rs:20-40` -/
inductive Prim3 where
  | particle
  | quad (s : Quad ℝ)
  | sphere (s : Ball)
  | cuboid (s : Cuboid ℝ)
  | cube (s : Cube ℝ)
  | cylinder (s : Cylinder)
  | capsule (s : Capsule)
  | polyhedron (s : Polyhedron)

/-- `Primitive3::support_point`, `src/primitive/primitive3.rs:160-176`; `nz d` tells whether a zero `y` component of the local direction is `-0` -/
def Prim3.supportPoint (s : Prim3) (nz : V3 ℝ → Bool) (T : Tr (V3 ℝ)) (d : V3 ℝ) : Res (V3 ℝ) :=
  match s with
  | .particle => .ok (T.point 0)
  | .quad s => s.supportPoint T d
  | .sphere s => s.supportPoint T d
  | .cuboid s => s.supportPoint T d
  | .cube s => s.supportPoint T d
  | .cylinder s => s.supportPoint (nz d) T d
  | .capsule s => s.supportPoint (nz d) T d
  | .polyhedron s => s.supportPoint T d

/-- `Primitive3::compute_bound` to `Aabb3`, `src/primitive/primitive3.rs:115-126` -/
def Prim3.bound : Prim3 → Aabb3 ℝ
  | .particle => Aabb3.zero
  | .quad s => s.bound
  | .sphere s => s.bound
  | .cuboid s => s.bound
  | .cube s => s.bound
  | .cylinder s => s.bound
  | .capsule s => s.bound
  | .polyhedron s => s.bound

/-! ## Specification -/

/-- The points of a 2D primitive, in its own frame. -/
def Prim2.Points : Prim2 → V2 ℝ → Prop
  | .particle => fun p => p = 0
  | .line l => l.Mem
  | .circle s => InDisc s.radius
  | .rectangle s => InRect s.dim.x s.dim.y
  | .square s => InRect s.rectangle.dim.x s.rectangle.dim.y
  | .polygon s => Hull2 s.vertices

/-- Primitives as their constructors make them, with sides and radii not negative; polygons have between one and nine vertices (from ten on the
code uses a hill climb, see C50). -/
def Prim2.Ok : Prim2 → Prop
  | .particle => True
  | .line _ => True
  | .circle s => 0 ≤ s.radius
  | .rectangle s => ∃ w h, 0 ≤ w ∧ 0 ≤ h ∧ s = Rectangle.new w h
  | .square s => ∃ w, 0 ≤ w ∧ s = Square.new w
  | .polygon s => s.vertices ≠ [] ∧ s.vertices.length < 10

/-- The points of a 3D primitive, in its own frame. -/
def Prim3.Points : Prim3 → V3 ℝ → Prop
  | .particle => fun p => p = 0
  | .quad s => InQuad s.dim.x s.dim.y
  | .sphere s => InBall s.radius
  | .cuboid s => InBox s.dim.x s.dim.y s.dim.z
  | .cube s => InBox s.cuboid.dim.x s.cuboid.dim.y s.cuboid.dim.z
  | .cylinder s => InCylinder s.halfHeight s.radius
  | .capsule s => InCapsule s.halfHeight s.radius
  | .polyhedron s => Hull3 s.positions

/-- Primitives as their constructors make them, with sides, heights and radii not negative; a polyhedron with faces is a convex solid. -/
def Prim3.Ok : Prim3 → Prop
  | .particle => True
  | .quad s => ∃ w h, 0 ≤ w ∧ 0 ≤ h ∧ s = Quad.new w h
  | .sphere s => 0 ≤ s.radius
  | .cuboid s => ∃ w h l, 0 ≤ w ∧ 0 ≤ h ∧ 0 ≤ l ∧ s = Cuboid.new w h l
  | .cube s => ∃ w, 0 ≤ w ∧ s = Cube.new w
  | .cylinder s => 0 ≤ s.halfHeight ∧ 0 ≤ s.radius
  | .capsule s => 0 ≤ s.halfHeight ∧ 0 ≤ s.radius
  | .polyhedron s => (∃ vs, vs ≠ [] ∧ s = Polyhedron.new vs) ∨ ∃ vs fs, ConvexSolid vs fs ∧ Polyhedron.newWithFaces vs fs = .ok s

/-! ## The properties -/

/-- C67 (2D). Through the wrapper every primitive has a support point farthest in the direction (not zero), for every rotation, translation
and non-zero scale. -/
theorem c67_support2 (s : Prim2) (hs : s.Ok) (D : Dec2 ℝ) (ho : D.rot.Orthogonal) (hsc : D.scale ≠ 0) (d : V2 ℝ) (hd : d ≠ 0) :
    ∃ p, s.supportPoint D.tr d = .ok p ∧ Extreme2 (Image D.tr s.Points) d p := by
  have hT := D.similar hsc
  cases s with
  | particle =>
    refine ⟨_, rfl, ⟨0, rfl, rfl⟩, ?_⟩
    rintro q ⟨p, rfl, rfl⟩
    exact le_rfl
  | line l => exact c46_line l hT d
  | circle s => exact c46_circle s hs D ho hsc d hd
  | rectangle s =>
    obtain ⟨w, h, hw, hh, rfl⟩ := hs
    exact (c46_rectangle w h hw hh hT d).1
  | square s =>
    obtain ⟨w, hw, rfl⟩ := hs
    exact (c46_rectangle w w hw hw hT d).2
  | polygon s => exact c46_small_polygon s.vertices hs.1 hs.2 hT d

/-- In direction zero a 2D primitive answers with some point of the shape, if it answers (circles do not: NaN). -/
theorem prim2_zero (s : Prim2) (hs : s.Ok) (D : Dec2 ℝ) (hsc : D.scale ≠ 0) {p : V2 ℝ} (h : s.supportPoint D.tr 0 = .ok p) : Image D.tr s.Points p := by
  have hT := D.similar hsc
  have key : (∃ p, s.supportPoint D.tr 0 = .ok p ∧ Extreme2 (Image D.tr s.Points) 0 p) → Image D.tr s.Points p := by
    rintro ⟨q, hq, hx⟩
    rw [h] at hq
    cases hq
    exact hx.1
  cases s with
  | particle => cases h; exact ⟨0, rfl, rfl⟩
  | line l => exact key (c46_line l hT 0)
  | circle s =>
    have h : supportRound _ D.tr 0 = .ok p := h
    have hz : D.tr.invVector 0 = some 0 := by simp [Dec2.tr, hsc, M2.apply, M2.transpose, V2.ext_iff]
    unfold supportRound at h
    rw [hz] at h
    simp [nanPoint] at h
  | rectangle s =>
    obtain ⟨w, g, hw, hh, rfl⟩ := hs
    exact key (c46_rectangle w g hw hh hT 0).1
  | square s =>
    obtain ⟨w, hw, rfl⟩ := hs
    exact key (c46_rectangle w w hw hw hT 0).2
  | polygon s => exact key (c46_small_polygon s.vertices hs.1 hs.2 hT 0)

/-- C67 (3D). -/
theorem c67_support3 (s : Prim3) (hs : s.Ok) (nz : V3 ℝ → Bool) (D : Dec3 ℝ) (ho : D.rot.Orthogonal) (hsc : D.scale ≠ 0) (d : V3 ℝ) (hd : d ≠ 0) :
    ∃ p, s.supportPoint nz D.tr d = .ok p ∧ Extreme3 (Image D.tr s.Points) d p := by
  have hT := D.similar hsc
  cases s with
  | particle =>
    refine ⟨_, rfl, ⟨0, rfl, rfl⟩, ?_⟩
    rintro q ⟨p, rfl, rfl⟩
    exact le_rfl
  | quad s =>
    obtain ⟨w, h, hw, hh, rfl⟩ := hs
    exact c46_quad w h hw hh hT d
  | sphere s => exact c46_sphere s hs D ho hsc d hd
  | cuboid s =>
    obtain ⟨w, h, l, hw, hh, hl, rfl⟩ := hs
    exact (c46_cuboid w h l hw hh hl hT d).1
  | cube s =>
    obtain ⟨w, hw, rfl⟩ := hs
    exact (c46_cuboid w w w hw hw hw hT d).2
  | cylinder s => exact c46_cylinder s hs.1 hs.2 (nz d) hT d
  | capsule s => exact c46_capsule s hs.1 hs.2 (nz d) D ho hsc d hd
  | polyhedron s =>
    rcases hs with ⟨vs, hv, rfl⟩ | ⟨vs, fs, hc, he⟩
    · exact c46_polyhedron vs hv hT d
    · obtain ⟨P, p1, p2⟩ := c62_hill_climb hc hT d
      rw [he] at p1
      cases p1
      obtain ⟨P, p1, -, p3, -⟩ := newWithFaces_ok hc.tri hc.oriented hc.normals
      rw [he] at p1
      cases p1
      show ∃ p, s.supportPoint D.tr d = .ok p ∧ Extreme3 (Image D.tr (Hull3 s.positions)) d p
      rw [p3]
      exact p2

/-- In direction zero a 3D primitive answers with some point of the shape, if it answers (spheres and capsules do not: NaN). -/
theorem prim3_zero (s : Prim3) (hs : s.Ok) (nz : V3 ℝ → Bool) (D : Dec3 ℝ) (hsc : D.scale ≠ 0) {p : V3 ℝ} (h : s.supportPoint nz D.tr 0 = .ok p) : Image D.tr s.Points p := by
  have hT := D.similar hsc
  have key : (∃ p, s.supportPoint nz D.tr 0 = .ok p ∧ Extreme3 (Image D.tr s.Points) 0 p) → Image D.tr s.Points p := by
    rintro ⟨q, hq, hx⟩
    rw [h] at hq
    cases hq
    exact hx.1
  have nan : ∀ loc : V3 ℝ → V3 ℝ, supportRound loc D.tr 0 ≠ .ok p := by
    intro loc h
    have hz : D.tr.invVector 0 = some 0 := by simp [Dec3.tr, hsc, M3.apply, M3.transpose, V3.ext_iff]
    unfold supportRound at h
    rw [hz] at h
    simp [nanPoint] at h
  cases s with
  | particle => cases h; exact ⟨0, rfl, rfl⟩
  | quad s =>
    obtain ⟨w, g, hw, hh, rfl⟩ := hs
    exact key (c46_quad w g hw hh hT 0)
  | sphere s => exact absurd h (nan _)
  | cuboid s =>
    obtain ⟨w, g, l, hw, hh, hl, rfl⟩ := hs
    exact key (c46_cuboid w g l hw hh hl hT 0).1
  | cube s =>
    obtain ⟨w, hw, rfl⟩ := hs
    exact key (c46_cuboid w w w hw hw hw hT 0).2
  | cylinder s => exact key (c46_cylinder s hs.1 hs.2 (nz 0) hT 0)
  | capsule s => exact absurd h (nan _)
  | polyhedron s =>
    apply key
    rcases hs with ⟨vs, hv, rfl⟩ | ⟨vs, fs, hc, he⟩
    · exact c46_polyhedron vs hv hT 0
    · obtain ⟨P, p1, p2⟩ := c62_hill_climb hc hT 0
      rw [he] at p1
      cases p1
      obtain ⟨P, p1, -, p3, -⟩ := newWithFaces_ok hc.tri hc.oriented hc.normals
      rw [he] at p1
      cases p1
      show ∃ p, s.supportPoint D.tr 0 = .ok p ∧ Extreme3 (Image D.tr (Hull3 s.positions)) 0 p
      rw [p3]
      exact p2

/-- C67 (2D): the box encloses the shape. -/
theorem c67_bound2 (s : Prim2) (hs : s.Ok) (p : V2 ℝ) (hp : s.Points p) : s.bound.Mem p := by
  cases s with
  | particle =>
    have hp : p = 0 := hp
    subst hp
    simp [Prim2.bound, Aabb2.zero, Aabb2.new, Aabb2.Mem, pmin, pmax]
  | line l => exact (c47_polytopes (0 : ℝ) 0 0).2.2.2.2.2 l p hp
  | circle s => exact c47_round.1 s p hp
  | rectangle s =>
    obtain ⟨w, h, hw, hh, rfl⟩ := hs
    exact (c47_polytopes w h 0).1 p hp
  | square s =>
    obtain ⟨w, hw, rfl⟩ := hs
    exact (c47_polytopes w 0 0).2.1 p hp
  | polygon s => exact c47_vertices2 _ hp

/-- C67 (3D): the box encloses the shape. -/
theorem c67_bound3 (s : Prim3) (hs : s.Ok) (p : V3 ℝ) (hp : s.Points p) : s.bound.Mem p := by
  cases s with
  | particle =>
    have hp : p = 0 := hp
    subst hp
    simp [Prim3.bound, Aabb3.zero, Aabb3.new, Aabb3.Mem, pmin, pmax]
  | quad s =>
    obtain ⟨w, h, hw, hh, rfl⟩ := hs
    exact (c47_polytopes w h 0).2.2.2.2.1 p hp
  | sphere s => exact c47_round.2.1 s p hp
  | cuboid s =>
    obtain ⟨w, h, l, hw, hh, hl, rfl⟩ := hs
    exact (c47_polytopes w h l).2.2.1 p hp
  | cube s =>
    obtain ⟨w, hw, rfl⟩ := hs
    exact (c47_polytopes w 0 0).2.2.2.1 p hp
  | cylinder s => exact c47_round.2.2.2 s p hs.2 hp
  | capsule s => exact c47_round.2.2.1 s p hp
  | polyhedron s =>
    rcases hs with ⟨vs, hv, rfl⟩ | ⟨vs, fs, hc, he⟩
    · exact c47_vertices3 vs hp
    · obtain ⟨P, p1, -, p3, -, -, -, p4⟩ := newWithFaces_ok hc.tri hc.oriented hc.normals
      rw [he] at p1
      cases p1
      show s.bound.Mem p
      rw [p4]
      have hp : Hull3 s.positions p := hp
      rw [p3] at hp
      exact c47_vertices3 vs hp

/-! ## Convexity -/

theorem convex_norm2 (p q : V2 ℝ) {t r : ℝ} (h0 : 0 ≤ t) (h1 : t ≤ 1) (hp : p.norm ≤ r) (hq : q.norm ≤ r) : (p + (q - p) * t).norm ≤ r := by
  have hr := le_trans (V2.norm_nonneg p) hp
  have hp := (V2.norm_le_iff p hr).1 hp
  have hq := (V2.norm_le_iff q hr).1 hq
  rw [V2.norm_le_iff _ hr]
  simp only [V2.dot, V2.add_x, V2.add_y, V2.sub_x, V2.sub_y, V2.mul_x, V2.mul_y] at hp hq ⊢
  nlinarith [mul_nonneg h0 (sub_nonneg.2 h1), mul_nonneg (mul_nonneg h0 (sub_nonneg.2 h1)) (add_nonneg (mul_self_nonneg (p.x - q.x)) (mul_self_nonneg (p.y - q.y))),
    mul_nonneg h0 (sub_nonneg.2 hq), mul_nonneg (sub_nonneg.2 h1) (sub_nonneg.2 hp)]
theorem convex_norm3 (p q : V3 ℝ) {t r : ℝ} (h0 : 0 ≤ t) (h1 : t ≤ 1) (hp : p.norm ≤ r) (hq : q.norm ≤ r) : (p + (q - p) * t).norm ≤ r := by
  have hr := le_trans (V3.norm_nonneg p) hp
  have hp := (V3.norm_le_iff p hr).1 hp
  have hq := (V3.norm_le_iff q hr).1 hq
  rw [V3.norm_le_iff _ hr]
  simp only [V3.dot, V3.add_x, V3.add_y, V3.sub_x, V3.sub_y, V3.mul_x, V3.mul_y, V3.add_z, V3.sub_z, V3.mul_z] at hp hq ⊢
  nlinarith [mul_nonneg h0 (sub_nonneg.2 h1), mul_nonneg (mul_nonneg h0 (sub_nonneg.2 h1)) (add_nonneg (add_nonneg (mul_self_nonneg (p.x - q.x)) (mul_self_nonneg (p.y - q.y)))
    (mul_self_nonneg (p.z - q.z))), mul_nonneg h0 (sub_nonneg.2 hq), mul_nonneg (sub_nonneg.2 h1) (sub_nonneg.2 hp)]
end
end Verif.Primitive
