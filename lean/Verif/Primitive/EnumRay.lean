import Verif.Primitive.Particle
import Verif.Primitive.RoundRay
import Verif.Primitive.PolyhedronC63
/-!
# Ray tests of the wrapper enums `Primitive2` and `Primitive3`, with a placement: `src/primitive/primitive2.rs:106-155`,
`src/primitive/primitive3.rs:178-230`; C75
-/
namespace Verif.Primitive
open Verif Geom
set_option linter.unusedSectionVars false
noncomputable section

/-- The point of a box test as a point with finite coordinates, if it is one.  For the rays of C75 it always is (C61); an infinite or NaN point is
dropped here. -/
def finite2 (q : V2 (Ext ℝ)) : Option (V2 ℝ) :=
  match q with
  | ⟨.fin x, .fin y⟩ => some ⟨x, y⟩
  | _ => none
/-- 3D, see `finite2` -/
def finite3 (q : V3 (Ext ℝ)) : Option (V3 ℝ) :=
  match q with
  | ⟨.fin x, .fin y, .fin z⟩ => some ⟨x, y, z⟩
  | _ => none

/-- `intersects(Ray2)` of the variant at hand, dispatched in `src/primitive/primitive2.rs:117-131` -/
def Prim2.localHit (s : Prim2) (r : Ray2 ℝ) : Res Bool :=
  match s with
  | .particle => .ok (particleHitByRay2 r)
  | .line l => .ok (l.intersectsRay r)
  | .circle s => .ok (s.intersectsRay r)
  | .rectangle s => .ok (s.intersectsRay r)
  | .square s => .ok (s.intersectsRay r)
  | .polygon s => s.intersectsRay r
/-- `intersection(Ray2)` of the variant at hand, dispatched in `src/primitive/primitive2.rs:142-155` -/
def Prim2.localRay (s : Prim2) (r : Ray2 ℝ) : Res (Option (V2 ℝ)) :=
  match s with
  | .particle => .ok (particleRay2 r)
  | .line l => .ok (l.intersectionRay r)
  | .circle s => .ok (s.intersectionRay r)
  | .rectangle s => .ok ((s.intersectionRay r).bind finite2)
  | .square s => .ok ((s.intersectionRay r).bind finite2)
  | .polygon s => s.intersectionRay r

/-- `Primitive2::intersects_transformed`, `src/primitive/primitive2.rs:112-132` with the shared body `src/ray.rs:115-120` -/
def Prim2.intersectsTransformed (s : Prim2) (r : Ray2 ℝ) (T : Tr (V2 ℝ)) : Res Bool := do
  let i ← Res.ofOption T.inv
  s.localHit (r.transform i.1 i.2)
/-- `Primitive2::intersection_transformed`, `src/primitive/primitive2.rs:138-156` with the shared body `src/ray.rs:132-142` -/
def Prim2.intersectionTransformed (s : Prim2) (r : Ray2 ℝ) (T : Tr (V2 ℝ)) : Res (Option (V2 ℝ)) := do
  let i ← Res.ofOption T.inv
  let o ← s.localRay (r.transform i.1 i.2)
  return o.map T.point

/-- `intersects(Ray3)` of the variant at hand, dispatched in `src/primitive/primitive3.rs:189-200`; `nz`: sign bits of zero components of the local direction -/
def Prim3.localHit (s : Prim3) (nz : V3 Bool) (r : Ray3 ℝ) : Res Bool :=
  match s with
  | .particle => .ok (particleHitByRay3 r)
  | .quad s => .ok (s.intersectsRay nz r)
  | .sphere s => .ok (s.intersectsRay r)
  | .cuboid s => .ok (s.intersectsRay nz r)
  | .cube s => .ok (s.intersectsRay nz r)
  | .cylinder s => .ok (s.intersectsRay r)
  | .capsule s => .ok (s.intersectsRay r)
  | .polyhedron s => s.intersectsRay r
/-- `intersection(Ray3)` of the variant at hand, dispatched in `src/primitive/primitive3.rs:215-226` -/
def Prim3.localRay (s : Prim3) (nz : V3 Bool) (r : Ray3 ℝ) : Res (Option (V3 ℝ)) :=
  match s with
  | .particle => .ok (particleRay3 r)
  | .quad s => .ok ((s.intersectionRay nz r).bind finite3)
  | .sphere s => .ok (s.intersectionRay r)
  | .cuboid s => .ok ((s.intersectionRay nz r).bind finite3)
  | .cube s => .ok ((s.intersectionRay nz r).bind finite3)
  | .cylinder s => .ok (s.intersectionRay r)
  | .capsule s => .ok (s.intersectionRay r)
  | .polyhedron s => s.intersectionRay r

/-- `Primitive3::intersects_transformed`, `src/primitive/primitive3.rs:184-201` with the shared body `src/ray.rs:115-120` -/
def Prim3.intersectsTransformed (s : Prim3) (nz : V3 Bool) (r : Ray3 ℝ) (T : Tr (V3 ℝ)) : Res Bool := do
  let i ← Res.ofOption T.inv
  s.localHit nz (r.transform i.1 i.2)
/-- `Primitive3::intersection_transformed`, `src/primitive/primitive3.rs:210-227` with the shared body `src/ray.rs:132-142` -/
def Prim3.intersectionTransformed (s : Prim3) (nz : V3 Bool) (r : Ray3 ℝ) (T : Tr (V3 ℝ)) : Res (Option (V3 ℝ)) := do
  let i ← Res.ofOption T.inv
  let o ← s.localRay nz (r.transform i.1 i.2)
  return o.map T.point

/-! ## Specification -/

/-- Primitives as their constructors make them; polygons are convex and counter-clockwise. -/
def Prim2.RayOk : Prim2 → Prop
  | .polygon s => ConvexCcw s.vertices
  | .particle => True
  | .line _ => True
  | .circle s => 0 ≤ s.radius
  | .rectangle s => ∃ w h, 0 ≤ w ∧ 0 ≤ h ∧ s = Rectangle.new w h
  | .square s => ∃ w, 0 ≤ w ∧ s = Square.new w
/-- The points that a ray must not miss: all, but for the outline of boxes (see C30) and for polygons, which have an edge that is not tested (C49). -/
def Prim2.Seen : Prim2 → V2 ℝ → Prop
  | .rectangle s => InsideRect s.dim.x s.dim.y
  | .square s => InsideRect s.rectangle.dim.x s.rectangle.dim.y
  | .polygon _ => fun _ => False
  | s => s.Points

/-- Primitives as their constructors make them, of positive size; not cylinders and capsules, whose continuous tests are wrong (C72, C74); polyhedra with faces. -/
def Prim3.RayOk : Prim3 → Prop
  | .particle => True
  | .quad s => ∃ w h, 0 < w ∧ 0 < h ∧ s = Quad.new w h
  | .sphere s => 0 ≤ s.radius
  | .cuboid s => ∃ w h l, 0 < w ∧ 0 < h ∧ 0 < l ∧ s = Cuboid.new w h l
  | .cube s => ∃ w, 0 < w ∧ s = Cube.new w
  | .cylinder _ => False
  | .capsule _ => False
  | .polyhedron s => ∃ vs fs, ConvexSolid vs fs ∧ Polyhedron.newWithFaces vs fs = .ok s
/-- The points that a ray must not miss: all, but for the outline of boxes (see C31). -/
def Prim3.Seen : Prim3 → V3 ℝ → Prop
  | .quad s => InsideQuad s.dim.x s.dim.y
  | .cuboid s => InsideBox s.dim.x s.dim.y s.dim.z
  | .cube s => InsideBox s.cuboid.dim.x s.cuboid.dim.y s.cuboid.dim.z
  | s => s.Points

/-! ## Local frame -/

theorem finite2_ext (p : V2 ℝ) : finite2 p.toExt = some p := rfl
theorem finite3_ext (p : V3 ℝ) : finite3 p.toExt = some p := rfl

/-- What a pair of tests has to satisfy on a ray. -/
def Good2 (S Seen : V2 ℝ → Prop) (r : Ray2 ℝ) (b : Bool) (o : Option (V2 ℝ)) : Prop :=
  b = o.isSome ∧ (∀ q, o = some q → ∃ t, r.First S t ∧ q = r.at t) ∧ ((∃ t, 0 ≤ t ∧ Seen (r.at t)) → o.isSome)
/-- 3D, see `Good2`. -/
def Good3 (S Seen : V3 ℝ → Prop) (r : Ray3 ℝ) (b : Bool) (o : Option (V3 ℝ)) : Prop :=
  b = o.isSome ∧ (∀ q, o = some q → ∃ t, r.First S t ∧ q = r.at t) ∧ ((∃ t, 0 ≤ t ∧ Seen (r.at t)) → o.isSome)

theorem rect_good (w h : ℝ) (hw : 0 ≤ w) (hh : 0 ≤ h) (r : Ray2 ℝ) (hd : r.direction ≠ 0) (hout : ¬ InRect w h r.origin) :
    Good2 (InRect w h) (InsideRect w h) r ((Rectangle.new w h).intersectsRay r) (((Rectangle.new w h).intersectionRay r).bind finite2) := by
  obtain ⟨h1, h2, h3⟩ := c61_rectangle w h hw hh r hd
  rw [h1] at h3
  rw [h1]
  cases e : (Rectangle.new w h).intersectionRay r with
  | none =>
    rw [e] at h3
    exact ⟨rfl, fun q hq => (by cases hq), fun hx => absurd (h3 hx) (by simp)⟩
  | some q =>
    obtain ⟨t, t0, rfl, hm, hf⟩ := h2 q e
    refine ⟨rfl, fun q hq => ?_, fun _ => rfl⟩
    have : q = r.at t := by
      rw [Option.bind_some, finite2_ext] at hq
      injection hq with hq; exact hq.symm
    exact ⟨t, ⟨t0, hm, hf hout⟩, this⟩

theorem prim2_local (s : Prim2) (hs : s.RayOk) (r : Ray2 ℝ) (hd : r.direction.norm = 1) (hout : ¬ s.Points r.origin) :
    ∃ b o, s.localHit r = .ok b ∧ s.localRay r = .ok o ∧ Good2 s.Points s.Seen r b o := by
  have hd1 : r.direction.dot r.direction = 1 := by rw [← V2.norm_sq, hd]; norm_num
  have hd0 : r.direction ≠ 0 := by intro h; rw [h] at hd1; simp [V2.dot] at hd1
  have h0 : r.origin = r.at 0 := by simp [Ray2.at, V2.ext_iff]
  cases s with
  | particle =>
    refine ⟨_, _, rfl, rfl, ?_⟩
    obtain ⟨h1, h2⟩ := c57_particle_ray2 r hd1
    have hout' : r.origin ≠ 0 := hout
    rw [h2]
    by_cases hp : particleHitByRay2 r = true
    · rw [if_pos hp, hp]
      refine ⟨rfl, fun q hq => ?_, fun _ => rfl⟩
      injection hq with hq
      obtain ⟨t, t0, ht⟩ := h1.1 hp
      refine ⟨t, ⟨t0.le, ht.symm, fun u hu hx => ?_⟩, by rw [← hq]; exact ht⟩
      have hx' : r.at u = 0 := hx
      have : r.direction * (u - t) = 0 := by
        have := hx'.trans ht
        simp only [Ray2.at, V2.ext_iff, V2.add_x, V2.add_y, V2.mul_x, V2.mul_y, V2.zero_x, V2.zero_y] at this ⊢
        constructor <;> linarith [this.1, this.2]
      have hz : u - t = 0 := by
        by_contra hne
        apply hd0
        simp only [V2.ext_iff, V2.mul_x, V2.mul_y, V2.zero_x, V2.zero_y, mul_eq_zero] at this ⊢
        exact ⟨this.1.resolve_right hne, this.2.resolve_right hne⟩
      linarith
    · rw [if_neg hp]
      refine ⟨by simpa using hp, fun q hq => (by cases hq), ?_⟩
      rintro ⟨t, t0, ht⟩
      have ht' : r.at t = 0 := ht
      exfalso
      apply hp
      rw [h1]
      refine ⟨t, lt_of_le_of_ne t0 ?_, ht'.symm⟩
      rintro rfl
      exact hout' (h0.trans ht')
  | line l =>
    refine ⟨_, _, rfl, rfl, c32_segment r l, (segment_exact l r hd0).2, fun hx => ?_⟩
    rw [Option.isSome_iff_ne_none]
    intro hn
    exact (segment_exact l r hd0).1.1 hn hx
  | circle s =>
    obtain ⟨h1, h2, h3⟩ := c37_circle_partial s hs r hd hout
    refine ⟨_, _, rfl, rfl, h3, fun q hq => ?_, fun hx => ?_⟩
    · obtain ⟨t, t0, rfl, hn, hf⟩ := h2 q hq
      exact ⟨t, ⟨t0, hn.le, hf⟩, rfl⟩
    · rw [Option.isSome_iff_ne_none]
      intro hn
      exact h1.1 hn hx
  | rectangle s =>
    obtain ⟨w, h, hw, hh, rfl⟩ := hs
    exact ⟨_, _, rfl, rfl, rect_good w h hw hh r hd0 hout⟩
  | square s =>
    obtain ⟨w, hw, rfl⟩ := hs
    exact ⟨_, _, rfl, rfl, rect_good w w hw hw r hd0 hout⟩
  | polygon s =>
    obtain ⟨o, h1, h2, h3, h4⟩ := c49_ray_polygon_partial s.vertices hs r hd0
    refine ⟨_, _, h2, h1, rfl, fun q hq => ?_, fun hx => ?_⟩
    · obtain ⟨t, ht, hf⟩ := h3 q hq
      exact ⟨t, hf, ht⟩
    · obtain ⟨t, _, hf⟩ := hx
      exact absurd hf id

theorem box_good {S Seen : V3 ℝ → Prop} {r : Ray3 ℝ} {b : Bool} {o : Option (V3 (Ext ℝ))} (h1 : b = o.isSome)
    (h2 : ∀ q, o = some q → ∃ t, 0 ≤ t ∧ q = (r.at t).toExt ∧ S (r.at t) ∧ ∀ u, 0 ≤ u → S (r.at u) → t ≤ u)
    (h3 : (∃ t, 0 ≤ t ∧ Seen (r.at t)) → b = true) : Good3 S Seen r b (o.bind finite3) := by
  rw [h1] at h3
  rw [h1]
  cases e : o with
  | none =>
    rw [e] at h3
    exact ⟨rfl, fun q hq => (by cases hq), fun hx => absurd (h3 hx) (by simp)⟩
  | some q =>
    obtain ⟨t, t0, rfl, hm, hf⟩ := h2 q e
    refine ⟨rfl, fun q hq => ?_, fun _ => rfl⟩
    have : q = r.at t := by
      rw [Option.bind_some, finite3_ext] at hq
      injection hq with hq; exact hq.symm
    exact ⟨t, ⟨t0, hm, hf⟩, this⟩

theorem prim3_local (s : Prim3) (hs : s.RayOk) (nz : V3 Bool) (r : Ray3 ℝ) (hd : r.direction.norm = 1) (hout : ¬ s.Points r.origin) :
    ∃ b o, s.localHit nz r = .ok b ∧ s.localRay nz r = .ok o ∧ Good3 s.Points s.Seen r b o := by
  have hd1 : r.direction.dot r.direction = 1 := by rw [← V3.norm_sq, hd]; norm_num
  have hd0 : r.direction ≠ 0 := by intro h; rw [h] at hd1; simp [V3.dot] at hd1
  have h0 : r.origin = r.at 0 := by simp [Ray3.at, V3.ext_iff]
  cases s with
  | particle =>
    refine ⟨_, _, rfl, rfl, ?_⟩
    obtain ⟨h1, h2⟩ := c57_particle_ray3 r hd1
    have hout' : r.origin ≠ 0 := hout
    rw [h2]
    by_cases hp : particleHitByRay3 r = true
    · rw [if_pos hp, hp]
      refine ⟨rfl, fun q hq => ?_, fun _ => rfl⟩
      injection hq with hq
      obtain ⟨t, t0, ht⟩ := h1.1 hp
      refine ⟨t, ⟨t0.le, ht.symm, fun u hu hx => ?_⟩, by rw [← hq]; exact ht⟩
      have hx' : r.at u = 0 := hx
      have : r.direction * (u - t) = 0 := by
        have := hx'.trans ht
        simp only [Ray3.at, V3.ext_iff, V3.add_x, V3.add_y, V3.add_z, V3.mul_x, V3.mul_y, V3.mul_z, V3.zero_x, V3.zero_y, V3.zero_z] at this ⊢
        refine ⟨?_, ?_, ?_⟩ <;> linarith [this.1, this.2.1, this.2.2]
      have hz : u - t = 0 := by
        by_contra hne
        apply hd0
        simp only [V3.ext_iff, V3.mul_x, V3.mul_y, V3.mul_z, V3.zero_x, V3.zero_y, V3.zero_z, mul_eq_zero] at this ⊢
        exact ⟨this.1.resolve_right hne, this.2.1.resolve_right hne, this.2.2.resolve_right hne⟩
      linarith
    · rw [if_neg hp]
      refine ⟨by simpa using hp, fun q hq => (by cases hq), ?_⟩
      rintro ⟨t, t0, ht⟩
      have ht' : r.at t = 0 := ht
      exfalso
      apply hp
      rw [h1]
      refine ⟨t, lt_of_le_of_ne t0 ?_, ht'.symm⟩
      rintro rfl
      exact hout' (h0.trans ht')
  | quad s =>
    obtain ⟨w, h, hw, hh, rfl⟩ := hs
    obtain ⟨h1, h2, h3⟩ := c61_quad nz w h hw hh r hd0
    refine ⟨_, _, rfl, rfl, box_good h1 (fun q hq => ?_) h3⟩
    obtain ⟨t, t0, e, hm, hf⟩ := h2 q hq
    exact ⟨t, t0, e, hm, hf hout⟩
  | sphere s =>
    obtain ⟨h1, h2, h3⟩ := c37_ball_partial s hs r hd hout
    refine ⟨_, _, rfl, rfl, h3, fun q hq => ?_, fun hx => ?_⟩
    · obtain ⟨t, t0, rfl, hn, hf⟩ := h2 q hq
      exact ⟨t, ⟨t0, hn.le, hf⟩, rfl⟩
    · rw [Option.isSome_iff_ne_none]
      intro hn
      exact h1.1 hn hx
  | cuboid s =>
    obtain ⟨w, h, l, hw, hh, hl, rfl⟩ := hs
    obtain ⟨h1, h2, h3⟩ := c61_cuboid nz w h l hw hh hl r hd0
    refine ⟨_, _, rfl, rfl, box_good h1 (fun q hq => ?_) h3⟩
    obtain ⟨t, t0, e, hm, hf⟩ := h2 q hq
    exact ⟨t, t0, e, hm, hf hout⟩
  | cube s =>
    obtain ⟨w, hw, rfl⟩ := hs
    obtain ⟨h1, h2, h3⟩ := c61_cube nz w hw r hd0
    refine ⟨_, _, rfl, rfl, box_good h1 (fun q hq => ?_) h3⟩
    obtain ⟨t, t0, e, hm, hf⟩ := h2 q hq
    exact ⟨t, t0, e, hm, hf hout⟩
  | cylinder s => exact absurd hs id
  | capsule s => exact absurd hs id
  | polyhedron s =>
    obtain ⟨vs, fs, hc, he⟩ := hs
    obtain ⟨P, p1, -, p3, -⟩ := newWithFaces_ok hc.tri hc.oriented hc.normals
    rw [he] at p1
    cases p1
    obtain ⟨Q, q1, q2⟩ := c63_ray hc
    rw [he] at q1
    cases q1
    obtain ⟨o, h1, h2, h3, h4⟩ := q2 r
    have hP : ∀ p, (Prim3.polyhedron s).Points p ↔ Hull3 vs p := fun p => by show Hull3 s.positions p ↔ _; rw [p3]
    refine ⟨_, _, h2, h1, rfl, fun q hq => ?_, fun hx => ?_⟩
    · obtain ⟨t, e, f1, f2, f3⟩ := h3 q hq
      exact ⟨t, ⟨f1, (hP _).2 f2, fun u hu hx => f3 u hu ((hP _).1 hx)⟩, e⟩
    · obtain ⟨t, t0, ht⟩ := hx
      exact h4 (fun hh => hout ((hP _).2 hh)) ⟨t, t0, (hP _).1 ht⟩

/-! ## The properties -/

theorem Dec2.iso_length (D : Dec2 ℝ) (ho : D.rot.Orthogonal) (hs : D.scale = 1) (v : V2 ℝ) :
    (D.rot.transpose.apply (v * (1 / D.scale))).norm = v.norm := by
  have e := M2.right_inv ho v
  rw [hs]
  have : (D.rot.transpose.apply (v * (1 / 1 : ℝ))).dot (D.rot.transpose.apply (v * (1 / 1 : ℝ))) = v.dot v := by
    have hv : v * (1 / 1 : ℝ) = v := by ext <;> simp
    rw [hv]
    have : ∀ w : V2 ℝ, (D.rot.transpose.apply v).dot w = v.dot (D.rot.apply w) := by
      intro w; simp only [M2.apply, M2.transpose, V2.dot, V2.add_x, V2.add_y, V2.mul_x, V2.mul_y]; ring
    rw [this, e]
  rw [V2.norm, V2.norm, this]

/-- **C75 (2D).** Through the wrapper, for every 2D primitive in every rigid placement and every ray of unit direction that starts outside: neither
test panics, they agree, the point returned is the first point of the placed primitive on the ray, and no point of `Seen` is missed. -/
theorem c75_primitive2 (s : Prim2) (hs : s.RayOk) (D : Dec2 ℝ) (ho : D.rot.Orthogonal) (h1 : D.scale = 1) (r : Ray2 ℝ) (hd : r.direction.norm = 1)
    (hout : ¬ Image D.tr s.Points r.origin) :
    ∃ o, s.intersectionTransformed r D.tr = .ok o ∧ s.intersectsTransformed r D.tr = .ok o.isSome ∧
      (∀ q, o = some q → ∃ t, r.First (Image D.tr s.Points) t ∧ q = r.at t) ∧ ((∃ t, 0 ≤ t ∧ Image D.tr s.Seen (r.at t)) → o.isSome) := by
  obtain ⟨ip, iv, hi⟩ := D.invertible ho (by rw [h1]; norm_num)
  have hlen : (iv r.direction).norm = 1 := by
    have h2 := hi.inv_eq
    simp only [Dec2.tr, h1, one_ne_zero, if_false, Option.some.injEq, Prod.mk.injEq] at h2
    have h3 := Dec2.iso_length D ho h1 r.direction
    rw [h1, hd] at h3
    rw [← h2.2]; exact h3
  have ho' : ¬ s.Points (r.transform ip iv).origin := fun hm => hout ⟨_, hm, (hi.right _).symm⟩
  obtain ⟨b, o, e1, e2, g1, g2, g3⟩ := prim2_local s hs (r.transform ip iv) hlen ho'
  refine ⟨o.map D.tr.point, ?_, ?_, ?_, ?_⟩
  · simp only [Prim2.intersectionTransformed, hi.inv_eq, Res.ofOption_some, Res.bind_ok, e2]; rfl
  · simp only [Prim2.intersectsTransformed, hi.inv_eq, Res.ofOption_some, Res.bind_ok, e1, g1, Option.isSome_map]
  · intro q hq
    obtain ⟨p, hp, rfl⟩ := Option.map_eq_some_iff.1 hq
    obtain ⟨t, ⟨f1, f2, f3⟩, rfl⟩ := g2 p hp
    simp only [image2 hi] at f2 f3
    exact ⟨t, ⟨f1, f2, f3⟩, world2 hi r t⟩
  · rintro ⟨t, t0, ht⟩
    rw [Option.isSome_map]
    exact g3 ⟨t, t0, (image2 hi _ _ _).2 ht⟩

/-- **C75 (3D), partial:** the same for 3D primitives other than cylinders and capsules. -/
theorem c75_primitive3_partial (s : Prim3) (hs : s.RayOk) (nz : V3 Bool) (D : Dec3 ℝ) (ho : D.rot.Orthogonal) (h1 : D.scale = 1) (r : Ray3 ℝ)
    (hd : r.direction.norm = 1) (hout : ¬ Image D.tr s.Points r.origin) :
    ∃ o, s.intersectionTransformed nz r D.tr = .ok o ∧ s.intersectsTransformed nz r D.tr = .ok o.isSome ∧
      (∀ q, o = some q → ∃ t, r.First (Image D.tr s.Points) t ∧ q = r.at t) ∧ ((∃ t, 0 ≤ t ∧ Image D.tr s.Seen (r.at t)) → o.isSome) := by
  obtain ⟨ip, iv, hi⟩ := D.invertible ho (by rw [h1]; norm_num)
  have hiv : iv r.direction = D.rot.transpose.apply (r.direction * (1 / D.scale)) := by
    have h2 := hi.inv_eq
    simp only [Dec3.tr, h1, one_ne_zero, if_false, Option.some.injEq, Prod.mk.injEq] at h2
    rw [← h2.2, h1]
  have hlen : (iv r.direction).norm = 1 := by rw [hiv, D.iso_length ho h1, hd]
  have ho' : ¬ s.Points (r.transform ip iv).origin := fun hm => hout ⟨_, hm, (hi.right _).symm⟩
  obtain ⟨b, o, e1, e2, g1, g2, g3⟩ := prim3_local s hs nz (r.transform ip iv) hlen ho'
  refine ⟨o.map D.tr.point, ?_, ?_, ?_, ?_⟩
  · simp only [Prim3.intersectionTransformed, hi.inv_eq, Res.ofOption_some, Res.bind_ok, e2]; rfl
  · simp only [Prim3.intersectsTransformed, hi.inv_eq, Res.ofOption_some, Res.bind_ok, e1, g1, Option.isSome_map]
  · intro q hq
    obtain ⟨p, hp, rfl⟩ := Option.map_eq_some_iff.1 hq
    obtain ⟨t, ⟨f1, f2, f3⟩, rfl⟩ := g2 p hp
    simp only [image3 hi] at f2 f3
    exact ⟨t, ⟨f1, f2, f3⟩, world3 hi r t⟩
  · rintro ⟨t, t0, ht⟩
    rw [Option.isSome_map]
    exact g3 ⟨t, t0, (image3 hi _ _ _).2 ht⟩

/-- **C75, capsules:** the discrete test through the wrapper is exact. -/
theorem c75_capsule (s : Capsule) (hh : 0 ≤ s.halfHeight) (hR : 0 ≤ s.radius) (nz : V3 Bool) (D : Dec3 ℝ) (ho : D.rot.Orthogonal) (h1 : D.scale = 1)
    (r : Ray3 ℝ) (hd : r.direction.norm = 1) (hout : ¬ Image D.tr (Prim3.capsule s).Points r.origin) :
    ∃ b, (Prim3.capsule s).intersectsTransformed nz r D.tr = .ok b ∧ (b = true ↔ ∃ t, 0 ≤ t ∧ Image D.tr (Prim3.capsule s).Points (r.at t)) := by
  obtain ⟨ip, iv, hi⟩ := D.invertible ho (by rw [h1]; norm_num)
  have hiv : iv r.direction = D.rot.transpose.apply (r.direction * (1 / D.scale)) := by
    have h2 := hi.inv_eq
    simp only [Dec3.tr, h1, one_ne_zero, if_false, Option.some.injEq, Prod.mk.injEq] at h2
    rw [← h2.2, h1]
  have hlen : (r.transform ip iv).direction.norm = 1 := by
    show (iv r.direction).norm = 1
    rw [hiv, D.iso_length ho h1, hd]
  have ho' : ¬ InCapsule s.halfHeight s.radius (r.transform ip iv).origin := fun hm => hout ⟨_, hm, (hi.right _).symm⟩
  refine ⟨s.intersectsRay (r.transform ip iv), ?_, ?_⟩
  · simp only [Prim3.intersectsTransformed, hi.inv_eq, Res.ofOption_some, Res.bind_ok, Prim3.localHit]
  · rw [c71_capsule s hh hR _ hlen ho']
    simp only [image3 hi]
    rfl

/-- a placement and rays that meet the hypotheses, one hit and one miss -/
theorem c75_example : ∃ (s : Prim2) (D : Dec2 ℝ) (r : Ray2 ℝ), s.RayOk ∧ D.rot.Orthogonal ∧ D.scale = 1 ∧ r.direction.norm = 1 ∧
    ¬ Image D.tr s.Points r.origin ∧ ∃ t, 0 ≤ t ∧ Image D.tr s.Seen (r.at t) := by
  refine ⟨.circle ⟨1⟩, ⟨1, ⟨⟨0, 1⟩, ⟨-1, 0⟩⟩, ⟨5, 0⟩⟩, ⟨⟨0, 0⟩, ⟨1, 0⟩⟩, ?_, ?_, rfl, by norm_num [V2.norm, V2.dot], ?_, 5, by norm_num, 0, ?_, ?_⟩
  · norm_num [Prim2.RayOk]
  · refine ⟨by norm_num [V2.dot], by norm_num [V2.dot], by norm_num [V2.dot]⟩
  · rintro ⟨p, hp, e⟩
    have hp' : p.norm ≤ 1 := hp
    rw [V2.norm_le_iff _ (by norm_num)] at hp'
    simp only [Dec2.tr, M2.apply, V2.ext_iff, V2.add_x, V2.add_y, V2.mul_x, V2.mul_y] at e
    simp only [V2.dot] at hp'
    have : p.y = 5 := by linarith [e.1]
    nlinarith [mul_self_nonneg p.x]
  · show (0 : V2 ℝ).norm ≤ 1
    norm_num [V2.norm, V2.dot]
  · ext <;> simp [Ray2.at, Dec2.tr, M2.apply]

end
end Verif.Primitive
