import Verif.Primitive.EnumRay
import Verif.Geom.RayBoxExit
import Verif.Geom.Plane
import Verif.Minkowski.Balls
import Verif.Minkowski.BallDistance
import Verif.Minkowski.Epa2Point
import Verif.Minkowski.Epa2Total
import Verif.Minkowski.Round3
import Verif.Minkowski.Balls3
import Mathlib.Tactic.NormNum

/-! # Concrete cases, second part

For theorems on rays and round shapes, and for theorems about answers of GJK and EPA: cases that are not trivial and meet the hypotheses, with what the theorem then says about them. -/

set_option linter.unusedSectionVars false

namespace Verif.Witnesses
open Verif Verif.Geom Verif.Primitive
noncomputable section

/-! ## Capsules and cylinders (C71–C75) -/

/-- A ray of length one along `-x`. -/
def back : Ray3 ℝ := ⟨⟨5, 0, 0⟩, ⟨-1, 0, 0⟩⟩
theorem back_norm : back.direction.norm = 1 := by
  unfold V3.norm V3.dot; simp [back]
theorem norm_of {v : V3 ℝ} {k : ℝ} (hk : 0 ≤ k) (h : v.dot v = k * k) : v.norm = k := by
  unfold V3.norm; rw [h]; exact Real.sqrt_mul_self hk
/-- Its origin is outside the capsule. -/
theorem back_outside : ¬ InCapsule 1 1 back.origin := by
  rintro ⟨s, -, -, h⟩
  have h1 : (back.origin - (⟨0, s, 0⟩ : V3 ℝ)).norm * (back.origin - (⟨0, s, 0⟩ : V3 ℝ)).norm ≤ 1 * 1 := mul_le_mul h h (Real.sqrt_nonneg _) zero_le_one
  rw [V3.norm_sq] at h1
  simp [back, V3.dot] at h1
  nlinarith [mul_self_nonneg s]
theorem back_meets : InCapsule 1 1 (back.at 4) := by
  refine ⟨0, by norm_num, by norm_num, ?_⟩
  rw [norm_of zero_le_one (k := 1) (by simp [back, Ray3.at, V3.dot]; norm_num)]
/-- C71: the ray meets the capsule, and the test says so. -/
example : (⟨1, 1⟩ : Capsule).intersectsRay back = true :=
  (c71_capsule ⟨1, 1⟩ zero_le_one zero_le_one back back_norm back_outside).2 ⟨4, by norm_num, back_meets⟩
/-- The first point of the tube around the axis. -/
theorem back_tube : ¬ InTube 1 back.origin ∧ back.First (InTube 1) 4 := by
  refine ⟨by norm_num [InTube, back], by norm_num, by norm_num [InTube, back, Ray3.at], fun u hu h => ?_⟩
  simp [InTube, back, Ray3.at] at h
  nlinarith
/-- C72: the first point of the capsule. -/
example : ∃ t, back.First (InCapsule 1 1) t ∧ (⟨1, 1⟩ : Capsule).intersectionRay back = some (back.at t) :=
  c72_capsule_partial ⟨1, 1⟩ zero_le_one zero_le_one back back_norm back_outside ⟨4, by norm_num, back_meets⟩
    (.inr (.inr ⟨back_tube.1, 4, back_tube.2, by norm_num [back, Ray3.at], by norm_num [back, Ray3.at]⟩))
/-- C72: the reported point is on the ray and in the capsule or on its tube. -/
example : ∃ p, (⟨1, 1⟩ : Capsule).intersectionRay back = some p ∧ ∃ t, 0 ≤ t ∧ p = back.at t ∧ (InCapsule 1 1 p ∨ (p.x * p.x + p.z * p.z = 1 * 1 ∧ -(1 + 1) ≤ p.y ∧ p.y ≤ 1 + 1)) := by
  obtain ⟨t, -, h⟩ := c72_capsule_partial ⟨1, 1⟩ zero_le_one zero_le_one back back_norm back_outside ⟨4, by norm_num, back_meets⟩
    (.inr (.inr ⟨back_tube.1, 4, back_tube.2, by norm_num [back, Ray3.at], by norm_num [back, Ray3.at]⟩))
  exact ⟨_, h, c72_sound_partial ⟨1, 1⟩ zero_le_one zero_le_one back back_norm h⟩
/-- C72: a ray from a point of the side. -/
example : (⟨1, 1⟩ : Capsule).intersectionRay ⟨⟨1, 1 / 2, 0⟩, ⟨1, 0, 0⟩⟩ = some ⟨1, 1 / 2, 0⟩ :=
  (c72_surface_partial ⟨1, 1⟩ zero_le_one zero_le_one ⟨⟨1, 1 / 2, 0⟩, ⟨1, 0, 0⟩⟩ (by norm_num [Axial]) (by norm_num) (by norm_num)).2.1
theorem back_axial : ¬ Axial back := by norm_num [Axial, back]
/-- C73: the ray goes through the inside of the cylinder, and the test says so; then it does meet it. -/
example : (⟨1, 1⟩ : Cylinder).intersectsRay back = true ∧ ∃ t, 0 ≤ t ∧ InCylinder 1 1 (back.at t) := by
  have h := c73_complete_partial ⟨1, 1⟩ back back_axial (by norm_num [InCylinder, back]) (by norm_num [back]) ⟨5, by norm_num, by norm_num [InCylinder, back, Ray3.at], by norm_num [back, Ray3.at]⟩
  exact ⟨h, c73_sound_partial ⟨1, 1⟩ zero_le_one back back_axial h⟩
/-- C73: down the axis. -/
example : (⟨1, 1⟩ : Cylinder).intersectsRay ⟨⟨0, 3, 0⟩, ⟨0, -1, 0⟩⟩ = true :=
  (c73_axis_partial ⟨1, 1⟩ zero_le_one ⟨⟨0, 3, 0⟩, ⟨0, -1, 0⟩⟩ (by norm_num [Axial]) (by norm_num) (by norm_num [InTube])).2 ⟨3, by norm_num, by norm_num [InCylinder, Ray3.at]⟩
/-- C74: the side of the cylinder is met first, at distance 4, and this point is on the ray and in the cylinder. -/
example : (⟨1, 1⟩ : Cylinder).intersectionRay back = some (back.at 4) ∧ ∃ t, 0 ≤ t ∧ back.at 4 = back.at t ∧ InCylinder 1 1 (back.at 4) := by
  have h := (c74_side_partial ⟨1, 1⟩ back back_tube.1 4 back_tube.2 (by norm_num [back, Ray3.at])).2
  exact ⟨h, c74_sound_partial ⟨1, 1⟩ back back_axial h⟩
/-- C74: from above, not along the axis. -/
example : ∃ t, (⟨⟨0, 3, 0⟩, ⟨1 / 8, -1, 0⟩⟩ : Ray3 ℝ).First (InCylinder 1 1) t ∧ (⟨1, 1⟩ : Cylinder).intersectionRay ⟨⟨0, 3, 0⟩, ⟨1 / 8, -1, 0⟩⟩ = some ((⟨⟨0, 3, 0⟩, ⟨1 / 8, -1, 0⟩⟩ : Ray3 ℝ).at t) :=
  c74_top_partial ⟨1, 1⟩ zero_le_one ⟨⟨0, 3, 0⟩, ⟨1 / 8, -1, 0⟩⟩ (by norm_num [Axial]) (by norm_num) (by norm_num) ⟨3, by norm_num, by norm_num [InCylinder, Ray3.at]⟩
/-- C74: down the axis from above. -/
example : (⟨1, 1⟩ : Cylinder).intersectionRay ⟨⟨0, 3, 0⟩, ⟨0, -1, 0⟩⟩ ≠ none := fun h =>
  (c74_axis_partial ⟨1, 1⟩ zero_le_one ⟨⟨0, 3, 0⟩, ⟨0, -1, 0⟩⟩ (by norm_num [Axial]) (by norm_num) (by norm_num) (.inl (by norm_num))).1.1 h ⟨3, by norm_num, by norm_num [InCylinder, Ray3.at]⟩
/-- C74: from inside, the point where the ray leaves. -/
example : ∃ t p, (⟨1, 1⟩ : Cylinder).intersectionRay ⟨0, ⟨0, -1, 0⟩⟩ = some p ∧ p = (⟨0, ⟨0, -1, 0⟩⟩ : Ray3 ℝ).at t ∧ ∀ u, 0 ≤ u → (InCylinder 1 1 ((⟨0, ⟨0, -1, 0⟩⟩ : Ray3 ℝ).at u) ↔ u ≤ t) :=
  c74_axis_inside ⟨1, 1⟩ ⟨0, ⟨0, -1, 0⟩⟩ (by norm_num [Axial]) (by norm_num) (by simp) (by simp)

/-! ## Rays and boxes (C30, C31), planes (C39) -/

/-- C30: a diagonal ray from outside the unit square enters it at its corner. -/
example : ∃ t, (⟨⟨-1, -1⟩, ⟨1, 1⟩⟩ : Ray2 ℚ).Meets ⟨⟨0, 0⟩, ⟨1, 1⟩⟩ t ∧ (⟨.fin 0, .fin 0⟩ : V2 (Ext ℚ)) = ((⟨⟨-1, -1⟩, ⟨1, 1⟩⟩ : Ray2 ℚ).at t).toExt := by
  obtain ⟨t, h1, h2, -⟩ := c30_which2 (⟨⟨-1, -1⟩, ⟨1, 1⟩⟩ : Ray2 ℚ) ⟨⟨0, 0⟩, ⟨1, 1⟩⟩ (by constructor <;> norm_num) (by intro h; have := congrArg V2.x h; norm_num at this) (q := ⟨.fin 0, .fin 0⟩) (by decide +kernel)
  exact ⟨t, h1, h2⟩
/-- C31, with the same ray in 3D. -/
example : ∃ t, (⟨⟨-1, -1, -1⟩, ⟨1, 1, 1⟩⟩ : Ray3 ℚ).MeetsF ⟨⟨0, 0, 0⟩, ⟨1, 1, 1⟩⟩ t ∧ (⟨.fin 0, .fin 0, .fin 0⟩ : V3 (Ext ℚ)) = ((⟨⟨-1, -1, -1⟩, ⟨1, 1, 1⟩⟩ : Ray3 ℚ).at t).toExt := by
  obtain ⟨t, h1, h2, -⟩ := c31_which3 ⟨false, false, false⟩ (⟨⟨-1, -1, -1⟩, ⟨1, 1, 1⟩⟩ : Ray3 ℚ) ⟨⟨0, 0, 0⟩, ⟨1, 1, 1⟩⟩ (by refine ⟨?_, ?_, ?_⟩ <;> norm_num)
    (by intro h; have := congrArg V3.x h; norm_num at this) (q := ⟨.fin 0, .fin 0, .fin 0⟩) (by decide +kernel)
  exact ⟨t, h1, h2⟩
/-- C39: a ray towards a plane reaches it. -/
example : (⟨⟨0, 0, 1⟩, -1⟩ : Plane ℚ).intersectionRay false ⟨⟨0, 0, 0⟩, ⟨1, 0, 1⟩⟩ ≠ none := fun h => by
  have := (c39_ray_plane_partial false (⟨⟨0, 0, 1⟩, -1⟩ : Plane ℚ) ⟨⟨0, 0, 0⟩, ⟨1, 0, 1⟩⟩ (by norm_num [V3.dot])).1.1 h
  exact this ⟨1, by norm_num, by norm_num [Plane.OnAlt, Ray3.at, V3.dot]⟩

end
end Verif.Witnesses

namespace Verif.Minkowski
open Verif Geom Primitive
noncomputable section

theorem at2_ok (p : V2 ℝ) : (at2 p).rot.Orthogonal ∧ (at2 p).scale ≠ 0 := by simp [at2, M2.Orthogonal, V2.dot]
/-- Two circles of radius 1, a unit apart: `c87_circles_depth` gives a contact of EPA with a tolerance of 1/100. -/
theorem circles_contact : ∃ c : Contact (V2 ℝ) ℝ, gjkIntersection reduce2 100 (epa2 (1 / 100) 100 ((Prim2.circle ⟨1⟩).supportPoint (at2 0).tr) ((Prim2.circle ⟨1⟩).supportPoint (at2 ⟨1, 0⟩).tr)) .fullResolution
    ((Prim2.circle ⟨1⟩).supportPoint (at2 0).tr) ((Prim2.circle ⟨1⟩).supportPoint (at2 ⟨1, 0⟩).tr) ((at2 0).tr.point 0) ((at2 ⟨1, 0⟩).tr.point 0) = .ok (some c) ∧ 0 < c.depth ∧ c.depth ≤ 1 := by
  have hn : ((at2 0).disp - (at2 ⟨1, 0⟩).disp).norm = 1 := by
    unfold V2.norm V2.dot
    simp [at2]
  obtain ⟨k, h1, -, h3, h4, -⟩ := c87_circles_depth ⟨1⟩ ⟨1⟩ zero_le_one zero_le_one (at2 0) (at2 ⟨1, 0⟩) (at2_ok _).1 (at2_ok _).1 (at2_ok _).2 (at2_ok _).2 (tolerance := 1 / 100) (by norm_num) 98 100
    (by rw [hn]; norm_num [at2])
  rw [hn] at h4
  refine ⟨k, h1, h3, ?_⟩
  norm_num [at2] at h4
  exact h4
/-- C55: the contact separates the circles up to the tolerance, if EPA converged. -/
example : ∃ c : Contact (V2 ℝ) ℝ, c.normal.norm = 1 ∧ 0 < c.depth ∧ Image (at2 0).tr (Prim2.circle ⟨1⟩).Points c.point := by
  obtain ⟨c, h, -⟩ := circles_contact
  obtain ⟨h1, h2, h3, -⟩ := c55_prim2 _ _ (by simp [Prim2.Ok]) (by simp [Prim2.Ok]) _ _ (at2_ok _).1 (at2_ok _).1 (at2_ok _).2 (at2_ok _).2 _ _ _ h
  exact ⟨c, h1, h2, h3⟩
/-- C80: its contact point. -/
example : ∃ c : Contact (V2 ℝ) ℝ, SegmentPoint (Image (at2 0).tr (Prim2.circle ⟨1⟩).Points) (Image (at2 ⟨1, 0⟩).tr (Prim2.circle ⟨1⟩).Points) c.normal c.depth c.point := by
  obtain ⟨c, h, -⟩ := circles_contact
  exact ⟨c, c80_prim2 _ _ (by simp [Prim2.Ok]) (by simp [Prim2.Ok]) _ _ (at2_ok _).1 (at2_ok _).1 (at2_ok _).2 (at2_ok _).2 _ _ _ h⟩
/-- C95: two circles of radius 1 five units apart are three units apart; a circle and a particle four. -/
example (nan : Res (SP (V2 ℝ))) : gjkDistance closest2 (1 / 100) 100 ((Circle.mk 1).supportPoint (at2 0).tr) ((Circle.mk 1).supportPoint (at2 ⟨3, 4⟩).tr) nan ((at2 0).tr.point 0) ((at2 ⟨3, 4⟩).tr.point 0) = .ok (some 3) ∧
    gjkDistance closest2 (1 / 100) 100 ((Circle.mk 1).supportPoint (at2 0).tr) (Prim2.particle.supportPoint (at2 ⟨3, 4⟩).tr) nan ((at2 0).tr.point 0) ((at2 ⟨3, 4⟩).tr.point 0) = .ok (some 4) := by
  have e : ((at2 0).disp - (at2 ⟨3, 4⟩).disp).norm = 5 := by
    unfold V2.norm
    rw [show ((at2 0).disp - (at2 ⟨3, 4⟩).disp).dot ((at2 0).disp - (at2 ⟨3, 4⟩).disp) = (5 : ℝ) * 5 by simp [at2, V2.dot]; norm_num]
    exact Real.sqrt_mul_self (by norm_num)
  constructor
  · rw [c95_circles ⟨1⟩ ⟨1⟩ (at2 0) (at2 ⟨3, 4⟩) (at2_ok _).1 (at2_ok _).1 (at2_ok _).2 (at2_ok _).2 (by norm_num [at2]) (by norm_num) 100 (by norm_num), e]
    norm_num [at2]
  · rw [c95_circle_particle ⟨1⟩ (at2 0) (at2 ⟨3, 4⟩) (at2_ok _).1 (at2_ok _).2 one_pos (by norm_num) 100 (by norm_num), e]
    norm_num [at2]
/-- C95 and C54 in 3D: a sphere and a particle; the answer 4 is attained, and nothing is nearer but by the tolerance. -/
example (nz nz' : V3 ℝ → Bool) : ∀ x y, Image (shift3 0 0 0).tr (Prim3.sphere ⟨1⟩).Points x → Image (shift3 3 4 0).tr Prim3.particle.Points y → 4 - 1 / 100 / 4 < (x - y).norm := by
  have e : ((shift3 0 0 0).disp - (shift3 3 4 0).disp).norm = 5 := by
    unfold V3.norm
    rw [show ((shift3 0 0 0).disp - (shift3 3 4 0).disp).dot ((shift3 0 0 0).disp - (shift3 3 4 0).disp) = (5 : ℝ) * 5 by simp [shift3, V3.dot]; norm_num]
    exact Real.sqrt_mul_self (by norm_num)
  have h := c95_sphere_particle ⟨1⟩ nz' (shift3 0 0 0) (shift3 3 4 0) (shift3_orthogonal _ _ _) one_ne_zero one_pos (tolerance := 1 / 100) (by norm_num) 100 (by norm_num) .panic
  rw [e] at h
  have h' : gjkDistance closest3 (1 / 100) 100 ((Prim3.sphere ⟨1⟩).supportPoint nz (shift3 0 0 0).tr) (Prim3.particle.supportPoint nz' (shift3 3 4 0).tr) .panic ((shift3 0 0 0).tr.point 0) ((shift3 3 4 0).tr.point 0) = .ok (some 4) := by
    refine Eq.trans h ?_
    norm_num [shift3]
  exact (c54_prim3 (.sphere ⟨1⟩) .particle (by simp [Prim3.Ok]) trivial nz nz' (shift3 0 0 0) (shift3 3 4 0) (shift3_orthogonal _ _ _) (shift3_orthogonal _ _ _) one_ne_zero one_ne_zero (by intro p h; cases h) _ _ h').2.2
/-- C79, C80, C86 and C53 in 3D: two unit spheres. -/
example (nz nz' : V3 ℝ → Bool) : ∃ simplex k converged,
    gjkIntersect reduce3 103 ((Prim3.sphere ⟨1⟩).supportPoint nz (shift3 0 0 0).tr) ((Prim3.sphere ⟨1⟩).supportPoint nz' (shift3 0 1 0).tr) ((shift3 0 0 0).tr.point 0) ((shift3 0 1 0).tr.point 0) = .ok (some simplex) ∧
    ExactContact (Image (shift3 0 0 0).tr (Prim3.sphere ⟨1⟩).Points) (Image (shift3 0 1 0).tr (Prim3.sphere ⟨1⟩).Points) (1 / 100) k converged ∧
    (∃ k', AffinePoint (Image (shift3 0 0 0).tr (Prim3.sphere ⟨1⟩).Points) (Image (shift3 0 1 0).tr (Prim3.sphere ⟨1⟩).Points) k'.normal k'.depth (k' : Contact (V3 ℝ) ℝ).point) ∧
    (∃ a b c d, simplex = [a, b, c, d] ∧ InTetrahedron a.v b.v c.v d.v) ∧
    ∃ f, full3 (1 / 100) 103 100 ((Prim3.sphere ⟨1⟩).supportPoint nz (shift3 0 0 0).tr) ((Prim3.sphere ⟨1⟩).supportPoint nz' (shift3 0 1 0).tr) ((shift3 0 0 0).tr.point 0) ((shift3 0 1 0).tr.point 0) = .ok f ∧ f.isSome := by
  obtain ⟨simplex, -, -, h, -⟩ := c87_spheres_example 100 100
  have ok : (Prim3.sphere ⟨1⟩).Ok := by simp [Prim3.Ok]
  have h' : gjkIntersect reduce3 103 ((Prim3.sphere ⟨1⟩).supportPoint nz (shift3 0 0 0).tr) ((Prim3.sphere ⟨1⟩).supportPoint nz' (shift3 0 1 0).tr) ((shift3 0 0 0).tr.point 0) ((shift3 0 1 0).tr.point 0) = .ok (some simplex) := h
  have o1 := shift3_orthogonal 0 0 0
  have o2 := shift3_orthogonal 0 1 0
  obtain ⟨k, cv, -, h2⟩ := c79_prim3_all _ _ ok ok nz nz' _ _ o1 o2 one_ne_zero one_ne_zero (1 / 100) 103 100 h'
  obtain ⟨k', cv', -, h3⟩ := c80_prim3_all_partial _ _ ok ok nz nz' _ _ o1 o2 one_ne_zero one_ne_zero (1 / 100) 103 100 h'
  obtain ⟨f, h4, h5, -⟩ := c86_prim3_all _ _ ok ok nz nz' _ _ o1 o2 one_ne_zero one_ne_zero (1 / 100) 103 100 h'
  obtain ⟨-, a, b, c, d, e, -, h6⟩ := (c53_prim3_all _ _ ok ok nz nz' _ _ o1 o2 one_ne_zero one_ne_zero 103).1 _ h'
  exact ⟨simplex, k, cv, h', h2, ⟨k', h3⟩, ⟨a, b, c, d, e, h6⟩, f, h4, h5.2 rfl⟩
/-- C86 in 3D: a box and a particle in it; full resolution answers with a contact exactly when there is a simplex. -/
example (nz nz' : V3 ℝ → Bool) : ∃ o f, gjkIntersect reduce3 100 ((Prim3.cuboid (Cuboid.new 2 2 2)).supportPoint nz (shift3 0 0 0).tr) (Prim3.particle.supportPoint nz' (shift3 0 1 0).tr) ((shift3 0 0 0).tr.point 0) ((shift3 0 1 0).tr.point 0) = .ok o ∧
    full3 (1 / 100) 100 100 ((Prim3.cuboid (Cuboid.new 2 2 2)).supportPoint nz (shift3 0 0 0).tr) (Prim3.particle.supportPoint nz' (shift3 0 1 0).tr) ((shift3 0 0 0).tr.point 0) ((shift3 0 1 0).tr.point 0) = .ok f ∧ (f.isSome ↔ o.isSome) ∧ f ≠ some .nan :=
  c86_prim3 (.cuboid (Cuboid.new 2 2 2)) .particle ⟨2, 2, 2, by norm_num, by norm_num, by norm_num, rfl⟩ trivial trivial trivial nz nz' (shift3 0 0 0) (shift3 0 1 0) (shift3_orthogonal _ _ _) (shift3_orthogonal _ _ _) one_ne_zero one_ne_zero _ _ _
/-- C86 in 2D: a rectangle and a square turned by a quarter of a circle and doubled. -/
example : ∃ f, gjkIntersection reduce2 100 (epa2 (1 / 100) 100 ((Prim2.rectangle (Rectangle.new 10 10)).supportPoint (at2 0).tr) ((Prim2.square (Square.new 3)).supportPoint (⟨2, ⟨⟨0, 1⟩, ⟨-1, 0⟩⟩, ⟨7, 1⟩⟩ : Dec2 ℝ).tr)) .fullResolution
      ((Prim2.rectangle (Rectangle.new 10 10)).supportPoint (at2 0).tr) ((Prim2.square (Square.new 3)).supportPoint (⟨2, ⟨⟨0, 1⟩, ⟨-1, 0⟩⟩, ⟨7, 1⟩⟩ : Dec2 ℝ).tr) ((at2 0).tr.point 0) ((⟨2, ⟨⟨0, 1⟩, ⟨-1, 0⟩⟩, ⟨7, 1⟩⟩ : Dec2 ℝ).tr.point 0) = .ok f := by
  obtain ⟨f, h, -⟩ := c86_exact_prim2 (.rectangle (Rectangle.new 10 10)) (.square (Square.new 3)) ⟨10, 10, by norm_num, by norm_num, rfl⟩ ⟨3, by norm_num, rfl⟩ (by intro c h; cases h) (by intro c h; cases h) (at2 0)
    ⟨2, ⟨⟨0, 1⟩, ⟨-1, 0⟩⟩, ⟨7, 1⟩⟩ (at2_ok _).1 (by simp [M2.Orthogonal, V2.dot]) (at2_ok _).2 (by norm_num) (tolerance := 1 / 100) (by norm_num) 100
  exact ⟨f, h⟩
end
end Verif.Minkowski
