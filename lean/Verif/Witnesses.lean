import Verif.Geom.Plane
import Verif.Geom.Sphere
import Verif.Geom.Transformed
import Verif.Geom.Interpolate
import Verif.Primitive.Dedup
import Verif.Primitive.Enum
import Verif.Primitive.Particle
import Verif.Primitive.Polygon
import Verif.BroadPhase.Props2
import Mathlib.Tactic.NormNum

/-! # Concrete cases

For the theorems whose own file has no example: cases that are not trivial and meet the hypotheses, with what the theorem then says about them. -/

set_option linter.unusedSectionVars false

namespace Verif.Witnesses
open Verif.Geom Verif.Primitive Verif.BroadPhase
noncomputable section

/-- A placement that turns by a quarter of a circle around `z`, moves by `(5, 0, 0)` and does not scale. -/
def turned : Dec3 ℝ := ⟨1, ⟨⟨0, 1, 0⟩, ⟨-1, 0, 0⟩, ⟨0, 0, 1⟩⟩, ⟨5, 0, 0⟩⟩

theorem turned_orthogonal : turned.rot.Orthogonal := by
  refine ⟨by simp [turned, V3.dot], ?_⟩
  intro v; ext <;> simp [turned, M3.apply, M3.transpose]

/-- C32: a ray that is not parallel to the plane `z = 1`. -/
example : (⟨⟨0, 0, 1⟩, -1⟩ : Plane ℚ).intersectsRay false ⟨⟨0, 0, 0⟩, ⟨1, 0, 1⟩⟩ =
    ((⟨⟨0, 0, 1⟩, -1⟩ : Plane ℚ).intersectionRay false ⟨⟨0, 0, 0⟩, ⟨1, 0, 1⟩⟩).isSome :=
  c32_plane_partial _ _ _ (.inl (by norm_num [V3.dot]))

/-- C33: moving a ball. -/
example (s : Sphere) (p : V3 ℝ) : (s.transformVolume fun q => q + ⟨1, 2, 3⟩).Mem (p + ⟨1, 2, 3⟩) ↔ s.Mem p :=
  c33_transform s (fun q => q + ⟨1, 2, 3⟩) (fun p q => by
    congr 1; ext <;> simp) p

/-- C60: the ray from the origin along `x` and a unit ball that was moved to `(5, 0, 0)`: a hit at the first point of the moved ball. -/
example : ∃ o, intersectionTransformed3 (⟨⟨0, 0, 0⟩, 1⟩ : Sphere).intersectionRay ⟨⟨0, 0, 0⟩, ⟨1, 0, 0⟩⟩ turned.tr = .ok (some o) ∧
    ∃ t, (⟨⟨0, 0, 0⟩, ⟨1, 0, 0⟩⟩ : Ray3 ℝ).First (Image turned.tr (⟨⟨0, 0, 0⟩, 1⟩ : Sphere).Mem) t ∧ o = (⟨⟨0, 0, 0⟩, ⟨1, 0, 0⟩⟩ : Ray3 ℝ).at t := by
  obtain ⟨o, h1, h2, h3⟩ := c60_sphere_decomposed_partial ⟨⟨0, 0, 0⟩, 1⟩ (by norm_num) ⟨⟨0, 0, 0⟩, ⟨1, 0, 0⟩⟩ turned turned_orthogonal rfl
    (by simp [V3.norm, V3.dot]) (by
      rintro ⟨p, hp, e⟩
      rw [Sphere.mem_iff (by norm_num)] at hp
      simp only [V3.ext_iff, turned, Dec3.tr, M3.apply, V3.add_x, V3.add_y, V3.add_z, V3.mul_x, V3.mul_y, V3.mul_z, V3.dot, V3.sub_x, V3.sub_y, V3.sub_z] at e hp
      nlinarith [e.1, mul_self_nonneg p.x, mul_self_nonneg p.z])
  cases o with
  | none =>
    exact absurd ⟨5, by norm_num, ⟨0, 0, 0⟩, by simp [Sphere.Mem, V3.norm, V3.dot], by ext <;> simp [Ray3.at, turned, Dec3.tr, M3.apply]⟩ (h2.1 rfl)
  | some o => exact ⟨o, h1, h3 o rfl⟩

/-- C51: a list of three vertices followed by a repetition of the first. -/
example : (dedupVertices ([⟨0, 0, 0⟩, ⟨1, 0, 0⟩, ⟨0, 1, 0⟩] ++ [(⟨0, 0, 0⟩ : V3 ℝ)])).1 = [⟨0, 0, 0⟩, ⟨1, 0, 0⟩, ⟨0, 1, 0⟩] :=
  (c51_trailing_partial [⟨0, 0, 0⟩, ⟨1, 0, 0⟩, ⟨0, 1, 0⟩] [⟨0, 0, 0⟩] (by simp [V3.ext_iff]) (by simp) []).1

/-- C67: a cuboid in the turned placement has a farthest point in the direction `(1, 2, 3)`, and its bound contains a corner. -/
example : ∃ p, (Prim3.cuboid (Cuboid.new 2 4 6)).supportPoint (fun _ => false) turned.tr ⟨1, 2, 3⟩ = .ok p ∧
    Extreme3 (Image turned.tr (Prim3.cuboid (Cuboid.new 2 4 6)).Points) ⟨1, 2, 3⟩ p :=
  c67_support3 (.cuboid (Cuboid.new 2 4 6)) ⟨2, 4, 6, by norm_num, by norm_num, by norm_num, rfl⟩ _ turned turned_orthogonal (by simp [turned]) _ (by simp [V3.ext_iff])
example : (Prim3.capsule ⟨2, 1⟩).bound.Mem ⟨0, 3, 0⟩ :=
  c67_bound3 (.capsule ⟨2, 1⟩) ⟨by norm_num, by norm_num⟩ _ ⟨2, by norm_num, by norm_num, by
    norm_num [InBall, V3.norm, V3.dot]⟩
example : ∃ p, (Prim2.rectangle (Rectangle.new 2 4)).supportPoint (⟨3, ⟨⟨0, 1⟩, ⟨-1, 0⟩⟩, ⟨5, 0⟩⟩ : Dec2 ℝ).tr ⟨1, 2⟩ = .ok p ∧
    Extreme2 (Image (⟨3, ⟨⟨0, 1⟩, ⟨-1, 0⟩⟩, ⟨5, 0⟩⟩ : Dec2 ℝ).tr (Prim2.rectangle (Rectangle.new 2 4)).Points) ⟨1, 2⟩ p :=
  c67_support2 (.rectangle (Rectangle.new 2 4)) ⟨2, 4, by norm_num, by norm_num, rfl⟩ _ (by norm_num [M2.Orthogonal, V2.dot]) (by norm_num) _ (by simp [V2.ext_iff])

/-- C57: a movement across a segment hits it; the same movement cut short does not. -/
example : particleIntersects2 (⟨⟨1, -1⟩, ⟨1, 1⟩⟩ : Line2 ℝ).intersectionRay ⟨0, 0⟩ ⟨3, 0⟩ = true ∧
    particleIntersects2 (⟨⟨1, -1⟩, ⟨1, 1⟩⟩ : Line2 ℝ).intersectionRay ⟨0, 0⟩ ⟨1 / 2, 0⟩ = false := by
  constructor
  · rw [(c57_segment _ _ _ (by simp [V2.ext_iff])).2]
    exact ⟨1 / 3, by norm_num, by norm_num, 1 / 2, by norm_num, by norm_num, by ext <;> norm_num [along2, Line2.at]⟩
  · rw [Bool.eq_false_iff, ne_eq, (c57_segment _ _ _ (by simp [V2.ext_iff])).2]
    rintro ⟨u, u0, u1, w, w0, w1, e⟩
    have := congrArg V2.x e
    norm_num [along2, Line2.at] at this
    linarith

/-- C57: a movement into a ball from outside. -/
example : particleIntersects3 (⟨⟨0, 0, 0⟩, 1⟩ : Sphere).intersectionRay ⟨-5, 0, 0⟩ ⟨0, 0, 0⟩ = true := by
  rw [(c57_sphere_partial ⟨⟨0, 0, 0⟩, 1⟩ (by norm_num) _ _ (by simp [V3.ext_iff]) (by
    rw [Sphere.mem_iff (by norm_num)]; norm_num [V3.dot])).2]
  exact ⟨1, by norm_num, by norm_num, by rw [Sphere.mem_iff (by norm_num)]; norm_num [V3.dot, along3]⟩

/-- C46: a triangle, in the placement that does nothing. -/
example : ∃ p, (Polygon.new [⟨0, 0⟩, ⟨1, 0⟩, ⟨0, 1⟩]).supportPoint (⟨1, ⟨⟨1, 0⟩, ⟨0, 1⟩⟩, ⟨0, 0⟩⟩ : Dec2 ℚ).tr ⟨1, 2⟩ = .ok p ∧
    Extreme2 (Image (⟨1, ⟨⟨1, 0⟩, ⟨0, 1⟩⟩, ⟨0, 0⟩⟩ : Dec2 ℚ).tr (Hull2 [⟨0, 0⟩, ⟨1, 0⟩, ⟨0, 1⟩])) ⟨1, 2⟩ p :=
  c46_small_polygon _ (by simp) (by simp) (Dec2.similar _ (by norm_num)) _

/-- C58: half way between the angles 0 and a quarter turn, the cosine is a half. -/
example : ((M2.fromAngle 0).interpolate (M2.fromAngle (Real.pi / 2)) (1 / 2)).c0.x = 1 / 2 := by
  rw [(c58_basis2_partial 0 (Real.pi / 2) ⟨le_rfl, Real.pi_pos.le⟩ ⟨by linarith [Real.pi_pos], by linarith [Real.pi_pos]⟩).2.2 _ (by norm_num) (by norm_num)]
  norm_num

/-- C20: three boxes, of which the first two overlap. -/
example (v : VarOps σ (Aabb2 ℚ)) (w : σ) : ∃ pairs shapes' s', (⟨0, w⟩ : Sap σ).findColliderPairs sapAabb2 v id
      [⟨⟨1, 0⟩, ⟨3, 1⟩⟩, ⟨⟨0, 0⟩, ⟨2, 1⟩⟩, ⟨⟨7, 0⟩, ⟨8, 1⟩⟩] = .ok (pairs, shapes', s') ∧
    shapes'.Perm [⟨⟨1, 0⟩, ⟨3, 1⟩⟩, ⟨⟨0, 0⟩, ⟨2, 1⟩⟩, ⟨⟨7, 0⟩, ⟨8, 1⟩⟩] := by
  obtain ⟨p, q, s', h1, h2, -⟩ := c20_sweep_and_prune sapAabb2 v id ⟨0, w⟩ [⟨⟨1, 0⟩, ⟨3, 1⟩⟩, ⟨⟨0, 0⟩, ⟨2, 1⟩⟩, ⟨⟨7, 0⟩, ⟨8, 1⟩⟩]
    (overlaps_aabb2 0) (by show 0 < 2; norm_num)
  exact ⟨p, q, s', h1, h2⟩

end
end Verif.Witnesses
