import Verif.Geom.Sphere
import Verif.Geom.AabbProps
import Mathlib.Analysis.Real.Pi.Bounds
/-!
# The surface area of bounding volumes (C94)

The tree chooses where to insert and when to rotate by comparing surface areas, of boxes or of spheres.
-/
namespace Verif.Geom
set_option linter.unusedSectionVars false

section boxes
variable {K : Type} [Field K] [LinearOrder K] [IsStrictOrderedRing K]

/-- C94, 2D: cutting a box in two by a line at `x` (or at `y`) cuts its area in two; scaling by `k` scales it by `k²`; a unit square has area 1. -/
theorem c94_box2 (b : Aabb2 K) (hb : b.Valid) (x y k : K) :
    (⟨b.min, ⟨x, b.max.y⟩⟩ : Aabb2 K).surfaceArea + (⟨⟨x, b.min.y⟩, b.max⟩ : Aabb2 K).surfaceArea = b.surfaceArea ∧
    (⟨b.min, ⟨b.max.x, y⟩⟩ : Aabb2 K).surfaceArea + (⟨⟨b.min.x, y⟩, b.max⟩ : Aabb2 K).surfaceArea = b.surfaceArea ∧
    (b.mulS k).surfaceArea = k * k * b.surfaceArea ∧ (⟨⟨0, 0⟩, ⟨1, 1⟩⟩ : Aabb2 K).surfaceArea = 1 := by
  refine ⟨?_, ?_, ?_, ?_⟩
  · simp only [Aabb2.surfaceArea, Aabb2.dim, V2.sub_x, V2.sub_y]; ring
  · simp only [Aabb2.surfaceArea, Aabb2.dim, V2.sub_x, V2.sub_y]; ring
  · obtain ⟨h1, h2⟩ := hb
    simp only [Aabb2.surfaceArea, Aabb2.dim, Aabb2.mulS, Aabb2.new, pmin_eq, pmax_eq, V2.sub_x, V2.sub_y, V2.mul_x, V2.mul_y]
    rcases le_total 0 k with hk | hk
    · have e1 := mul_le_mul_of_nonneg_right h1 hk
      have e2 := mul_le_mul_of_nonneg_right h2 hk
      rw [min_eq_left e1, min_eq_left e2, max_eq_right e1, max_eq_right e2]; ring
    · have e1 := mul_le_mul_of_nonpos_right h1 hk
      have e2 := mul_le_mul_of_nonpos_right h2 hk
      rw [min_eq_right e1, min_eq_right e2, max_eq_left e1, max_eq_left e2]; ring
  · simp [Aabb2.surfaceArea, Aabb2.dim]

/-- C94, 3D: cutting a box in two by a plane adds twice the area of the cut; scaling by `k` scales the area by `k²`; a unit cube has area 6. -/
theorem c94_box3 (b : Aabb3 K) (hb : b.Valid) (x y z k : K) :
    (⟨b.min, ⟨x, b.max.y, b.max.z⟩⟩ : Aabb3 K).surfaceArea + (⟨⟨x, b.min.y, b.min.z⟩, b.max⟩ : Aabb3 K).surfaceArea =
      b.surfaceArea + 2 * ((b.max.y - b.min.y) * (b.max.z - b.min.z)) ∧
    (⟨b.min, ⟨b.max.x, y, b.max.z⟩⟩ : Aabb3 K).surfaceArea + (⟨⟨b.min.x, y, b.min.z⟩, b.max⟩ : Aabb3 K).surfaceArea =
      b.surfaceArea + 2 * ((b.max.x - b.min.x) * (b.max.z - b.min.z)) ∧
    (⟨b.min, ⟨b.max.x, b.max.y, z⟩⟩ : Aabb3 K).surfaceArea + (⟨⟨b.min.x, b.min.y, z⟩, b.max⟩ : Aabb3 K).surfaceArea =
      b.surfaceArea + 2 * ((b.max.x - b.min.x) * (b.max.y - b.min.y)) ∧
    (b.mulS k).surfaceArea = k * k * b.surfaceArea ∧ (⟨⟨0, 0, 0⟩, ⟨1, 1, 1⟩⟩ : Aabb3 K).surfaceArea = 6 := by
  refine ⟨?_, ?_, ?_, ?_, ?_⟩
  · simp only [Aabb3.surfaceArea, Aabb3.dim, V3.sub_x, V3.sub_y, V3.sub_z]; ring
  · simp only [Aabb3.surfaceArea, Aabb3.dim, V3.sub_x, V3.sub_y, V3.sub_z]; ring
  · simp only [Aabb3.surfaceArea, Aabb3.dim, V3.sub_x, V3.sub_y, V3.sub_z]; ring
  · obtain ⟨h1, h2, h3⟩ := hb
    simp only [Aabb3.surfaceArea, Aabb3.dim, Aabb3.mulS, Aabb3.new, pmin_eq, pmax_eq, V3.sub_x, V3.sub_y, V3.sub_z, V3.mul_x, V3.mul_y, V3.mul_z]
    rcases le_total 0 k with hk | hk
    · have e1 := mul_le_mul_of_nonneg_right h1 hk
      have e2 := mul_le_mul_of_nonneg_right h2 hk
      have e3 := mul_le_mul_of_nonneg_right h3 hk
      rw [min_eq_left e1, min_eq_left e2, min_eq_left e3, max_eq_right e1, max_eq_right e2, max_eq_right e3]; ring
    · have e1 := mul_le_mul_of_nonpos_right h1 hk
      have e2 := mul_le_mul_of_nonpos_right h2 hk
      have e3 := mul_le_mul_of_nonpos_right h3 hk
      rw [min_eq_right e1, min_eq_right e2, min_eq_right e3, max_eq_left e1, max_eq_left e2, max_eq_left e3]; ring
  · simp only [Aabb3.surfaceArea, Aabb3.dim, V3.sub_x, V3.sub_y, V3.sub_z]; norm_num
/-- C94: a box inside another one has no greater area. -/
theorem c94_mono2 (b c : Aabb2 K) (hc : c.Valid) (h : b.contains c = true) : c.surfaceArea ≤ b.surfaceArea := by
  obtain ⟨v1, v2⟩ := hc
  simp only [Aabb2.contains, Bool.and_eq_true, decide_eq_true_eq] at h
  obtain ⟨⟨⟨h1, h2⟩, h3⟩, h4⟩ := h
  simp only [Aabb2.surfaceArea, Aabb2.dim, V2.sub_x, V2.sub_y]
  exact mul_le_mul (by linarith) (by linarith) (by linarith) (by linarith)

/-- C94 in 3D: a box inside another one has no greater area. -/
theorem c94_mono3 (b c : Aabb3 K) (hc : c.Valid) (h : b.contains c = true) : c.surfaceArea ≤ b.surfaceArea := by
  obtain ⟨v1, v2, v3⟩ := hc
  simp only [Aabb3.contains, Bool.and_eq_true, decide_eq_true_eq] at h
  obtain ⟨⟨⟨⟨⟨h1, h2⟩, h3⟩, h4⟩, h5⟩, h6⟩ := h
  have a := mul_le_mul (show c.max.x - c.min.x ≤ b.max.x - b.min.x by linarith) (show c.max.y - c.min.y ≤ b.max.y - b.min.y by linarith) (by linarith) (by linarith)
  have a2 := mul_le_mul (show c.max.x - c.min.x ≤ b.max.x - b.min.x by linarith) (show c.max.z - c.min.z ≤ b.max.z - b.min.z by linarith) (by linarith) (by linarith)
  have a3 := mul_le_mul (show c.max.y - c.min.y ≤ b.max.y - b.min.y by linarith) (show c.max.z - c.min.z ≤ b.max.z - b.min.z by linarith) (by linarith) (by linarith)
  simp only [Aabb3.surfaceArea, Aabb3.dim, V3.sub_x, V3.sub_y, V3.sub_z]
  linarith

/-- A box inside another one, for the two theorems above. -/
example : (⟨⟨0, 0, 0⟩, ⟨2, 2, 2⟩⟩ : Aabb3 ℚ).contains ⟨⟨0, 1, 0⟩, ⟨1, 2, 2⟩⟩ = true ∧ (⟨⟨0, 1, 0⟩, ⟨1, 2, 2⟩⟩ : Aabb3 ℚ).Valid := by
  refine ⟨by decide +kernel, by norm_num [Aabb3.Valid]⟩

end boxes

noncomputable section

/-- C94, spheres: scaling the radius by `k` scales the area by `k²`; the unit sphere has area `4π`; a sphere in a sphere has no greater area, and a smaller one unless the radii are equal;
a sphere in a box has no greater area than the box, and a box in a sphere no greater area than the sphere. -/
theorem c94_sphere (s : Sphere) (hs : 0 ≤ s.radius) (k : ℝ) :
    (⟨s.center, k * s.radius⟩ : Sphere).surfaceArea Real.pi = k * k * s.surfaceArea Real.pi ∧ (⟨s.center, 1⟩ : Sphere).surfaceArea Real.pi = 4 * Real.pi ∧
    (∀ t : Sphere, t.contains s = true → s.surfaceArea Real.pi ≤ t.surfaceArea Real.pi ∧ (s.radius ≠ t.radius → s.surfaceArea Real.pi < t.surfaceArea Real.pi)) ∧
    (∀ b : Aabb3 ℝ, b.containsSphere s = true → s.surfaceArea Real.pi ≤ b.surfaceArea) ∧
    (∀ b : Aabb3 ℝ, b.Valid → s.containsAabb b = true → b.surfaceArea ≤ s.surfaceArea Real.pi) := by
  have hp := Real.pi_gt_three
  have hp4 := Real.pi_le_four
  have e : ∀ t : Sphere, t.surfaceArea Real.pi = 4 * Real.pi * (t.radius * t.radius) := by intro t; simp only [Sphere.surfaceArea]; ring
  refine ⟨by simp only [e]; ring, by simp only [e]; ring, ?_, ?_, ?_⟩
  · intro t ht
    have hr : s.radius ≤ t.radius := by
      simp only [Sphere.contains, decide_eq_true_eq] at ht
      linarith [V3.norm_nonneg (s.center - t.center)]
    rw [e, e]
    constructor
    · exact mul_le_mul_of_nonneg_left (mul_self_le_mul_self hs hr) (by linarith)
    · intro hne
      exact mul_lt_mul_of_pos_left (mul_self_lt_mul_self hs (lt_of_le_of_ne hr hne)) (by linarith)
  · intro b hb
    simp only [Aabb3.containsSphere, Bool.and_eq_true, decide_eq_true_eq] at hb
    obtain ⟨⟨⟨⟨⟨h1, h2⟩, h3⟩, h4⟩, h5⟩, h6⟩ := hb
    rw [e]
    have hx : 2 * s.radius ≤ b.max.x - b.min.x := by linarith
    have hy : 2 * s.radius ≤ b.max.y - b.min.y := by linarith
    have hz : 2 * s.radius ≤ b.max.z - b.min.z := by linarith
    have h2r : 0 ≤ 2 * s.radius := by linarith
    have p1 := mul_le_mul hx hy h2r (h2r.trans hx)
    have p2 := mul_le_mul hx hz h2r (h2r.trans hx)
    have p3 := mul_le_mul hy hz h2r (h2r.trans hy)
    have p4 : Real.pi * (s.radius * s.radius) ≤ 4 * (s.radius * s.radius) := mul_le_mul_of_nonneg_right hp4 (mul_self_nonneg _)
    simp only [Aabb3.surfaceArea, Aabb3.dim, V3.sub_x, V3.sub_y, V3.sub_z]
    have p5 := mul_self_nonneg s.radius
    linarith
  · intro b hv hb
    rw [Sphere.containsAabb, List.all_eq_true] at hb
    have q1 := hb b.min (by simp [Aabb3.toCorners])
    have q2 := hb b.max (by simp [Aabb3.toCorners])
    rw [Bool.not_eq_true'] at q1 q2
    replace q1 := not_lt.1 (of_decide_eq_false q1)
    replace q2 := not_lt.1 (of_decide_eq_false q2)
    simp only [V3.dot, V3.sub_x, V3.sub_y, V3.sub_z] at q1 q2
    rw [e]
    have p4 : 3 * (s.radius * s.radius) ≤ Real.pi * (s.radius * s.radius) := mul_le_mul_of_nonneg_right hp.le (mul_self_nonneg _)
    simp only [Aabb3.surfaceArea, Aabb3.dim, V3.sub_x, V3.sub_y, V3.sub_z]
    have s1 := mul_self_nonneg ((b.max.x - b.min.x) - (b.max.y - b.min.y))
    have s2 := mul_self_nonneg ((b.max.x - b.min.x) - (b.max.z - b.min.z))
    have s3 := mul_self_nonneg ((b.max.y - b.min.y) - (b.max.z - b.min.z))
    have t1 := mul_self_nonneg ((s.center.x - b.min.x) + (s.center.x - b.max.x))
    have t2 := mul_self_nonneg ((s.center.y - b.min.y) + (s.center.y - b.max.y))
    have t3 := mul_self_nonneg ((s.center.z - b.min.z) + (s.center.z - b.max.z))
    have p5 := mul_self_nonneg s.radius
    linarith

/-- The unit sphere, the sphere of radius 2 and the cube around it, and the box `[-1/2, 1/2]³` in it. -/
example : (⟨⟨0, 0, 0⟩, 2⟩ : Sphere).contains ⟨⟨0, 0, 0⟩, 1⟩ = true ∧ (⟨⟨-1, -1, -1⟩, ⟨1, 1, 1⟩⟩ : Aabb3 ℝ).containsSphere ⟨⟨0, 0, 0⟩, 1⟩ = true ∧
    (⟨⟨0, 0, 0⟩, 1⟩ : Sphere).containsAabb ⟨⟨-1 / 2, -1 / 2, -1 / 2⟩, ⟨1 / 2, 1 / 2, 1 / 2⟩⟩ = true := by
  refine ⟨?_, ?_, ?_⟩
  · simp [Sphere.contains, V3.norm, V3.dot]
  · simp [Aabb3.containsSphere]
  · simp only [Sphere.containsAabb, Aabb3.toCorners, List.all_cons, List.all_nil, V3.dot, V3.sub_x, V3.sub_y, V3.sub_z]; norm_num
end
end Verif.Geom
