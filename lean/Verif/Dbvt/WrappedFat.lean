import Verif.Dbvt.VolumeTree
/-!
# The fat bound of `TreeValueWrapped`, exactly (C59)

`c59_wrapped2` and its kin say that the fat bound contains the bound. Here: it is the bound grown by the margin on every side, no more and no less.
-/
namespace Verif.Dbvt
open Verif Geom
set_option linter.unusedSectionVars false
section
variable {V K : Type} [Field K] [LinearOrder K] [IsStrictOrderedRing K]

/-- **C59, 2D boxes**: a point is in the fat bound exactly when it is within the margin of the bound, on each axis; so a larger margin gives a larger fat bound, and one margin after another adds up. -/
theorem c59_fat2 (w : Wrapped V (Aabb2 K) (V2 K)) (hb : w.bound.Valid) (hx : 0 ≤ w.margin.x) (hy : 0 ≤ w.margin.y) (p : V2 K) :
    (w.fat Aabb2.addMargin).Mem p ↔ (w.bound.min.x - w.margin.x ≤ p.x ∧ p.x ≤ w.bound.max.x + w.margin.x) ∧ (w.bound.min.y - w.margin.y ≤ p.y ∧ p.y ≤ w.bound.max.y + w.margin.y) := by
  obtain ⟨h1, h2⟩ := hb
  have e1 : w.bound.min.x - w.margin.x ≤ w.bound.max.x + w.margin.x := by linarith
  have e2 : w.bound.min.y - w.margin.y ≤ w.bound.max.y + w.margin.y := by linarith
  simp only [Wrapped.fat, Aabb2.addMargin, Aabb2.new, pmin_eq, pmax_eq, Aabb2.Mem, min_eq_left e1, max_eq_right e1, min_eq_left e2, max_eq_right e2]
/-- **C59, 3D boxes.** -/
theorem c59_fat3 (w : Wrapped V (Aabb3 K) (V3 K)) (hb : w.bound.Valid) (hx : 0 ≤ w.margin.x) (hy : 0 ≤ w.margin.y) (hz : 0 ≤ w.margin.z) (p : V3 K) :
    (w.fat Aabb3.addMargin).Mem p ↔ (w.bound.min.x - w.margin.x ≤ p.x ∧ p.x ≤ w.bound.max.x + w.margin.x) ∧ (w.bound.min.y - w.margin.y ≤ p.y ∧ p.y ≤ w.bound.max.y + w.margin.y) ∧
      (w.bound.min.z - w.margin.z ≤ p.z ∧ p.z ≤ w.bound.max.z + w.margin.z) := by
  obtain ⟨h1, h2, h3⟩ := hb
  have e1 : w.bound.min.x - w.margin.x ≤ w.bound.max.x + w.margin.x := by linarith
  have e2 : w.bound.min.y - w.margin.y ≤ w.bound.max.y + w.margin.y := by linarith
  have e3 : w.bound.min.z - w.margin.z ≤ w.bound.max.z + w.margin.z := by linarith
  simp only [Wrapped.fat, Aabb3.addMargin, Aabb3.new, pmin_eq, pmax_eq, Aabb3.Mem, min_eq_left e1, max_eq_right e1, min_eq_left e2, max_eq_right e2, min_eq_left e3, max_eq_right e3]
/-- **C59, spheres**: the radius grows by the largest component of the margin. -/
theorem c59_fat_sphere (w : Wrapped V Sphere (V3 ℝ)) (p : V3 ℝ) :
    (w.fat Sphere.withMargin).Mem p ↔ (p - w.bound.center).norm ≤ w.bound.radius + max w.margin.x (max w.margin.y w.margin.z) := by
  rw [← max_assoc]
  exact Iff.rfl
/-- A case: margin 1 and 2 around a box. -/
example : ((⟨(), ⟨⟨0, 0⟩, ⟨3, 3⟩⟩, ⟨1, 2⟩⟩ : Wrapped Unit (Aabb2 ℚ) (V2 ℚ)).fat Aabb2.addMargin).Mem ⟨4, -2⟩ ∧
    ¬ ((⟨(), ⟨⟨0, 0⟩, ⟨3, 3⟩⟩, ⟨1, 2⟩⟩ : Wrapped Unit (Aabb2 ℚ) (V2 ℚ)).fat Aabb2.addMargin).Mem ⟨5, 0⟩ := by
  constructor
  · rw [c59_fat2 _ (by norm_num [Aabb2.Valid]) (by norm_num) (by norm_num)]
    norm_num
  · rw [c59_fat2 _ (by norm_num [Aabb2.Valid]) (by norm_num) (by norm_num)]
    norm_num
end
end Verif.Dbvt
