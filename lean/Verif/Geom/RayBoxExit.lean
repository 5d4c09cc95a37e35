import Verif.Geom.RayBox
import Verif.Primitive.Props
/-!
# Which end of the common stretch a ray/box test reports (C30, C31, C61), origin on the boundary included
-/
namespace Verif.Geom
open Ext
set_option linter.unusedSectionVars false
variable {K : Type} [Field K] [LinearOrder K] [IsStrictOrderedRing K]

/-- C30, every origin: the reported point is the last one of the ray in the box if the line is in the box somewhere behind the origin, and the
first one otherwise.  (So from inside it is the exit, and from a point of a face where the ray enters it is the origin itself.) -/
theorem c30_which2 (r : Ray2 K) (b : Aabb2 K) (hb : b.Valid) (hd : r.direction ≠ 0) {q : V2 (Ext K)} (hq : r.intersectionAabb b = some q) :
    ∃ t, r.Meets b t ∧ q = (r.at t).toExt ∧
      ((∃ u < 0, b.Mem (r.at u)) → ∀ u, b.Mem (r.at u) → u ≤ t) ∧
      ((¬ ∃ u < 0, b.Mem (r.at u)) → ∀ u, b.Mem (r.at u) → t ≤ u) := by
  unfold Ray2.intersectionAabb at hq
  rcases r.slabs_spec b hb hd with ⟨e, hn⟩ | ⟨tmin, tmax, e, n1, n2, hs, f1, f2⟩
  · rw [e] at hq; simp at hq
  · rw [e] at hq
    obtain ⟨d1, d2, d3⟩ := decide_spec (r.LineIn b) n1 n2 hs f1 f2
    simp only [Option.bind_some] at hq
    have hc : ((lt tmin (fin 0) && lt tmax (fin 0)) || lt tmax tmin) = false := by
      cases h : ((lt tmin (fin 0) && lt tmax (fin 0)) || lt tmax tmin) with
      | false => rfl
      | true => simp [h] at hq
    obtain ⟨t', h0, hp⟩ := d1.1 hc
    obtain ⟨t, k1, k2, k3, k4, k5⟩ := d3 t' h0 hp
    have hmt := (r.meets_iff b t).2 ⟨k2, k3⟩
    have hmem : ∀ u, b.Mem (r.at u) → r.LineIn b u := by
      intro u hu
      have := hmt.2.2
      simp only [Ray2.LineIn, InSlab, Aabb2.Mem, Ray2.at, V2.add_x, V2.add_y, V2.mul_x, V2.mul_y] at hu ⊢
      tauto
    have hmem' : ∀ u, r.LineIn b u → b.Mem (r.at u) := by
      intro u hu
      simp only [Ray2.LineIn, InSlab, Aabb2.Mem, Ray2.at, V2.add_x, V2.add_y, V2.mul_x, V2.mul_y] at hu ⊢
      tauto
    refine ⟨t, hmt, ?_, ?_, ?_⟩
    · simp only [hc, k1, atE2] at hq
      simp at hq
      exact hq.symm
    · rintro ⟨v, v0, hv⟩ u hu
      exact k4 ⟨v, v0, hmem v hv⟩ u (hmem u hu)
    · intro hno u hu
      have u0 : 0 ≤ u := by
        by_contra h; exact hno ⟨u, not_le.1 h, hu⟩
      exact k5 (fun ⟨v, v0, hv⟩ => hno ⟨v, v0, hmem' v hv⟩) u u0 (hmem u hu)

/-- C31, every origin (3D). -/
theorem c31_which3 (nz : V3 Bool) (r : Ray3 K) (b : Aabb3 K) (hb : b.Valid) (hd : r.direction ≠ 0)
    {q : V3 (Ext K)} (hq : r.intersectionAabb nz b = some q) :
    ∃ t, r.MeetsF b t ∧ q = (r.at t).toExt ∧
      ((∃ u < 0, b.Mem (r.at u)) → ∀ u, b.Mem (r.at u) → u ≤ t) ∧
      ((¬ ∃ u < 0, b.Mem (r.at u)) → ∀ u, b.Mem (r.at u) → t ≤ u) := by
  unfold Ray3.intersectionAabb at hq
  obtain ⟨tmin, tmax, e, n1, n2, hs, f1, f2⟩ := r.slabs_specF nz b hb hd
  rw [e] at hq
  dsimp only at hq
  obtain ⟨d1, d2, d3⟩ := decide_spec (r.LineInF b) n1 n2 hs f1 f2
  have hc : ((lt tmin (fin 0) && lt tmax (fin 0)) || lt tmax tmin) = false := by
    cases h : ((lt tmin (fin 0) && lt tmax (fin 0)) || lt tmax tmin) with
    | false => rfl
    | true => simp [h] at hq
  obtain ⟨t', h0, hp⟩ := d1.1 hc
  obtain ⟨t, k1, k2, k3, k4, k5⟩ := d3 t' h0 hp
  have hmt := (r.meetsF_iff b t).2 ⟨k2, k3⟩
  have hmem : ∀ u, b.Mem (r.at u) ↔ r.LineInF b u := by
    intro u
    have := hmt.2.2
    obtain ⟨c1, c2, c3⟩ := this
    simp only [Ray3.LineInF, InSlabF, Aabb3.Mem, Ray3.at, V3.add_x, V3.add_y, V3.add_z, V3.mul_x, V3.mul_y, V3.mul_z]
    constructor
    · rintro ⟨m1, m2, m3⟩
      exact ⟨⟨m1, c1⟩, ⟨m2, c2⟩, m3, c3⟩
    · rintro ⟨m1, m2, m3⟩
      exact ⟨m1.1, m2.1, m3.1⟩
  simp only [hmem]
  refine ⟨t, hmt, ?_, k4, ?_⟩
  · simp only [hc, k1, atE3] at hq
    simp at hq
    exact hq.symm
  · intro hno u hu
    have u0 : 0 ≤ u := by
      by_contra h; exact hno ⟨u, not_le.1 h, hu⟩
    exact k5 hno u u0 hu
end Verif.Geom

namespace Verif.Primitive
open Verif Geom Ext
set_option linter.unusedSectionVars false
variable {K : Type} [Field K] [LinearOrder K] [IsStrictOrderedRing K]

/-- C61, which point is reported by rectangles and squares: the last one of the ray in the shape if the line is in the shape behind the origin
(in particular if the origin is inside), else the first one. -/
theorem c61_which2 (w h : K) (hw : 0 ≤ w) (hh : 0 ≤ h) (r : Ray2 K) (hd : r.direction ≠ 0) :
    (∀ q, (Rectangle.new w h).intersectionRay r = some q → ∃ t, 0 ≤ t ∧ q = (r.at t).toExt ∧ InRect w h (r.at t) ∧
      ((∃ u < 0, InRect w h (r.at u)) → ∀ u, InRect w h (r.at u) → u ≤ t) ∧
      ((¬ ∃ u < 0, InRect w h (r.at u)) → ∀ u, InRect w h (r.at u) → t ≤ u)) ∧
    (∀ q, (Square.new w).intersectionRay r = some q → ∃ t, 0 ≤ t ∧ q = (r.at t).toExt ∧ InRect w w (r.at t) ∧
      ((∃ u < 0, InRect w w (r.at u)) → ∀ u, InRect w w (r.at u) → u ≤ t) ∧
      ((¬ ∃ u < 0, InRect w w (r.at u)) → ∀ u, InRect w w (r.at u) → t ≤ u)) := by
  have main : ∀ w h : K, 0 ≤ w → 0 ≤ h → ∀ q, r.intersectionAabb (Rectangle.new w h).bound = some q →
      ∃ t, 0 ≤ t ∧ q = (r.at t).toExt ∧ InRect w h (r.at t) ∧
      ((∃ u < 0, InRect w h (r.at u)) → ∀ u, InRect w h (r.at u) → u ≤ t) ∧
      ((¬ ∃ u < 0, InRect w h (r.at u)) → ∀ u, InRect w h (r.at u) → t ≤ u) := by
    intro w h hw hh q hq
    have hb := rect_bound w h hw hh
    obtain ⟨t, ht, e, h1, h2⟩ := c30_which2 r _ (by rw [hb]; exact ⟨by simp; linarith, by simp; linarith⟩) hd hq
    rw [hb] at ht h1 h2
    exact ⟨t, ht.1, e, ht.2.1, h1, h2⟩
  exact ⟨main w h hw hh, main w w hw hw⟩

/-- C61, which point is reported by cuboids, cubes and quads. -/
theorem c61_which3 (nz : V3 Bool) (w h l : K) (hw : 0 ≤ w) (hh : 0 ≤ h) (hl : 0 ≤ l) (r : Ray3 K) (hd : r.direction ≠ 0) :
    (∀ q, (Cuboid.new w h l).intersectionRay nz r = some q → ∃ t, 0 ≤ t ∧ q = (r.at t).toExt ∧ InBox w h l (r.at t) ∧
      ((∃ u < 0, InBox w h l (r.at u)) → ∀ u, InBox w h l (r.at u) → u ≤ t) ∧
      ((¬ ∃ u < 0, InBox w h l (r.at u)) → ∀ u, InBox w h l (r.at u) → t ≤ u)) ∧
    (∀ q, (Cube.new w).intersectionRay nz r = some q → ∃ t, 0 ≤ t ∧ q = (r.at t).toExt ∧ InBox w w w (r.at t) ∧
      ((∃ u < 0, InBox w w w (r.at u)) → ∀ u, InBox w w w (r.at u) → u ≤ t) ∧
      ((¬ ∃ u < 0, InBox w w w (r.at u)) → ∀ u, InBox w w w (r.at u) → t ≤ u)) ∧
    (∀ q, (Quad.new w h).intersectionRay nz r = some q → ∃ t, 0 ≤ t ∧ q = (r.at t).toExt ∧ InQuad w h (r.at t) ∧
      ((∃ u < 0, InQuad w h (r.at u)) → ∀ u, InQuad w h (r.at u) → u ≤ t) ∧
      ((¬ ∃ u < 0, InQuad w h (r.at u)) → ∀ u, InQuad w h (r.at u) → t ≤ u)) := by
  have main : ∀ w h l : K, 0 ≤ w → 0 ≤ h → 0 ≤ l → ∀ q, r.intersectionAabb nz (Cuboid.new w h l).bound = some q →
      ∃ t, 0 ≤ t ∧ q = (r.at t).toExt ∧ InBox w h l (r.at t) ∧
      ((∃ u < 0, InBox w h l (r.at u)) → ∀ u, InBox w h l (r.at u) → u ≤ t) ∧
      ((¬ ∃ u < 0, InBox w h l (r.at u)) → ∀ u, InBox w h l (r.at u) → t ≤ u) := by
    intro w h l hw hh hl q hq
    have hb := box_bound w h l hw hh hl
    obtain ⟨t, ht, e, h1, h2⟩ := c31_which3 nz r _ (by rw [hb]; exact ⟨by simp; linarith, by simp; linarith, by simp; linarith⟩) hd hq
    rw [hb] at ht h1 h2
    exact ⟨t, ht.1, e, ht.2.1, h1, h2⟩
  refine ⟨main w h l hw hh hl, main w w w hw hw hw, ?_⟩
  intro q hq
  have hb := quad_bound w h hw hh
  have hmem : ∀ p, (Quad.new w h).bound.Mem p ↔ InQuad w h p := by
    intro p
    rw [hb]
    exact ⟨fun m => ⟨m.1, m.2.1, le_antisymm m.2.2.2 m.2.2.1⟩, fun m => ⟨m.1, m.2.1, m.2.2.ge, m.2.2.le⟩⟩
  obtain ⟨t, ht, e, h1, h2⟩ := c31_which3 nz r _ (by rw [hb]; exact ⟨by simp; linarith, by simp; linarith, le_rfl⟩) hd hq
  simp only [hmem] at h1 h2
  exact ⟨t, ht.1, e, (hmem _).1 ht.2.1, h1, h2⟩

/-- From inside, from a face inwards and from outside. -/
example : (Rectangle.new (2 : ℚ) 2).intersectionRay ⟨⟨0, 0⟩, ⟨1, 0⟩⟩ = some (V2.toExt ⟨1, 0⟩) ∧
    (Rectangle.new (2 : ℚ) 2).intersectionRay ⟨⟨-1, 0⟩, ⟨1, 0⟩⟩ = some (V2.toExt ⟨-1, 0⟩) ∧
    (Rectangle.new (2 : ℚ) 2).intersectionRay ⟨⟨-3, 0⟩, ⟨1, 0⟩⟩ = some (V2.toExt ⟨-1, 0⟩) := by
  decide +kernel
end Verif.Primitive
