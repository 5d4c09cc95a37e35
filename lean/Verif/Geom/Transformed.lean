import Verif.Res
import Verif.Geom.Transform
import Verif.Geom.Line
import Verif.Geom.Sphere
/-!
# Ray tests on transformed shapes: model of `src/ray.rs:107-143`; C60
-/
namespace Verif.Geom
open Verif
set_option linter.unusedSectionVars false

section
variable {K : Type} [Field K] [LinearOrder K]

/-- `DiscreteTransformed<Ray2>::intersects_transformed`, `src/ray.rs:115-120`; `test` is the shape's `Discrete<Ray2>`; `unwrap` on a
transform without inverse panics. -/
def intersectsTransformed2 (test : Ray2 K → Bool) (r : Ray2 K) (T : Tr (V2 K)) : Res Bool := do
  let i ← Res.ofOption T.inv
  return test (r.transform i.1 i.2)
/-- `intersects_transformed` (3D), `src/ray.rs:115-120` -/
def intersectsTransformed3 (test : Ray3 K → Bool) (r : Ray3 K) (T : Tr (V3 K)) : Res Bool := do
  let i ← Res.ofOption T.inv
  return test (r.transform i.1 i.2)
/-- `ContinuousTransformed<Ray2>::intersection_transformed`, `src/ray.rs:132-142`; `test` is the shape's `Continuous<Ray2>` -/
def intersectionTransformed2 (test : Ray2 K → Option (V2 K)) (r : Ray2 K) (T : Tr (V2 K)) : Res (Option (V2 K)) := do
  let i ← Res.ofOption T.inv
  return (test (r.transform i.1 i.2)).map T.point
/-- `intersection_transformed` (3D), `src/ray.rs:132-142` -/
def intersectionTransformed3 (test : Ray3 K → Option (V3 K)) (r : Ray3 K) (T : Tr (V3 K)) : Res (Option (V3 K)) := do
  let i ← Res.ofOption T.inv
  return (test (r.transform i.1 i.2)).map T.point

/-- Specification: `S` transformed by `T`. -/
def Image {P : Type} (T : Tr P) (S : P → Prop) (w : P) : Prop := ∃ p, S p ∧ w = T.point p

/-- Specification: `t` is the parameter of the first point of the ray in `S`. -/
def Ray2.First (r : Ray2 K) (S : V2 K → Prop) (t : K) : Prop := 0 ≤ t ∧ S (r.at t) ∧ ∀ u, 0 ≤ u → S (r.at u) → t ≤ u
/-- Specification: `t` is the parameter of the first point of the ray in `S`. -/
def Ray3.First (r : Ray3 K) (S : V3 K → Prop) (t : K) : Prop := 0 ≤ t ∧ S (r.at t) ∧ ∀ u, 0 ≤ u → S (r.at u) → t ≤ u

/-- Specification: on the ray `r`, `test` finds the first point of `S`. -/
def Exact2 (test : Ray2 K → Option (V2 K)) (S : V2 K → Prop) (r : Ray2 K) : Prop :=
  (test r = none ↔ ¬ ∃ t, 0 ≤ t ∧ S (r.at t)) ∧ ∀ p, test r = some p → ∃ t, r.First S t ∧ p = r.at t
/-- Specification: on the ray `r`, `test` finds the first point of `S`. -/
def Exact3 (test : Ray3 K → Option (V3 K)) (S : V3 K → Prop) (r : Ray3 K) : Prop :=
  (test r = none ↔ ¬ ∃ t, 0 ≤ t ∧ S (r.at t)) ∧ ∀ p, test r = some p → ∃ t, r.First S t ∧ p = r.at t

theorem image2 {T : Tr (V2 K)} {ip iv : V2 K → V2 K} (h : Invertible2 T ip iv) (S : V2 K → Prop) (r : Ray2 K) (t : K) :
    S ((r.transform ip iv).at t) ↔ Image T S (r.at t) := by
  have e : (r.transform ip iv).at t = ip (r.at t) := by simp only [Ray2.at, Ray2.transform, h.iaffine]
  rw [e]
  constructor
  · intro hs; exact ⟨_, hs, (h.right _).symm⟩
  · rintro ⟨p, hp, he⟩; rw [he, h.left]; exact hp

theorem image3 {T : Tr (V3 K)} {ip iv : V3 K → V3 K} (h : Invertible3 T ip iv) (S : V3 K → Prop) (r : Ray3 K) (t : K) :
    S ((r.transform ip iv).at t) ↔ Image T S (r.at t) := by
  have e : (r.transform ip iv).at t = ip (r.at t) := by simp only [Ray3.at, Ray3.transform, h.iaffine]
  rw [e]
  constructor
  · intro hs; exact ⟨_, hs, (h.right _).symm⟩
  · rintro ⟨p, hp, he⟩; rw [he, h.left]; exact hp

theorem world2 {T : Tr (V2 K)} {ip iv : V2 K → V2 K} (h : Invertible2 T ip iv) (r : Ray2 K) (t : K) :
    T.point ((r.transform ip iv).at t) = r.at t := by
  have e : (r.transform ip iv).at t = ip (r.at t) := by simp only [Ray2.at, Ray2.transform, h.iaffine]
  rw [e, h.right]

theorem world3 {T : Tr (V3 K)} {ip iv : V3 K → V3 K} (h : Invertible3 T ip iv) (r : Ray3 K) (t : K) :
    T.point ((r.transform ip iv).at t) = r.at t := by
  have e : (r.transform ip iv).at t = ip (r.at t) := by simp only [Ray3.at, Ray3.transform, h.iaffine]
  rw [e, h.right]

/-- C60 (2D), any shape: if the shape's own test is exact on the ray moved into the local frame, the transformed test finds the first
point of the (world) ray in the transformed shape. -/
theorem c60_intersection2 (test : Ray2 K → Option (V2 K)) (S : V2 K → Prop) (r : Ray2 K) {T : Tr (V2 K)} {ip iv : V2 K → V2 K}
    (h : Invertible2 T ip iv) (hex : Exact2 test S (r.transform ip iv)) :
    ∃ o, intersectionTransformed2 test r T = .ok o ∧ (o = none ↔ ¬ ∃ t, 0 ≤ t ∧ Image T S (r.at t)) ∧
      ∀ p, o = some p → ∃ t, r.First (Image T S) t ∧ p = r.at t := by
  refine ⟨_, by simp only [intersectionTransformed2, h.inv_eq, Res.ofOption_some, Res.bind_ok]; rfl, ?_, ?_⟩
  · rw [Option.map_eq_none_iff, hex.1]; simp only [image2 h]
  · intro p hp
    obtain ⟨q, hq, rfl⟩ := Option.map_eq_some_iff.1 hp
    obtain ⟨t, ⟨h1, h2, h3⟩, rfl⟩ := hex.2 q hq
    simp only [image2 h] at h2 h3
    exact ⟨t, ⟨h1, h2, h3⟩, world2 h r t⟩

/-- C60 (3D), any shape. -/
theorem c60_intersection3 (test : Ray3 K → Option (V3 K)) (S : V3 K → Prop) (r : Ray3 K) {T : Tr (V3 K)} {ip iv : V3 K → V3 K}
    (h : Invertible3 T ip iv) (hex : Exact3 test S (r.transform ip iv)) :
    ∃ o, intersectionTransformed3 test r T = .ok o ∧ (o = none ↔ ¬ ∃ t, 0 ≤ t ∧ Image T S (r.at t)) ∧
      ∀ p, o = some p → ∃ t, r.First (Image T S) t ∧ p = r.at t := by
  refine ⟨_, by simp only [intersectionTransformed3, h.inv_eq, Res.ofOption_some, Res.bind_ok]; rfl, ?_, ?_⟩
  · rw [Option.map_eq_none_iff, hex.1]; simp only [image3 h]
  · intro p hp
    obtain ⟨q, hq, rfl⟩ := Option.map_eq_some_iff.1 hp
    obtain ⟨t, ⟨h1, h2, h3⟩, rfl⟩ := hex.2 q hq
    simp only [image3 h] at h2 h3
    exact ⟨t, ⟨h1, h2, h3⟩, world3 h r t⟩

/-- C60 (2D), discrete test. -/
theorem c60_intersects2 (test : Ray2 K → Bool) (S : V2 K → Prop) (r : Ray2 K) {T : Tr (V2 K)} {ip iv : V2 K → V2 K}
    (h : Invertible2 T ip iv) (hex : test (r.transform ip iv) = true ↔ ∃ t, 0 ≤ t ∧ S ((r.transform ip iv).at t)) :
    ∃ o, intersectsTransformed2 test r T = .ok o ∧ (o = true ↔ ∃ t, 0 ≤ t ∧ Image T S (r.at t)) := by
  refine ⟨_, by simp only [intersectsTransformed2, h.inv_eq, Res.ofOption_some, Res.bind_ok]; rfl, ?_⟩
  rw [hex]; simp only [image2 h]

/-- C60 (3D), discrete test. -/
theorem c60_intersects3 (test : Ray3 K → Bool) (S : V3 K → Prop) (r : Ray3 K) {T : Tr (V3 K)} {ip iv : V3 K → V3 K}
    (h : Invertible3 T ip iv) (hex : test (r.transform ip iv) = true ↔ ∃ t, 0 ≤ t ∧ S ((r.transform ip iv).at t)) :
    ∃ o, intersectsTransformed3 test r T = .ok o ∧ (o = true ↔ ∃ t, 0 ≤ t ∧ Image T S (r.at t)) := by
  refine ⟨_, by simp only [intersectsTransformed3, h.inv_eq, Res.ofOption_some, Res.bind_ok]; rfl, ?_⟩
  rw [hex]; simp only [image3 h]

/-- Without inverse the transformed tests panic (documented by the `unwrap`). -/
theorem c60_singular (test : Ray3 K → Option (V3 K)) (test' : Ray3 K → Bool) (r : Ray3 K) (D : Dec3 K) (h : D.scale = 0) :
    intersectionTransformed3 test r D.tr = .panic ∧ intersectsTransformed3 test' r D.tr = .panic := by
  simp [intersectionTransformed3, intersectsTransformed3, Dec3.tr, h]

variable [IsStrictOrderedRing K]

/-- Specification: the points of a segment. -/
def Line2.Mem (l : Line2 K) (p : V2 K) : Prop := ∃ u, 0 ≤ u ∧ u ≤ 1 ∧ p = l.at u

theorem segment_exact (l : Line2 K) (r : Ray2 K) (hd : r.direction ≠ 0) : Exact2 l.intersectionRay l.Mem r := by
  obtain ⟨h1, h2⟩ := c44_ray_segment r l hd
  refine ⟨h1, ?_⟩
  intro p hp
  obtain ⟨t, rfl, ht, hf⟩ := h2 p hp
  exact ⟨t, ⟨ht.1, ht.2, fun u hu hs => hf u ⟨hu, hs⟩⟩, rfl⟩

theorem inv_direction2 {T : Tr (V2 K)} {ip iv : V2 K → V2 K} (h : Invertible2 T ip iv) (r : Ray2 K) (hd : r.direction ≠ 0) :
    (r.transform ip iv).direction ≠ 0 := by
  intro e
  have h1 := world2 h r 0
  have h2 := world2 h r 1
  have hz : ∀ t, (r.transform ip iv).at t = (r.transform ip iv).origin := by
    intro t; simp only [Ray2.at, e]; ext <;> simp
  rw [hz] at h1 h2
  rw [h1] at h2
  apply hd
  have hx := congrArg V2.x h2
  have hy := congrArg V2.y h2
  simp [Ray2.at] at hx hy
  ext
  · simpa using hx
  · simpa using hy

/-- C60 for segments under every invertible affine transform. -/
theorem c60_segment (l : Line2 K) (r : Ray2 K) (hd : r.direction ≠ 0) {T : Tr (V2 K)} {ip iv : V2 K → V2 K} (h : Invertible2 T ip iv) :
    ∃ o, intersectionTransformed2 l.intersectionRay r T = .ok o ∧ (o = none ↔ ¬ ∃ t, 0 ≤ t ∧ Image T l.Mem (r.at t)) ∧
      ∀ p, o = some p → ∃ t, r.First (Image T l.Mem) t ∧ p = r.at t :=
  c60_intersection2 _ _ r h (segment_exact l _ (inv_direction2 h r hd))

theorem inv_direction3 {T : Tr (V3 K)} {ip iv : V3 K → V3 K} (h : Invertible3 T ip iv) (r : Ray3 K) (hd : r.direction ≠ 0) :
    (r.transform ip iv).direction ≠ 0 := by
  intro e
  have h1 := world3 h r 0
  have h2 := world3 h r 1
  have hz : ∀ t, (r.transform ip iv).at t = (r.transform ip iv).origin := by
    intro t; simp only [Ray3.at, e]; ext <;> simp
  rw [hz] at h1 h2
  rw [h1] at h2
  apply hd
  have hx := congrArg V3.x h2
  have hy := congrArg V3.y h2
  have hz := congrArg V3.z h2
  simp [Ray3.at] at hx hy hz
  ext
  · simpa using hx
  · simpa using hy
  · simpa using hz

/-- C60 for 2D boxes under every invertible affine transform: a hit means the ray meets the transformed box; meeting the image of the
interior of the box means a hit (rays that only run along the boundary are documented as misses, C30). -/
theorem c60_box2 (b : Aabb2 K) (hb : b.Valid) (r : Ray2 K) (hd : r.direction ≠ 0) {T : Tr (V2 K)} {ip iv : V2 K → V2 K} (h : Invertible2 T ip iv) :
    ∃ o, intersectsTransformed2 (fun r => r.intersectsAabb b) r T = .ok o ∧
      (o = true → ∃ t, 0 ≤ t ∧ Image T b.Mem (r.at t)) ∧ ((∃ t, 0 ≤ t ∧ Image T b.IMem (r.at t)) → o = true) := by
  refine ⟨_, by simp only [intersectsTransformed2, h.inv_eq, Res.ofOption_some, Res.bind_ok]; rfl, ?_⟩
  obtain ⟨h1, h2, -⟩ := c30_ray_aabb2 (r.transform ip iv) b hb (inv_direction2 h r hd)
  rw [h2, Option.isSome_iff_ne_none, ne_eq, h1, not_not]
  constructor
  · rintro ⟨t, ht⟩
    exact ⟨t, ht.1, (image2 h _ _ _).1 ht.2.1⟩
  · rintro ⟨t, t0, ht⟩
    have hm := (image2 h _ _ _).2 ht
    refine ⟨t, t0, ⟨⟨hm.1.1.le, hm.1.2.le⟩, hm.2.1.le, hm.2.2.le⟩, ?_, ?_⟩
    · intro e
      have := hm.1
      simp only [Ray2.at, V2.add_x, V2.mul_x, e, zero_mul, add_zero] at this
      exact this
    · intro e
      have := hm.2
      simp only [Ray2.at, V2.add_y, V2.mul_y, e, zero_mul, add_zero] at this
      exact this

/-- C60 for 3D boxes of positive extent under every invertible affine transform. -/
theorem c60_box3 (nz : V3 Bool) (b : Aabb3 K) (hb : b.Pos) (r : Ray3 K) (hd : r.direction ≠ 0) {T : Tr (V3 K)} {ip iv : V3 K → V3 K} (h : Invertible3 T ip iv) :
    ∃ o, intersectsTransformed3 (fun r => r.intersectsAabb nz b) r T = .ok o ∧
      (o = true → ∃ t, 0 ≤ t ∧ Image T b.Mem (r.at t)) ∧ ((∃ t, 0 ≤ t ∧ Image T b.IMem (r.at t)) → o = true) := by
  refine ⟨_, by simp only [intersectsTransformed3, h.inv_eq, Res.ofOption_some, Res.bind_ok]; rfl, ?_⟩
  obtain ⟨h1, h2, -⟩ := c31_ray_aabb3 nz (r.transform ip iv) b ⟨hb.1.le, hb.2.1.le, hb.2.2.le⟩ (inv_direction3 h r hd)
    (fun _ => hb.1) (fun _ => hb.2.1) (fun _ => hb.2.2)
  rw [h2, Option.isSome_iff_ne_none, ne_eq, h1, not_not]
  constructor
  · rintro ⟨t, ht⟩
    exact ⟨t, ht.1, (image3 h _ _ _).1 ht.2.1⟩
  · rintro ⟨t, t0, ht⟩
    have hm := (image3 h _ _ _).2 ht
    refine ⟨t, t0, ⟨⟨hm.1.1.le, hm.1.2.le⟩, ⟨hm.2.1.1.le, hm.2.1.2.le⟩, hm.2.2.1.le, hm.2.2.2.le⟩, ?_, ?_, ?_⟩
    · intro e
      have := hm.1
      simp only [Ray3.at, V3.add_x, V3.mul_x, e, zero_mul, add_zero] at this
      exact this
    · intro e
      have := hm.2.1
      simp only [Ray3.at, V3.add_y, V3.mul_y, e, zero_mul, add_zero] at this
      exact this
    · intro e
      have := hm.2.2
      simp only [Ray3.at, V3.add_z, V3.mul_z, e, zero_mul, add_zero] at this
      exact this

/-- A segment turned by a 3-4-5 rotation, scaled by 2 and moved, hit in its first point. -/
example : (⟨2, ⟨⟨3 / 5, 4 / 5⟩, ⟨-4 / 5, 3 / 5⟩⟩, ⟨1, 1⟩⟩ : Dec2 ℚ).rot.Orthogonal ∧
    (⟨2, ⟨⟨3 / 5, 4 / 5⟩, ⟨-4 / 5, 3 / 5⟩⟩, ⟨1, 1⟩⟩ : Dec2 ℚ).scale ≠ 0 ∧
    intersectionTransformed2 (⟨⟨0, 0⟩, ⟨5, 0⟩⟩ : Line2 ℚ).intersectionRay ⟨⟨4, 0⟩, ⟨0, 1⟩⟩
      (⟨2, ⟨⟨3 / 5, 4 / 5⟩, ⟨-4 / 5, 3 / 5⟩⟩, ⟨1, 1⟩⟩ : Dec2 ℚ).tr = .ok (some ⟨4, 5⟩) := by
  unfold M2.Orthogonal
  decide +kernel
end

noncomputable section

/-- C60 for spheres under rotations and translations (any invertible affine map that keeps the length of the direction): rays of unit
direction that start outside (C37). -/
theorem c60_sphere_partial (s : Sphere) (hr : 0 ≤ s.radius) (r : Ray3 ℝ) {T : Tr (V3 ℝ)} {ip iv : V3 ℝ → V3 ℝ} (h : Invertible3 T ip iv)
    (hd : (iv r.direction).norm = 1) (hout : ¬ Image T s.Mem r.origin) :
    ∃ o, intersectionTransformed3 s.intersectionRay r T = .ok o ∧ (o = none ↔ ¬ ∃ t, 0 ≤ t ∧ Image T s.Mem (r.at t)) ∧
      ∀ p, o = some p → ∃ t, r.First (Image T s.Mem) t ∧ p = r.at t := by
  apply c60_intersection3 _ _ r h
  have ho : ¬ s.Mem (r.transform ip iv).origin := by
    intro hm
    exact hout ⟨_, hm, (h.right _).symm⟩
  obtain ⟨h1, h2⟩ := c37_first_hit_partial s hr (r.transform ip iv) hd ho
  refine ⟨h1, ?_⟩
  intro p hp
  obtain ⟨t, t0, rfl, hs, hf⟩ := h2 p hp
  exact ⟨t, ⟨t0, le_of_eq hs, hf⟩, rfl⟩

/-- The inverse of a `Decomposed` of scale one keeps lengths. -/
theorem Dec3.iso_length (D : Dec3 ℝ) (ho : D.rot.Orthogonal) (hs : D.scale = 1) (v : V3 ℝ) :
    (D.rot.transpose.apply (v * (1 / D.scale))).norm = v.norm := by
  obtain ⟨-, h⟩ := ho
  have e := h v
  rw [hs]
  have : (D.rot.transpose.apply (v * (1 / 1 : ℝ))).dot (D.rot.transpose.apply (v * (1 / 1 : ℝ))) = v.dot v := by
    have hv : v * (1 / 1 : ℝ) = v := by ext <;> simp
    rw [hv]
    have : ∀ w : V3 ℝ, (D.rot.transpose.apply v).dot w = v.dot (D.rot.apply w) := by
      intro w; simp only [M3.apply, M3.transpose, V3.dot, V3.add_x, V3.add_y, V3.add_z, V3.mul_x, V3.mul_y, V3.mul_z]; ring
    rw [this, e]
  rw [V3.norm, V3.norm, this]

/-- C60 for spheres under a `Decomposed` of scale one. -/
theorem c60_sphere_decomposed_partial (s : Sphere) (hr : 0 ≤ s.radius) (r : Ray3 ℝ) (D : Dec3 ℝ) (ho : D.rot.Orthogonal) (hs : D.scale = 1)
    (hd : r.direction.norm = 1) (hout : ¬ Image D.tr s.Mem r.origin) :
    ∃ o, intersectionTransformed3 s.intersectionRay r D.tr = .ok o ∧ (o = none ↔ ¬ ∃ t, 0 ≤ t ∧ Image D.tr s.Mem (r.at t)) ∧
      ∀ p, o = some p → ∃ t, r.First (Image D.tr s.Mem) t ∧ p = r.at t := by
  obtain ⟨ip, iv, hi⟩ := D.invertible ho (by rw [hs]; norm_num)
  apply c60_sphere_partial s hr r hi _ hout
  have h1 := hi.inv_eq
  simp only [Dec3.tr, hs, one_ne_zero, if_false, Option.some.injEq, Prod.mk.injEq] at h1
  have h2 := D.iso_length ho hs r.direction
  rw [hs, hd] at h2
  rw [← h1.2]; exact h2

/-- C60 does not hold for spheres under a scaling transform: the local direction is not of unit length, which the sphere's ray test
assumes.  A ray through the centre of a sphere scaled by 2 is reported as a miss. -/
theorem c60_false : ∃ (s : Sphere) (r : Ray3 ℝ) (D : Dec3 ℝ), 0 < s.radius ∧ r.direction.norm = 1 ∧ D.rot.Orthogonal ∧ 0 < D.scale ∧
    (∃ t, 0 ≤ t ∧ Image D.tr s.Mem (r.at t)) ∧ intersectionTransformed3 s.intersectionRay r D.tr = .ok none ∧
    intersectsTransformed3 s.intersectsRay r D.tr = .ok false := by
  refine ⟨⟨⟨0, 0, 0⟩, 1⟩, ⟨⟨-10, 0, 0⟩, ⟨1, 0, 0⟩⟩, ⟨2, ⟨⟨1, 0, 0⟩, ⟨0, 1, 0⟩, ⟨0, 0, 1⟩⟩, ⟨0, 0, 0⟩⟩, by norm_num, by simp [V3.norm, V3.dot],
    ?_, by norm_num, ⟨10, by norm_num, ⟨0, 0, 0⟩, ?_, ?_⟩, ?_, ?_⟩
  · refine ⟨by simp [V3.dot], ?_⟩
    intro v; ext <;> simp [M3.apply, M3.transpose]
  · simp [Sphere.Mem, V3.norm, V3.dot]
  · ext <;> simp [Ray3.at, Dec3.tr, M3.apply]
  · have : (2 : ℝ) ≠ 0 := by norm_num
    simp only [intersectionTransformed3, Dec3.tr, if_neg this, Res.ofOption_some, Res.bind_ok]
    simp [Sphere.intersectionRay, Ray3.transform, M3.apply, M3.transpose, V3.dot]
    norm_num
  · have : (2 : ℝ) ≠ 0 := by norm_num
    simp only [intersectsTransformed3, Dec3.tr, if_neg this, Res.ofOption_some, Res.bind_ok]
    simp [Sphere.intersectsRay, Ray3.transform, M3.apply, M3.transpose, V3.dot]
    norm_num
end

end Verif.Geom
