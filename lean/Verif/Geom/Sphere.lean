import Verif.Geom.RealVec
/-!
# Bounding sphere: model of `src/volume/sphere.rs` and of the sphere parts of `aabb3.rs`; C33-C37
-/
namespace Verif.Geom
noncomputable section
set_option linter.unusedSectionVars false

/-- `Sphere` (bounding volume), `src/volume/sphere.rs:16-21` -/
@[ext] structure Sphere where
  center : V3 ℝ
  radius : ℝ

namespace Sphere
/-- `min_extent`, `src/volume/sphere.rs:29-31` -/
def minExtent (s : Sphere) : V3 ℝ := s.center + V3.fromValue (-s.radius)
/-- `max_extent`, `src/volume/sphere.rs:33-35` -/
def maxExtent (s : Sphere) : V3 ℝ := s.center + V3.fromValue s.radius
/-- `with_margin`, `src/volume/sphere.rs:37-43` -/
def withMargin (s : Sphere) (add : V3 ℝ) : Sphere := ⟨s.center, s.radius + max (max add.x add.y) add.z⟩
/-- `transform_volume`, `src/volume/sphere.rs:45-53`; `T` is `Transform::transform_point` -/
def transformVolume (s : Sphere) (T : V3 ℝ → V3 ℝ) : Sphere := ⟨T s.center, s.radius⟩
/-- `empty`, `src/volume/sphere.rs:55-60` -/
def empty : Sphere := ⟨0, 0⟩

/-- `Continuous<Ray3>`, `src/volume/sphere.rs:65-79` -/
def intersectionRay (s : Sphere) (r : Ray3 ℝ) : Option (V3 ℝ) :=
  let l := s.center - r.origin
  let tca := l.dot r.direction
  if tca < 0 then none else
  let d2 := l.dot l - tca * tca
  if d2 > s.radius * s.radius then none else
  let thc := Real.sqrt (s.radius * s.radius - d2)
  some (r.origin + r.direction * (tca - thc))
/-- `Discrete<Ray3>`, `src/volume/sphere.rs:83-92` -/
def intersectsRay (s : Sphere) (r : Ray3 ℝ) : Bool :=
  let l := s.center - r.origin
  let tca := l.dot r.direction
  if tca < 0 then false else
  let d2 := l.dot l - tca * tca
  d2 ≤ s.radius * s.radius
/-- `Discrete<Sphere>`, `src/volume/sphere.rs:96-103` -/
def intersects (s1 s2 : Sphere) : Bool :=
  let distance := (s2.center - s1.center).dot (s2.center - s1.center)
  let radiuses := s1.radius + s2.radius
  distance ≤ radiuses * radiuses
/-- `Contains<Aabb3>`, `src/volume/sphere.rs:122-130` -/
def containsAabb (s : Sphere) (b : Aabb3 ℝ) : Bool :=
  b.toCorners.all fun c => !decide (s.radius * s.radius < (s.center - c).dot (s.center - c))
/-- `Contains<Point3>`, `src/volume/sphere.rs:135-137` -/
def containsPoint (s : Sphere) (p : V3 ℝ) : Bool := (p - s.center).dot (p - s.center) ≤ s.radius * s.radius
/-- `Contains<Line3>`, `src/volume/sphere.rs:142-144` -/
def containsLine (s : Sphere) (l : Line3 ℝ) : Bool := s.containsPoint l.origin && s.containsPoint l.dest
/-- `Contains<Sphere>`, `src/volume/sphere.rs:149-152` -/
def contains (s o : Sphere) : Bool := (o.center - s.center).norm + o.radius ≤ s.radius
/-- `Union`, `src/volume/sphere.rs:158-173` -/
def union (s o : Sphere) : Sphere :=
  if s.contains o then s else
  if o.contains s then o else
  let diff := o.center - s.center
  let diffS := diff.norm
  let radius := (s.radius + o.radius + diffS) / (1 + 1)
  { radius := radius, center := s.center + diff * (radius - s.radius) / diffS }
/-- `SurfaceArea`, `src/volume/sphere.rs:203-212`; `pi` is the constant `std::f64::consts::PI` converted to the scalar type. -/
def surfaceArea (pi : ℝ) (s : Sphere) : ℝ := (1 + 1 + (1 + 1)) * pi * s.radius * s.radius
end Sphere

/-- `Aabb3: Contains<Sphere>`, `src/volume/aabb/aabb3.rs:139-146` -/
def Aabb3.containsSphere (b : Aabb3 ℝ) (s : Sphere) : Bool :=
  b.min.x ≤ s.center.x - s.radius && b.min.y ≤ s.center.y - s.radius && b.min.z ≤ s.center.z - s.radius &&
  s.center.x + s.radius ≤ b.max.x && s.center.y + s.radius ≤ b.max.y && s.center.z + s.radius ≤ b.max.z
/-- `Aabb3: Union<Sphere>`, `src/volume/aabb/aabb3.rs:167-174` -/
def Aabb3.unionSphere (b : Aabb3 ℝ) (s : Sphere) : Aabb3 ℝ :=
  (b.grow ⟨s.center.x - s.radius, s.center.y - s.radius, s.center.z - s.radius⟩).grow
    (s.center + V3.fromValue s.radius)
/-- `Sphere: Union<Aabb3>`, `src/volume/sphere.rs:179-198`. Where the two centres coincide the code divides
by zero (NaN centre); here the real quotient is 0 and theorems exclude that case. -/
def Sphere.unionAabb (s : Sphere) (b : Aabb3 ℝ) : Sphere :=
  if s.containsAabb b then s else
  let aabbRadius := (b.center - b.max).norm
  if b.containsSphere s then ⟨b.center, aabbRadius⟩ else
  let diff := b.center - s.center
  let diffS := (s.center - b.center).norm
  let radius := (s.radius + aabbRadius + diffS) / (1 + 1)
  { center := s.center + diff * (radius - s.radius) / diffS, radius := radius }

/-! ## Specification vocabulary -/

/-- Specification: `p` is in the closed ball. -/
def Sphere.Mem (s : Sphere) (p : V3 ℝ) : Prop := (p - s.center).norm ≤ s.radius
/-- Specification: `p` is on the surface. -/
def Sphere.OnSurface (s : Sphere) (p : V3 ℝ) : Prop := (p - s.center).norm = s.radius

theorem Sphere.mem_iff {s : Sphere} (hr : 0 ≤ s.radius) (p : V3 ℝ) :
    s.Mem p ↔ (p - s.center).dot (p - s.center) ≤ s.radius * s.radius := V3.norm_le_iff _ hr

theorem Sphere.Mem.interp {s : Sphere} {p q : V3 ℝ} {t : ℝ} (h0 : 0 ≤ t) (h1 : t ≤ 1) (hp : s.Mem p)
    (hq : s.Mem q) : s.Mem (p + (q - p) * t) := by
  unfold Sphere.Mem at *
  have : p + (q - p) * t - s.center = (p - s.center) * (1 - t) + (q - s.center) * t := by
    ext <;> simp <;> ring
  rw [this]
  refine (V3.norm_add_le _ _).trans ?_
  rw [V3.norm_smul, V3.norm_smul, abs_of_nonneg h0, abs_of_nonneg (by linarith : 0 ≤ 1 - t)]
  nlinarith

/-! ## C33 -/

/-- C33: point and segment containment are membership. -/
theorem c33_point (s : Sphere) (hr : 0 ≤ s.radius) :
    (∀ p, s.containsPoint p = true ↔ s.Mem p) ∧
    (∀ l : Line3 ℝ, s.containsLine l = true ↔ ∀ t : ℝ, 0 ≤ t → t ≤ 1 → s.Mem (l.origin + (l.dest - l.origin) * t)) := by
  have h1 : ∀ p, s.containsPoint p = true ↔ s.Mem p := by
    intro p; rw [Sphere.mem_iff hr]; simp [Sphere.containsPoint]
  refine ⟨h1, fun l => ?_⟩
  simp only [Sphere.containsLine, Bool.and_eq_true, h1]
  constructor
  · rintro ⟨ho, hd⟩ t t0 t1
    exact ho.interp t0 t1 hd
  · intro h
    have a := h 0 le_rfl zero_le_one
    have b := h 1 zero_le_one le_rfl
    have e1 : l.origin + (l.dest - l.origin) * (0 : ℝ) = l.origin := by ext <;> simp
    have e2 : l.origin + (l.dest - l.origin) * (1 : ℝ) = l.dest := by ext <;> simp
    rw [e1] at a; rw [e2] at b
    exact ⟨a, b⟩

/-- A point of the ball `o` at distance `|o.center - c| + o.radius` from `c`. -/
theorem far_point (o : Sphere) (hr : 0 ≤ o.radius) (c : V3 ℝ) :
    ∃ p, o.Mem p ∧ (p - c).norm = (o.center - c).norm + o.radius := by
  by_cases h : o.center - c = 0
  · refine ⟨o.center + ⟨o.radius, 0, 0⟩, ?_, ?_⟩
    · unfold Sphere.Mem
      have : o.center + ⟨o.radius, 0, 0⟩ - o.center = (⟨1, 0, 0⟩ : V3 ℝ) * o.radius := by ext <;> simp
      rw [this, V3.norm_smul, abs_of_nonneg hr]
      simp [V3.norm, V3.dot]
    · have : o.center + ⟨o.radius, 0, 0⟩ - c = (⟨1, 0, 0⟩ : V3 ℝ) * o.radius := by
        have hx := congrArg V3.x h; have hy := congrArg V3.y h; have hz := congrArg V3.z h
        simp at hx hy hz
        ext <;> simp <;> linarith
      rw [this, V3.norm_smul, abs_of_nonneg hr, (V3.norm_eq_zero _).2 h]
      simp [V3.norm, V3.dot]
  · have hp := V3.norm_pos h
    refine ⟨o.center + (o.center - c).normalizeTo o.radius, ?_, ?_⟩
    · unfold Sphere.Mem
      have : o.center + (o.center - c).normalizeTo o.radius - o.center = (o.center - c).normalizeTo o.radius := by
        ext <;> simp
      rw [this, V3.norm_normalizeTo h hr]
    · have : o.center + (o.center - c).normalizeTo o.radius - c = (o.center - c) * (1 + o.radius / (o.center - c).norm) := by
        ext <;> simp [V3.normalizeTo] <;> ring
      rw [this, V3.norm_smul, abs_of_nonneg (by positivity)]
      field_simp

/-- C33: sphere containment is inclusion of closed balls. -/
theorem c33_sphere (s o : Sphere) (ho : 0 ≤ o.radius) :
    s.contains o = true ↔ ∀ p, o.Mem p → s.Mem p := by
  simp only [Sphere.contains, decide_eq_true_eq]
  constructor
  · intro h p hp
    unfold Sphere.Mem at *
    linarith [V3.norm_tri p o.center s.center]
  · intro h
    obtain ⟨p, hp, e⟩ := far_point o ho s.center
    have := h p hp
    unfold Sphere.Mem at this
    linarith

/-- C33: box containment is inclusion of the closed box in the closed ball. -/
theorem c33_box (s : Sphere) (hr : 0 ≤ s.radius) (b : Aabb3 ℝ) (hb : b.Valid) :
    s.containsAabb b = true ↔ ∀ p, b.Mem p → s.Mem p := by
  have hc : s.containsAabb b = true ↔ ∀ c ∈ b.toCorners, s.Mem c := by
    simp only [Sphere.containsAabb, List.all_eq_true, Bool.not_eq_true', decide_eq_false_iff_not, not_lt]
    refine forall₂_congr fun c _ => ?_
    rw [Sphere.mem_iff hr]
    have : (s.center - c).dot (s.center - c) = (c - s.center).dot (c - s.center) := by simp [V3.dot]; ring
    rw [this]
  rw [hc]
  constructor
  · intro h p hp
    exact b.induct s.Mem (fun p q t t0 t1 hp hq => hp.interp t0 t1 hq) h hp
  · intro h c hc
    apply h
    obtain ⟨h1, h2, h3⟩ := hb
    simp only [Aabb3.toCorners, List.mem_cons, List.not_mem_nil, or_false] at hc
    rcases hc with rfl | rfl | rfl | rfl | rfl | rfl | rfl | rfl <;> simp [Aabb3.Mem, *]

/-- C33: `Aabb3::contains(sphere)` is inclusion of the closed ball in the closed box. -/
theorem c33_box_sphere (b : Aabb3 ℝ) (s : Sphere) (hr : 0 ≤ s.radius) :
    b.containsSphere s = true ↔ ∀ p, s.Mem p → b.Mem p := by
  simp only [Aabb3.containsSphere, Bool.and_eq_true, decide_eq_true_eq]
  constructor
  · rintro ⟨⟨⟨⟨⟨h1, h2⟩, h3⟩, h4⟩, h5⟩, h6⟩ p hp
    unfold Sphere.Mem at hp
    have hx := abs_le.1 ((V3.abs_x_le _).trans hp)
    have hy := abs_le.1 ((V3.abs_y_le _).trans hp)
    have hz := abs_le.1 ((V3.abs_z_le _).trans hp)
    simp at hx hy hz
    exact ⟨⟨by linarith, by linarith⟩, ⟨by linarith, by linarith⟩, by linarith, by linarith⟩
  · intro h
    have key : ∀ v : V3 ℝ, v.norm = 1 → ∀ e : ℝ, |e| = 1 → b.Mem (s.center + v * (e * s.radius)) := by
      intro v hv e he
      apply h
      unfold Sphere.Mem
      have : s.center + v * (e * s.radius) - s.center = v * (e * s.radius) := by ext <;> simp
      rw [this, V3.norm_smul, hv, abs_mul, he, abs_of_nonneg hr]; simp
    have nx : (⟨1, 0, 0⟩ : V3 ℝ).norm = 1 := by simp [V3.norm, V3.dot]
    have ny : (⟨0, 1, 0⟩ : V3 ℝ).norm = 1 := by simp [V3.norm, V3.dot]
    have nz : (⟨0, 0, 1⟩ : V3 ℝ).norm = 1 := by simp [V3.norm, V3.dot]
    have x1 := (key _ nx 1 (by simp)).1.2
    have x2 := (key _ nx (-1) (by simp)).1.1
    have y1 := (key _ ny 1 (by simp)).2.1.2
    have y2 := (key _ ny (-1) (by simp)).2.1.1
    have z1 := (key _ nz 1 (by simp)).2.2.2
    have z2 := (key _ nz (-1) (by simp)).2.2.1
    simp at x1 x2 y1 y2 z1 z2
    refine ⟨⟨⟨⟨⟨?_, ?_⟩, ?_⟩, ?_⟩, ?_⟩, ?_⟩ <;> linarith

/-! ## C34 -/

theorem between_centers {a b : V3 ℝ} (h : (b - a).norm ≠ 0) (k : ℝ) :
    (a + (b - a) * k / (b - a).norm - a).norm = |k| ∧ (a + (b - a) * k / (b - a).norm - b).norm = |(b - a).norm - k| := by
  have hp : 0 < (b - a).norm := lt_of_le_of_ne (V3.norm_nonneg _) (Ne.symm h)
  constructor
  · have : a + (b - a) * k / (b - a).norm - a = (b - a) * (k / (b - a).norm) := by
      ext <;> simp <;> ring
    rw [this, V3.norm_smul, abs_div, abs_of_pos hp]; field_simp
  · have : a + (b - a) * k / (b - a).norm - b = (a - b) * (((b - a).norm - k) / (b - a).norm) := by
      ext <;> simp <;> field_simp <;> ring
    rw [this, V3.norm_smul, abs_div, abs_of_pos hp, V3.norm_sub_comm a b]; field_simp

/-- C34: the union of two spheres with non-negative radii contains both closed balls, and no ball that
contains both has a smaller radius. -/
theorem c34_union (s o : Sphere) (hs : 0 ≤ s.radius) (ho : 0 ≤ o.radius) :
    (∀ p, s.Mem p → (s.union o).Mem p) ∧ (∀ p, o.Mem p → (s.union o).Mem p) ∧
    (∀ w : Sphere, (∀ p, s.Mem p → w.Mem p) → (∀ p, o.Mem p → w.Mem p) → (s.union o).radius ≤ w.radius) := by
  rw [← c33_sphere _ _ hs, ← c33_sphere _ _ ho]
  have hw : ∀ w : Sphere, (∀ p, s.Mem p → w.Mem p) → (∀ p, o.Mem p → w.Mem p) →
      s.radius ≤ w.radius ∧ o.radius ≤ w.radius ∧ s.radius + o.radius + (o.center - s.center).norm ≤ w.radius + w.radius := by
    intro w h1 h2
    rw [← c33_sphere _ _ hs] at h1
    rw [← c33_sphere _ _ ho] at h2
    simp only [Sphere.contains, decide_eq_true_eq] at h1 h2
    have := V3.norm_tri o.center w.center s.center
    rw [V3.norm_sub_comm w.center] at this
    have := V3.norm_nonneg (s.center - w.center)
    have := V3.norm_nonneg (o.center - w.center)
    refine ⟨?_, ?_, ?_⟩ <;> linarith
  by_cases h1 : s.contains o = true
  · have e : s.union o = s := by simp [Sphere.union, h1]
    rw [e]
    refine ⟨by simp [Sphere.contains, V3.norm, V3.dot], h1, fun w a b => (hw w a b).1⟩
  by_cases h2 : o.contains s = true
  · have e : s.union o = o := by simp [Sphere.union, h1, h2]
    rw [e]
    exact ⟨h2, by simp [Sphere.contains, V3.norm, V3.dot], fun w a b => (hw w a b).2.1⟩
  have hd : (o.center - s.center).norm ≠ 0 := by
    intro h0
    simp only [Sphere.contains, decide_eq_true_eq, h0] at h1 h2
    rw [V3.norm_sub_comm, h0] at h2
    linarith
  have e : s.union o = ⟨s.center + (o.center - s.center) * ((s.radius + o.radius + (o.center - s.center).norm) / (1 + 1) - s.radius) / (o.center - s.center).norm,
      (s.radius + o.radius + (o.center - s.center).norm) / (1 + 1)⟩ := by simp [Sphere.union, h1, h2]
  rw [e]
  simp only [Sphere.contains, decide_eq_true_eq, not_le] at h1 h2 ⊢
  rw [V3.norm_sub_comm s.center o.center] at h2
  obtain ⟨k1, k2⟩ := between_centers hd ((s.radius + o.radius + (o.center - s.center).norm) / (1 + 1) - s.radius)
  rw [V3.norm_sub_comm] at k1 k2
  rw [k1, k2, abs_of_nonneg (by linarith), abs_of_nonneg (by linarith)]
  refine ⟨by linarith, by linarith, fun w a b => ?_⟩
  have := (hw w a b).2.2
  linarith

/-- Two disjoint unit balls: the union is the ball of radius 5/2 around the midpoint. -/
example : (⟨⟨0, 0, 0⟩, 1⟩ : Sphere).union ⟨⟨3, 0, 0⟩, 1⟩ = ⟨⟨3 / 2, 0, 0⟩, 5 / 2⟩ := by
  have hn : ((⟨3, 0, 0⟩ : V3 ℝ) - ⟨0, 0, 0⟩).norm = 3 := by
    simp [V3.norm, V3.dot]
  have hn' : ((⟨0, 0, 0⟩ : V3 ℝ) - ⟨3, 0, 0⟩).norm = 3 := by
    rw [V3.norm_sub_comm, hn]
  have a : (⟨⟨0, 0, 0⟩, 1⟩ : Sphere).contains ⟨⟨3, 0, 0⟩, 1⟩ = false := by
    simp only [Sphere.contains, hn]; norm_num
  have b : (⟨⟨3, 0, 0⟩, 1⟩ : Sphere).contains ⟨⟨0, 0, 0⟩, 1⟩ = false := by
    simp only [Sphere.contains, hn']; norm_num
  simp only [Sphere.union, a, b, hn]
  ext <;> simp <;> norm_num

/-! ## C35 -/

/-- C35: `Aabb3::union(sphere)` contains the box and the ball. -/
theorem c35_box_union_sphere (b : Aabb3 ℝ) (hb : b.Valid) (s : Sphere) (hr : 0 ≤ s.radius) :
    (∀ p, b.Mem p → (b.unionSphere s).Mem p) ∧ (∀ p, s.Mem p → (b.unionSphere s).Mem p) := by
  have e : b.unionSphere s = b.union ⟨⟨s.center.x - s.radius, s.center.y - s.radius, s.center.z - s.radius⟩,
      s.center + V3.fromValue s.radius⟩ := rfl
  obtain ⟨h1, h2, h3⟩ := c25_union_contains3 b ⟨⟨s.center.x - s.radius, s.center.y - s.radius, s.center.z - s.radius⟩,
      s.center + V3.fromValue s.radius⟩
  rw [e]
  refine ⟨(c26_contains3 _ _ hb).1 h2, ?_⟩
  rw [← c33_box_sphere _ _ hr]
  simp only [Aabb3.contains, Bool.and_eq_true, decide_eq_true_eq] at h3
  obtain ⟨⟨⟨⟨⟨g1, g2⟩, g3⟩, g4⟩, g5⟩, g6⟩ := h3
  simp only [V3.add_x, V3.add_y, V3.add_z, V3.fromValue] at g4 g5 g6
  simp only [Aabb3.containsSphere, Bool.and_eq_true, decide_eq_true_eq]
  exact ⟨⟨⟨⟨⟨g1, g2⟩, g3⟩, g4⟩, g5⟩, g6⟩

/-- Every point of a box is within the half diagonal of its centre. -/
theorem box_in_circum {b : Aabb3 ℝ} {p : V3 ℝ} (hp : b.Mem p) : (p - b.center).norm ≤ (b.center - b.max).norm := by
  obtain ⟨⟨h1, h2⟩, ⟨h3, h4⟩, h5, h6⟩ := hp
  rw [V3.norm_sub_comm b.center]
  apply Real.sqrt_le_sqrt
  have aux : ∀ lo hi x : ℝ, lo ≤ x → x ≤ hi → (x - (lo + (hi - lo) / (1 + 1))) * (x - (lo + (hi - lo) / (1 + 1))) ≤
      (hi - (lo + (hi - lo) / (1 + 1))) * (hi - (lo + (hi - lo) / (1 + 1))) := by
    intro lo hi x a b; nlinarith
  have a := aux _ _ _ h1 h2
  have b := aux _ _ _ h3 h4
  have c := aux _ _ _ h5 h6
  simp only [V3.dot, Aabb3.center, Aabb3.dim, V3.sub_x, V3.sub_y, V3.sub_z, V3.add_x, V3.add_y, V3.add_z, V3.div_x, V3.div_y, V3.div_z]
  linarith

/-- C35 for `Sphere::union(aabb)`, under a condition: one of the two contains the other, or the centres differ and the
half diagonal of the box is at most the radius plus the distance of the centres (missing: a sphere that lies inside the
circumscribed sphere of the box without lying in the box, where the property is false, see `c35_false`). -/
theorem c35_sphere_union_box_partial (s : Sphere) (hr : 0 ≤ s.radius) (b : Aabb3 ℝ) (hb : b.Valid)
    (h : (∀ p, b.Mem p → s.Mem p) ∨ (∀ p, s.Mem p → b.Mem p) ∨
      (s.center ≠ b.center ∧ (b.max - b.center).norm ≤ s.radius + (b.center - s.center).norm)) :
    (∀ p, b.Mem p → (s.unionAabb b).Mem p) ∧ (∀ p, s.Mem p → (s.unionAabb b).Mem p) := by
  rw [← c33_box s hr b hb, ← c33_box_sphere b s hr] at h
  by_cases h1 : s.containsAabb b = true
  · have e : s.unionAabb b = s := by simp [Sphere.unionAabb, h1]
    rw [e]
    exact ⟨(c33_box s hr b hb).1 h1, fun _ => id⟩
  by_cases h2 : b.containsSphere s = true
  · have e : s.unionAabb b = ⟨b.center, (b.center - b.max).norm⟩ := by simp [Sphere.unionAabb, h1, h2]
    rw [e]
    exact ⟨fun p hp => box_in_circum hp, fun p hp => box_in_circum ((c33_box_sphere b s hr).1 h2 p hp)⟩
  obtain ⟨hne, hrad⟩ := (h.resolve_left h1).resolve_left h2
  have hd : (b.center - s.center).norm ≠ 0 := by
    intro h0
    have := (V3.norm_eq_zero _).1 h0
    apply hne
    have hx := congrArg V3.x this; have hy := congrArg V3.y this; have hz := congrArg V3.z this
    simp at hx hy hz
    ext <;> linarith
  have e : s.unionAabb b = ⟨s.center + (b.center - s.center) * ((s.radius + (b.center - b.max).norm + (b.center - s.center).norm) / (1 + 1) - s.radius) / (b.center - s.center).norm,
      (s.radius + (b.center - b.max).norm + (b.center - s.center).norm) / (1 + 1)⟩ := by
    simp [Sphere.unionAabb, h1, h2, V3.norm_sub_comm s.center]
  have hbig : s.radius < (b.center - b.max).norm + (b.center - s.center).norm := by
    by_contra hc
    push Not at hc
    apply h1
    rw [c33_box s hr b hb]
    intro p hp
    have := box_in_circum hp
    have := V3.norm_tri p b.center s.center
    unfold Sphere.Mem
    linarith
  rw [V3.norm_sub_comm] at hrad
  obtain ⟨k1, k2⟩ := between_centers hd ((s.radius + (b.center - b.max).norm + (b.center - s.center).norm) / (1 + 1) - s.radius)
  rw [abs_of_nonneg (by linarith)] at k1 k2
  constructor
  · intro p hp
    have a1 := box_in_circum hp
    have a2 := V3.norm_tri p b.center (s.unionAabb b).center
    rw [e] at a2 ⊢
    unfold Sphere.Mem
    rw [V3.norm_sub_comm b.center (s.center + _)] at a2
    simp only at a2 ⊢
    rw [k2] at a2
    linarith
  · intro p hp
    have a2 := V3.norm_tri p s.center (s.unionAabb b).center
    unfold Sphere.Mem at hp
    rw [e] at a2 ⊢
    unfold Sphere.Mem
    rw [V3.norm_sub_comm s.center (s.center + _)] at a2
    simp only at a2 ⊢
    rw [k1] at a2
    linarith

/-- C35 as stated is false for `Sphere::union(aabb)`: the unit sphere around (1,0,0) and the box with half
dimensions (1,2,2) around the origin; the corner (1,2,2) is not in the union. -/
theorem c35_false : ∃ (s : Sphere) (b : Aabb3 ℝ) (p : V3 ℝ), 0 < s.radius ∧ b.Valid ∧ b.Pos ∧ s.center ≠ b.center ∧ b.Mem p ∧
    ¬ (s.unionAabb b).Mem p := by
  have e1 : (⟨⟨-1, -2, -2⟩, ⟨1, 2, 2⟩⟩ : Aabb3 ℝ).center = ⟨0, 0, 0⟩ := by
    ext <;> simp [Aabb3.center, Aabb3.dim] <;> norm_num
  have e2 : ((⟨0, 0, 0⟩ : V3 ℝ) - ⟨1, 2, 2⟩).norm = 3 := by
    have : (9 : ℝ) = 3 * 3 := by norm_num
    simp only [V3.norm, V3.dot, V3.sub_x, V3.sub_y, V3.sub_z]
    norm_num
    rw [this, Real.sqrt_mul_self (by norm_num)]
  have e3 : ((⟨1, 0, 0⟩ : V3 ℝ) - ⟨0, 0, 0⟩).norm = 1 := by simp [V3.norm, V3.dot]
  have c1 : (⟨⟨1, 0, 0⟩, 1⟩ : Sphere).containsAabb ⟨⟨-1, -2, -2⟩, ⟨1, 2, 2⟩⟩ = false := by
    simp [Sphere.containsAabb, Aabb3.toCorners, V3.dot]; norm_num
  have c2 : (⟨⟨-1, -2, -2⟩, ⟨1, 2, 2⟩⟩ : Aabb3 ℝ).containsSphere ⟨⟨1, 0, 0⟩, 1⟩ = false := by
    simp [Aabb3.containsSphere]
  refine ⟨⟨⟨1, 0, 0⟩, 1⟩, ⟨⟨-1, -2, -2⟩, ⟨1, 2, 2⟩⟩, ⟨1, 2, 2⟩, by norm_num, ⟨by norm_num, by norm_num, by norm_num⟩,
    ⟨by norm_num, by norm_num, by norm_num⟩, ?_, ⟨⟨by norm_num, by norm_num⟩, ⟨by norm_num, by norm_num⟩, by norm_num, by norm_num⟩, ?_⟩
  · rw [e1]; intro h; have := congrArg V3.x h; simp at this
  · have e : (⟨⟨1, 0, 0⟩, 1⟩ : Sphere).unionAabb ⟨⟨-1, -2, -2⟩, ⟨1, 2, 2⟩⟩ = ⟨⟨-1 / 2, 0, 0⟩, 5 / 2⟩ := by
      simp only [Sphere.unionAabb, c1, c2, e1, e2, e3]
      ext <;> simp <;> norm_num
    rw [e, Sphere.mem_iff (by norm_num)]
    simp [V3.dot]; norm_num

/-- The condition of `c35_sphere_union_box_partial` is met by a sphere and a box that do not contain one another. -/
example : ∃ (s : Sphere) (b : Aabb3 ℝ), 0 ≤ s.radius ∧ b.Valid ∧ s.center ≠ b.center ∧
    (b.max - b.center).norm ≤ s.radius + (b.center - s.center).norm ∧ s.containsAabb b = false := by
  have e1 : (⟨⟨-1, -2, -2⟩, ⟨1, 2, 2⟩⟩ : Aabb3 ℝ).center = ⟨0, 0, 0⟩ := by
    ext <;> simp [Aabb3.center, Aabb3.dim] <;> norm_num
  have e2 : ((⟨1, 2, 2⟩ : V3 ℝ) - ⟨0, 0, 0⟩).norm = 3 := by
    have : (9 : ℝ) = 3 * 3 := by norm_num
    simp only [V3.norm, V3.dot, V3.sub_x, V3.sub_y, V3.sub_z]
    norm_num
    rw [this, Real.sqrt_mul_self (by norm_num)]
  refine ⟨⟨⟨5, 0, 0⟩, 1⟩, ⟨⟨-1, -2, -2⟩, ⟨1, 2, 2⟩⟩, by norm_num, ⟨by norm_num, by norm_num, by norm_num⟩, ?_, ?_, ?_⟩
  · rw [e1]; intro h; have := congrArg V3.x h; simp at this
  · rw [e1, e2]; simp [V3.norm, V3.dot]; norm_num
  · simp [Sphere.containsAabb, Aabb3.toCorners, V3.dot]; norm_num

/-! ## C36 -/

/-- C36: for non-negative radii the sphere test is exact. -/
theorem c36_exact (s o : Sphere) (hs : 0 ≤ s.radius) (ho : 0 ≤ o.radius) :
    s.intersects o = true ↔ ∃ p, s.Mem p ∧ o.Mem p := by
  have hi : s.intersects o = true ↔ (o.center - s.center).norm ≤ s.radius + o.radius := by
    rw [V3.norm_le_iff _ (by linarith)]; simp [Sphere.intersects]
  rw [hi]
  constructor
  · intro h
    by_cases hd : (o.center - s.center).norm = 0
    · have h0 := (V3.norm_eq_zero _).1 hd
      refine ⟨s.center, ?_, ?_⟩
      · simp [Sphere.Mem, V3.norm, V3.dot, hs]
      · unfold Sphere.Mem; rw [V3.norm_sub_comm, hd]; exact ho
    · have hp : 0 < (o.center - s.center).norm := lt_of_le_of_ne (V3.norm_nonneg _) (Ne.symm hd)
      obtain ⟨k1, k2⟩ := between_centers hd (min s.radius (o.center - s.center).norm)
      refine ⟨s.center + (o.center - s.center) * min s.radius (o.center - s.center).norm / (o.center - s.center).norm, ?_, ?_⟩
      · show (_ - s.center).norm ≤ s.radius
        rw [k1, abs_of_nonneg (le_min hs hp.le)]; exact min_le_left _ _
      · show (_ - o.center).norm ≤ o.radius
        rw [k2, abs_of_nonneg (by linarith [min_le_right s.radius (o.center - s.center).norm])]
        rcases min_choice s.radius (o.center - s.center).norm with e | e <;> rw [e] <;> linarith
  · rintro ⟨p, h1, h2⟩
    unfold Sphere.Mem at h1 h2
    have := V3.norm_tri o.center p s.center
    rw [V3.norm_sub_comm o.center p] at this
    linarith

/-- C36: symmetric, and monotone under containment. -/
theorem c36_laws (s o : Sphere) (hs : 0 ≤ s.radius) (ho : 0 ≤ o.radius) :
    (s.intersects o = o.intersects s) ∧
    (∀ w : Sphere, w.contains o = true → s.intersects o = true → s.intersects w = true) := by
  constructor
  · rw [Bool.eq_iff_iff, c36_exact s o hs ho, c36_exact o s ho hs]
    exact ⟨fun ⟨p, a, b⟩ => ⟨p, b, a⟩, fun ⟨p, a, b⟩ => ⟨p, b, a⟩⟩
  · intro w hw h
    have hwr : 0 ≤ w.radius := by
      have : (o.center - w.center).norm + o.radius ≤ w.radius := by simpa [Sphere.contains] using hw
      linarith [V3.norm_nonneg (o.center - w.center)]
    rw [c36_exact _ _ hs ho] at h
    rw [c36_exact _ _ hs hwr]
    obtain ⟨p, a, b⟩ := h
    exact ⟨p, a, (c33_sphere w o ho).1 hw p b⟩

/-- Touching balls intersect; both radii are non-negative. -/
example : (⟨⟨0, 0, 0⟩, 1⟩ : Sphere).intersects ⟨⟨2, 0, 0⟩, 1⟩ = true := by
  simp [Sphere.intersects, V3.dot]; norm_num

/-! ## C37 -/

/-- The quadratic behind the ray/sphere test: `L = |l|²`, `c = l·d`, unit direction. -/
theorem ray_quadratic {L c r : ℝ} (hout : r * r < L) :
    ((∃ t, 0 ≤ t ∧ L - 2 * t * c + t * t ≤ r * r) ↔ 0 ≤ c ∧ L - c * c ≤ r * r) ∧
    (0 ≤ c → L - c * c ≤ r * r →
      let t := c - Real.sqrt (r * r - (L - c * c))
      0 ≤ t ∧ L - 2 * t * c + t * t = r * r ∧ ∀ u, 0 ≤ u → L - 2 * u * c + u * u ≤ r * r → t ≤ u) := by
  have main : 0 ≤ c → L - c * c ≤ r * r →
      let t := c - Real.sqrt (r * r - (L - c * c))
      0 ≤ t ∧ L - 2 * t * c + t * t = r * r ∧ ∀ u, 0 ≤ u → L - 2 * u * c + u * u ≤ r * r → t ≤ u := by
    intro hc hd
    have hsq := Real.mul_self_sqrt (by linarith : 0 ≤ r * r - (L - c * c))
    have hnn := Real.sqrt_nonneg (r * r - (L - c * c))
    generalize Real.sqrt (r * r - (L - c * c)) = q at hsq hnn
    refine ⟨?_, by nlinarith, ?_⟩
    · by_contra hn
      push Not at hn
      nlinarith
    · intro u hu h
      by_contra hn
      push Not at hn
      nlinarith
  refine ⟨⟨?_, ?_⟩, main⟩
  · rintro ⟨t, t0, ht⟩
    refine ⟨?_, by nlinarith [mul_self_nonneg (t - c)]⟩
    by_contra hn
    push Not at hn
    nlinarith [mul_nonneg t0 (neg_nonneg.2 hn.le), mul_self_nonneg t]
  · rintro ⟨h1, h2⟩
    obtain ⟨a, b, -⟩ := main h1 h2
    exact ⟨_, a, b.le⟩

theorem dist_at3 (r : Ray3 ℝ) (hd : r.direction.dot r.direction = 1) (c : V3 ℝ) (t : ℝ) :
    (r.at t - c).dot (r.at t - c) = (c - r.origin).dot (c - r.origin) - 2 * t * (c - r.origin).dot r.direction + t * t := by
  have : t * t = t * t * r.direction.dot r.direction := by rw [hd, mul_one]
  rw [this]
  simp [Ray3.at, V3.dot]; ring

/-- C37 under the condition that the origin is strictly outside the ball (missing: origins inside, where
the property is false, see `c37_false`): `Some` exactly if the ray meets the ball, and the result is the
first point of the ray in the ball, which is on the surface. -/
theorem c37_first_hit_partial (s : Sphere) (hr : 0 ≤ s.radius) (r : Ray3 ℝ) (hd : r.direction.norm = 1)
    (hout : ¬ s.Mem r.origin) :
    (s.intersectionRay r = none ↔ ¬ ∃ t, 0 ≤ t ∧ s.Mem (r.at t)) ∧
    (∀ p, s.intersectionRay r = some p → ∃ t, 0 ≤ t ∧ p = r.at t ∧ s.OnSurface p ∧
      ∀ u, 0 ≤ u → s.Mem (r.at u) → t ≤ u) := by
  have hd1 : r.direction.dot r.direction = 1 := by rw [← V3.norm_sq, hd]; norm_num
  have hmem : ∀ t, s.Mem (r.at t) ↔ (s.center - r.origin).dot (s.center - r.origin) -
      2 * t * (s.center - r.origin).dot r.direction + t * t ≤ s.radius * s.radius := by
    intro t; rw [Sphere.mem_iff hr, dist_at3 r hd1]
  have hL : s.radius * s.radius < (s.center - r.origin).dot (s.center - r.origin) := by
    rw [Sphere.mem_iff hr, not_le] at hout
    have : (s.center - r.origin).dot (s.center - r.origin) = (r.origin - s.center).dot (r.origin - s.center) := by
      simp [V3.dot]; ring
    rw [this]; exact hout
  obtain ⟨q1, q2⟩ := ray_quadratic (c := (s.center - r.origin).dot r.direction) hL
  have hex : (∃ t, 0 ≤ t ∧ s.Mem (r.at t)) ↔ 0 ≤ (s.center - r.origin).dot r.direction ∧
      (s.center - r.origin).dot (s.center - r.origin) - (s.center - r.origin).dot r.direction * (s.center - r.origin).dot r.direction ≤ s.radius * s.radius := by
    rw [← q1]; simp only [hmem]
  rw [hex]
  unfold Sphere.intersectionRay
  dsimp only
  by_cases h1 : (s.center - r.origin).dot r.direction < 0
  · simp [h1]
  by_cases h2 : (s.center - r.origin).dot (s.center - r.origin) - (s.center - r.origin).dot r.direction * (s.center - r.origin).dot r.direction > s.radius * s.radius
  · simp only [h1, h2, if_true, if_false]
    exact ⟨⟨fun _ hc => absurd h2 (not_lt.2 hc.2), fun _ => trivial⟩, by simp⟩
  · simp only [h1, h2, if_false]
    push Not at h1 h2
    obtain ⟨a, b, c⟩ := q2 h1 h2
    refine ⟨by simp [h1, h2], ?_⟩
    intro p hp
    simp only [Option.some.injEq] at hp
    refine ⟨_, a, hp.symm, ?_, fun u u0 hu => c u u0 ((hmem u).1 hu)⟩
    unfold Sphere.OnSurface
    rw [← hp]
    show (r.at _ - s.center).norm = _
    rw [V3.norm, dist_at3 r hd1, b, Real.sqrt_mul_self hr]

/-- C37 as stated is false: from an origin inside the sphere, the ray meets the surface ahead but `None` is
returned when the centre is behind; and when the centre is ahead the returned point is behind the origin. -/
theorem c37_false : ∃ (s : Sphere) (r r' : Ray3 ℝ), 0 < s.radius ∧ r.direction.norm = 1 ∧ r'.direction.norm = 1 ∧
    (∃ t, 0 ≤ t ∧ s.OnSurface (r.at t)) ∧ s.intersectionRay r = none ∧
    ∃ p, s.intersectionRay r' = some p ∧ ∀ t, p = r'.at t → t < 0 := by
  refine ⟨⟨⟨0, 0, 0⟩, 2⟩, ⟨⟨1, 0, 0⟩, ⟨1, 0, 0⟩⟩, ⟨⟨1, 0, 0⟩, ⟨-1, 0, 0⟩⟩, by norm_num, by simp [V3.norm, V3.dot],
    by simp [V3.norm, V3.dot], ⟨1, by norm_num, ?_⟩, ?_, ⟨2, 0, 0⟩, ?_, ?_⟩
  · simp [Sphere.OnSurface, Ray3.at, V3.norm, V3.dot]; norm_num
  · simp [Sphere.intersectionRay, V3.dot]
  · simp only [Sphere.intersectionRay, V3.dot, V3.sub_x, V3.sub_y, V3.sub_z]
    have : Real.sqrt ((2 : ℝ) * 2) = 2 := Real.sqrt_mul_self (by norm_num)
    norm_num
    rw [show (4 : ℝ) = 2 * 2 by norm_num, this]
    ext <;> simp <;> norm_num
  · intro t ht
    have := congrArg V3.x ht
    simp [Ray3.at] at this
    linarith

/-- C32 for spheres: the boolean test agrees with the continuous one on every ray. -/
theorem c32_sphere (s : Sphere) (r : Ray3 ℝ) : s.intersectsRay r = (s.intersectionRay r).isSome := by
  unfold Sphere.intersectsRay Sphere.intersectionRay
  dsimp only
  split
  · rfl
  · split
    · rename_i h; simp only [Option.isSome_none, decide_eq_false_iff_not, not_le]; exact h
    · rename_i h; simp only [Option.isSome_some, decide_eq_true_eq]; exact not_lt.1 h

/-- A ray that hits a unit sphere from outside, meeting the hypotheses of `c37_first_hit_partial`. -/
example : (⟨⟨0, 0, 0⟩, 1⟩ : Sphere).intersectionRay ⟨⟨-3, 0, 0⟩, ⟨1, 0, 0⟩⟩ = some ⟨-1, 0, 0⟩ ∧
    ¬ (⟨⟨0, 0, 0⟩, 1⟩ : Sphere).Mem ⟨-3, 0, 0⟩ ∧ (⟨1, 0, 0⟩ : V3 ℝ).norm = 1 := by
  refine ⟨?_, ?_, by simp [V3.norm, V3.dot]⟩
  · simp only [Sphere.intersectionRay, V3.dot, V3.sub_x, V3.sub_y, V3.sub_z]
    norm_num
    ext <;> simp <;> norm_num
  · rw [Sphere.mem_iff (by norm_num)]; simp [V3.dot]; norm_num

/-- The extents of a sphere are the tightest coordinate bounds of the ball. -/
theorem c33_extents (s : Sphere)  :
    (⟨s.minExtent, s.maxExtent⟩ : Aabb3 ℝ).containsSphere s = true ∧
    ∀ b : Aabb3 ℝ, b.containsSphere s = true → b.contains ⟨s.minExtent, s.maxExtent⟩ = true := by
  constructor
  · simp [Aabb3.containsSphere, Sphere.minExtent, Sphere.maxExtent, V3.fromValue]
  · intro b hb
    simp only [Aabb3.containsSphere, Bool.and_eq_true, decide_eq_true_eq] at hb
    simp only [Aabb3.contains, Bool.and_eq_true, decide_eq_true_eq]
    simp only [Sphere.minExtent, Sphere.maxExtent, V3.fromValue, V3.add_x, V3.add_y, V3.add_z, ← sub_eq_add_neg]
    exact hb

/-- Isometries: `transform_volume` is exact (the image of the ball), but scaling is not accounted for (`c33_transform_scale`). -/
theorem c33_transform (s : Sphere) (T : V3 ℝ → V3 ℝ) (hT : ∀ p q, (T p - T q).norm = (p - q).norm) (p : V3 ℝ) :
    (s.transformVolume T).Mem (T p) ↔ s.Mem p := by
  simp [Sphere.Mem, Sphere.transformVolume, hT]

/-- Under a scaling transform the transformed volume does not contain the image of the ball. -/
theorem c33_transform_scale : ∃ (s : Sphere) (p : V3 ℝ), s.Mem p ∧
    ¬ (s.transformVolume (fun p => p * (2 : ℝ))).Mem (p * (2 : ℝ)) := by
  refine ⟨⟨⟨0, 0, 0⟩, 1⟩, ⟨1, 0, 0⟩, ?_, ?_⟩
  · rw [Sphere.mem_iff (by norm_num)]; simp [V3.dot]
  · rw [Sphere.mem_iff (by simp [Sphere.transformVolume])]; simp [V3.dot, Sphere.transformVolume]; norm_num

end
end Verif.Geom
