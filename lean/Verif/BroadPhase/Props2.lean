import Verif.BroadPhase.Props
import Verif.Geom.Sphere
/-!
# Broad phases on boxes and spheres; C21 (sweep axis), C22 (tree), C23 (agreement)
-/
namespace Verif.BroadPhase
open Verif Dbvt Geom
set_option linter.unusedSectionVars false

variable {A B K σ : Type}

section Order
variable [LinearOrder K]

/-- Indexing a 2D point by an axis, `cgmath` `Index<usize>` (`axis < 2`). -/
def idx2 (p : V2 K) (axis : Nat) : K := if axis = 0 then p.x else p.y
/-- Indexing a 3D point by an axis (`axis < 3`). -/
def idx3 (p : V3 K) (axis : Nat) : K := if axis = 0 then p.x else if axis = 1 then p.y else p.z

/-- `Bound for Aabb2` (`src/volume/aabb/aabb2.rs`: `min_extent`, `max_extent` are the corners) and box/box `intersects`. -/
def sapAabb2 : SapBound (Aabb2 K) K := ⟨2, fun b => idx2 b.min, fun b => idx2 b.max, Aabb2.intersects⟩
/-- `Bound for Aabb3` -/
def sapAabb3 : SapBound (Aabb3 K) K := ⟨3, fun b => idx3 b.min, fun b => idx3 b.max, Aabb3.intersects⟩
/-- `Bound for Sphere`, `src/volume/sphere.rs` -/
noncomputable def sapSphere : SapBound Sphere ℝ := ⟨3, fun s => idx3 s.minExtent, fun s => idx3 s.maxExtent, Sphere.intersects⟩

theorem overlaps_aabb2 (axis : Nat) : (sapAabb2 (K := K)).Overlaps axis := by
  intro a b h
  simp only [sapAabb2, Aabb2.intersects, Bool.and_eq_true, decide_eq_true_eq, idx2] at *
  split <;> grind

theorem overlaps_aabb3 (axis : Nat) : (sapAabb3 (K := K)).Overlaps axis := by
  intro a b h
  simp only [sapAabb3, Aabb3.intersects, Bool.and_eq_true, decide_eq_true_eq, idx3] at *
  split
  · grind
  · split <;> grind

/-- C20 for the boxes of the library, any axis. -/
theorem c20_boxes2 (v : VarOps σ (Aabb2 K)) (bound : A → Aabb2 K) (s : Sap σ) (shapes : List A) (hax : s.sweep_axis < 2) :
    ∃ pairs shapes' s', s.findColliderPairs sapAabb2 v bound shapes = .ok (pairs, shapes', s') ∧ shapes'.Perm shapes ∧ pairs.Nodup ∧
      ∀ i j, (i, j) ∈ pairs ↔ i < j ∧ Hit bound Aabb2.intersects shapes' i j := by
  obtain ⟨p, l, s', h1, h2, h3, -, h4, -⟩ := c20_sweep_and_prune sapAabb2 v bound s shapes (overlaps_aabb2 _) hax
  exact ⟨p, l, s', h1, h2, h3, h4⟩

theorem c20_boxes3 (v : VarOps σ (Aabb3 K)) (bound : A → Aabb3 K) (s : Sap σ) (shapes : List A) (hax : s.sweep_axis < 3) :
    ∃ pairs shapes' s', s.findColliderPairs sapAabb3 v bound shapes = .ok (pairs, shapes', s') ∧ shapes'.Perm shapes ∧ pairs.Nodup ∧
      ∀ i j, (i, j) ∈ pairs ↔ i < j ∧ Hit bound Aabb3.intersects shapes' i j := by
  obtain ⟨p, l, s', h1, h2, h3, -, h4, -⟩ := c20_sweep_and_prune sapAabb3 v bound s shapes (overlaps_aabb3 _) hax
  exact ⟨p, l, s', h1, h2, h3, h4⟩

end Order

variable [Field K] [LinearOrder K]

/-- Sphere bounds of non-negative radius. -/
def Ball := { s : Sphere // 0 ≤ s.radius }

/-- `SapBound` of spheres of non-negative radius. -/
noncomputable def sapBall : SapBound Ball ℝ :=
  ⟨3, fun s => sapSphere.minE s.1, fun s => sapSphere.maxE s.1, fun a b => sapSphere.isect a.1 b.1⟩

theorem overlaps_ball (axis : Nat) : sapBall.Overlaps axis := by
  intro a b h
  obtain ⟨p, h1, h2⟩ := (c36_exact a.1 b.1 a.2 b.2).1 h
  simp only [Sphere.Mem] at h1 h2
  have x1 := V3.abs_x_le (p - a.1.center)
  have x2 := V3.abs_x_le (p - b.1.center)
  have y1 := V3.abs_y_le (p - a.1.center)
  have y2 := V3.abs_y_le (p - b.1.center)
  have z1 := V3.abs_z_le (p - a.1.center)
  have z2 := V3.abs_z_le (p - b.1.center)
  simp only [V3.sub_x, V3.sub_y, V3.sub_z, abs_le] at x1 x2 y1 y2 z1 z2
  simp only [sapBall, sapSphere, idx3, Sphere.minExtent, Sphere.maxExtent, V3.fromValue]
  split
  · simp; linarith [x1.2, x2.1]
  · split
    · simp; linarith [y1.2, y2.1]
    · simp; linarith [z1.2, z2.1]

/-- C20 for spheres of non-negative radius, any axis. -/
theorem c20_spheres (v : VarOps σ Ball) (bound : A → Ball) (s : Sap σ) (shapes : List A) (hax : s.sweep_axis < 3) :
    ∃ pairs shapes' s', s.findColliderPairs sapBall v bound shapes = .ok (pairs, shapes', s') ∧ shapes'.Perm shapes ∧ pairs.Nodup ∧
      ∀ i j, (i, j) ∈ pairs ↔ i < j ∧ Hit bound (fun a b => a.1.intersects b.1) shapes' i j := by
  obtain ⟨p, l, s', h1, h2, h3, -, h4, -⟩ := c20_sweep_and_prune sapBall v bound s shapes (overlaps_ball _) hax
  exact ⟨p, l, s', h1, h2, h3, h4⟩

/-! ## C21 -/

/-- Specification: variance (times `n`) of numbers. -/
def spread (xs : List K) : K := (xs.map fun x => x * x).sum - xs.sum * xs.sum / xs.length

/-- Specification: the center of a 2D bound. -/
def center2 (minE maxE : B → V2 K) (b : B) : V2 K := (minE b + maxE b) / (2 : K)

/-- Specification: the variance of the centers of 2D bounds along an axis. -/
def varAlong2 (minE maxE : B → V2 K) (bs : List B) (axis : Nat) : K := spread (bs.map fun b => idx2 (center2 minE maxE b) axis)

theorem variance2_fold (minE maxE : B → V2 K) (bs : List B) : bs.foldl (variance2 minE maxE).addBound (0, 0) = (0, 0) := by
  induction bs with
  | nil => rfl
  | cons b bs ih => exact ih

theorem variance3_fold (minE maxE : B → V3 K) (bs : List B) : bs.foldl (variance3 minE maxE).addBound (0, 0) = (0, 0) := by
  induction bs with
  | nil => rfl
  | cons b bs ih => exact ih

variable [IsStrictOrderedRing K]

/-- With the variances of the library, after any call on at least two shapes the sweep axis is 0, whatever the shapes. -/
theorem c21_axis_always_x2 (O : SapBound B K) (minE maxE : B → V2 K) (bound : A → B) (s : Sap (V2 K × V2 K)) (shapes : List A)
    (hov : O.Overlaps s.sweep_axis) (hax : s.sweep_axis < O.dim) (hl : 2 ≤ shapes.length) :
    ∃ pairs shapes' s', s.findColliderPairs O (variance2 minE maxE) bound shapes = .ok (pairs, shapes', s') ∧ s'.sweep_axis = 0 := by
  obtain ⟨p, l, s', h1, -, -, -, -, h2⟩ := c20_sweep_and_prune O (variance2 minE maxE) bound s shapes hov hax
  refine ⟨p, l, s', h1, ?_⟩
  rw [h2 hl]
  have : (variance2 minE maxE).clear s.variance = (0, 0) := rfl
  rw [this, variance2_fold]
  simp [variance2]

theorem c21_axis_always_x3 (O : SapBound B K) (minE maxE : B → V3 K) (bound : A → B) (s : Sap (V3 K × V3 K)) (shapes : List A)
    (hov : O.Overlaps s.sweep_axis) (hax : s.sweep_axis < O.dim) (hl : 2 ≤ shapes.length) :
    ∃ pairs shapes' s', s.findColliderPairs O (variance3 minE maxE) bound shapes = .ok (pairs, shapes', s') ∧ s'.sweep_axis = 0 := by
  obtain ⟨p, l, s', h1, -, -, -, -, h2⟩ := c20_sweep_and_prune O (variance3 minE maxE) bound s shapes hov hax
  refine ⟨p, l, s', h1, ?_⟩
  rw [h2 hl]
  have : (variance3 minE maxE).clear s.variance = (0, 0) := rfl
  rw [this, variance3_fold]
  simp [variance3]

/-- C21 as stated is false: two boxes, one above the other, spread along y only, still select the x axis. -/
theorem c21_false : ∃ (s : Sap (V2 ℚ × V2 ℚ)) (shapes : List (Aabb2 ℚ)) (pairs : List (Nat × Nat)) (shapes' : List (Aabb2 ℚ)) (s' : Sap (V2 ℚ × V2 ℚ)),
    s.findColliderPairs sapAabb2 (variance2 Aabb2.min Aabb2.max) id shapes = .ok (pairs, shapes', s') ∧
    s'.sweep_axis = 0 ∧ varAlong2 Aabb2.min Aabb2.max shapes 0 < varAlong2 Aabb2.min Aabb2.max shapes 1 := by
  obtain ⟨p, l, s', h1, h2⟩ := c21_axis_always_x2 sapAabb2 (Aabb2.min (K := ℚ)) Aabb2.max id ⟨1, 0, 0⟩
    [⟨⟨0, 0⟩, ⟨1, 1⟩⟩, ⟨⟨0, 10⟩, ⟨1, 11⟩⟩] (overlaps_aabb2 _) (by decide) (by simp)
  exact ⟨_, _, p, l, s', h1, h2, by decide +kernel⟩

/-- Part of C21 (missing: shapes spread most along another axis, where it is false): the axis is right whenever the shapes are
spread most along x. -/
theorem c21_axis_partial (O : SapBound B K) (minE maxE : B → V2 K) (bound : A → B) (s : Sap (V2 K × V2 K)) (shapes : List A)
    (hov : O.Overlaps s.sweep_axis) (hax : s.sweep_axis < O.dim) (hl : 2 ≤ shapes.length)
    (hx : varAlong2 minE maxE (shapes.map bound) 1 ≤ varAlong2 minE maxE (shapes.map bound) 0) :
    ∃ pairs shapes' s', s.findColliderPairs O (variance2 minE maxE) bound shapes = .ok (pairs, shapes', s') ∧
      ∀ axis < 2, varAlong2 minE maxE (shapes.map bound) axis ≤ varAlong2 minE maxE (shapes.map bound) s'.sweep_axis := by
  obtain ⟨p, l, s', h1, h2⟩ := c21_axis_always_x2 O minE maxE bound s shapes hov hax hl
  refine ⟨p, l, s', h1, ?_⟩
  intro axis ha
  rw [h2]
  match axis, ha with
  | 0, _ => rfl
  | 1, _ => exact hx

/-- Specification: the center of a 3D bound. -/
def center3 (minE maxE : B → V3 K) (b : B) : V3 K := (minE b + maxE b) / (2 : K)

/-- Specification: the variance of the centers of 3D bounds along an axis. -/
def varAlong3 (minE maxE : B → V3 K) (bs : List B) (axis : Nat) : K := spread (bs.map fun b => idx3 (center3 minE maxE b) axis)

/-- Part of C21 in 3D (missing as in `c21_axis_partial`). -/
theorem c21_axis3_partial (O : SapBound B K) (minE maxE : B → V3 K) (bound : A → B) (s : Sap (V3 K × V3 K)) (shapes : List A)
    (hov : O.Overlaps s.sweep_axis) (hax : s.sweep_axis < O.dim) (hl : 2 ≤ shapes.length)
    (hy : varAlong3 minE maxE (shapes.map bound) 1 ≤ varAlong3 minE maxE (shapes.map bound) 0)
    (hz : varAlong3 minE maxE (shapes.map bound) 2 ≤ varAlong3 minE maxE (shapes.map bound) 0) :
    ∃ pairs shapes' s', s.findColliderPairs O (variance3 minE maxE) bound shapes = .ok (pairs, shapes', s') ∧
      ∀ axis < 3, varAlong3 minE maxE (shapes.map bound) axis ≤ varAlong3 minE maxE (shapes.map bound) s'.sweep_axis := by
  obtain ⟨p, l, s', h1, h2⟩ := c21_axis_always_x3 O minE maxE bound s shapes hov hax hl
  refine ⟨p, l, s', h1, ?_⟩
  intro axis ha
  rw [h2]
  match axis, ha with
  | 0, _ => rfl
  | 1, _ => exact hy
  | 2, _ => exact hz

/-- Part of C21 (missing: the sums are never accumulated): from the right sums, `compute_axis` picks an axis of largest variance. -/
theorem c21_compute_axis2_partial (minE maxE : B → V2 K) (bs : List B) (csum csumsq : V2 K)
    (h1 : ∀ axis, idx2 csum axis = (bs.map fun b => idx2 (center2 minE maxE b) axis).sum)
    (h2 : ∀ axis, idx2 csumsq axis = (bs.map fun b => idx2 (center2 minE maxE b) axis * idx2 (center2 minE maxE b) axis).sum) :
    (variance2 minE maxE).axis (csum, csumsq) bs.length < 2 ∧
    ∀ axis < 2, varAlong2 minE maxE bs axis ≤ varAlong2 minE maxE bs ((variance2 minE maxE).axis (csum, csumsq) bs.length) := by
  have hv : ∀ axis, varAlong2 minE maxE bs axis = idx2 csumsq axis - idx2 csum axis * idx2 csum axis / (bs.length : K) := by
    intro axis
    rw [h1, h2]; simp only [varAlong2, spread, List.map_map, List.length_map]; rfl
  simp only [variance2]
  have e0 := hv 0
  have e1 := hv 1
  simp only [idx2, if_pos, one_ne_zero, if_false] at e0 e1
  split <;> rename_i hc <;> simp only [V2.sub_x, V2.sub_y, ← e0, ← e1] at hc
  · refine ⟨by omega, fun axis ha => ?_⟩
    match axis, ha with
    | 0, _ => exact hc.le
    | 1, _ => exact le_rfl
  · refine ⟨by omega, fun axis ha => ?_⟩
    match axis, ha with
    | 0, _ => exact le_rfl
    | 1, _ => exact not_lt.1 hc

theorem c21_compute_axis3_partial (minE maxE : B → V3 K) (bs : List B) (csum csumsq : V3 K)
    (h1 : ∀ axis, idx3 csum axis = (bs.map fun b => idx3 (center3 minE maxE b) axis).sum)
    (h2 : ∀ axis, idx3 csumsq axis = (bs.map fun b => idx3 (center3 minE maxE b) axis * idx3 (center3 minE maxE b) axis).sum) :
    (variance3 minE maxE).axis (csum, csumsq) bs.length < 3 ∧
    ∀ axis < 3, varAlong3 minE maxE bs axis ≤ varAlong3 minE maxE bs ((variance3 minE maxE).axis (csum, csumsq) bs.length) := by
  have hv : ∀ axis, varAlong3 minE maxE bs axis = idx3 csumsq axis - idx3 csum axis * idx3 csum axis / (bs.length : K) := by
    intro axis
    rw [h1, h2]; simp only [varAlong3, spread, List.map_map, List.length_map]; rfl
  simp only [variance3]
  have e0 := hv 0
  have e1 := hv 1
  have e2 := hv 2
  have h20 : (2 : Nat) ≠ 0 := by decide
  have h21 : (2 : Nat) ≠ 1 := by decide
  simp only [idx3, if_pos, one_ne_zero, if_false, h20, h21] at e0 e1 e2
  by_cases c1 : varAlong3 minE maxE bs 0 < varAlong3 minE maxE bs 1
  · simp only [V3.sub_x, V3.sub_y, V3.sub_z, ← e0, ← e1, ← e2, if_pos c1]
    split <;> rename_i hc
    · refine ⟨by omega, fun axis ha => ?_⟩
      match axis, ha with
      | 0, _ => exact (c1.trans hc).le
      | 1, _ => exact hc.le
      | 2, _ => exact le_rfl
    · refine ⟨by omega, fun axis ha => ?_⟩
      match axis, ha with
      | 0, _ => exact c1.le
      | 1, _ => exact le_rfl
      | 2, _ => exact not_lt.1 hc
  · simp only [V3.sub_x, V3.sub_y, V3.sub_z, ← e0, ← e1, ← e2, if_neg c1]
    split <;> rename_i hc
    · refine ⟨by omega, fun axis ha => ?_⟩
      match axis, ha with
      | 0, _ => exact hc.le
      | 1, _ => exact (not_lt.1 c1).trans hc.le
      | 2, _ => exact le_rfl
    · refine ⟨by omega, fun axis ha => ?_⟩
      match axis, ha with
      | 0, _ => exact le_rfl
      | 1, _ => exact not_lt.1 c1
      | 2, _ => exact not_lt.1 hc

/-- The sums of two boxes, one above the other: axis 1. -/
example : (variance2 Aabb2.min Aabb2.max).axis ((⟨1, 11⟩ : V2 ℚ), ⟨1 / 2, 221 / 2⟩) 2 = 1 := by decide +kernel

/-! ## Any number of calls -/

/-- Successive calls of `find_collider_pairs` on the same `SweepAndPrune` object, with arbitrary shapes each time. -/
def sapRun (O : SapBound B K) (v : VarOps σ B) (bound : A → B) : Sap σ → List (List A) → Res (List (List (Nat × Nat) × List A) × Sap σ)
  | s, [] => .ok ([], s)
  | s, shapes :: rest => do
    let (p, l, s') ← s.findColliderPairs O v bound shapes
    let (out, s'') ← sapRun O v bound s' rest
    return ((p, l) :: out, s'')

/-- C20 for every sequence of calls on one object with the 2D variance of the library: no call panics and every call is exact. -/
theorem c20_runs2 (bound : A → Aabb2 K) (calls : List (List A)) : ∀ (s : Sap (V2 K × V2 K)), s.sweep_axis < 2 →
    ∃ out s', sapRun sapAabb2 (variance2 Aabb2.min Aabb2.max) bound s calls = .ok (out, s') ∧
      List.Forall₂ (fun shapes (o : List (Nat × Nat) × List A) => o.2.Perm shapes ∧ o.1.Nodup ∧
        ∀ i j, (i, j) ∈ o.1 ↔ i < j ∧ Hit bound Aabb2.intersects o.2 i j) calls out := by
  induction calls with
  | nil => intro s _; exact ⟨[], s, rfl, .nil⟩
  | cons shapes rest ih =>
    intro s hs
    obtain ⟨p, l, s', h1, h2, h3, h4⟩ := c20_boxes2 (variance2 Aabb2.min Aabb2.max) bound s shapes hs
    have hs' : s'.sweep_axis < 2 := by
      by_cases hl : 2 ≤ shapes.length
      · obtain ⟨p', l', s1, g1, g2⟩ := c21_axis_always_x2 sapAabb2 Aabb2.min Aabb2.max bound s shapes (overlaps_aabb2 _) hs hl
        rw [h1] at g1
        simp only [Res.ok.injEq, Prod.mk.injEq] at g1
        rw [g1.2.2, g2]; omega
      · unfold Sap.findColliderPairs at h1
        rw [if_pos (by omega)] at h1
        simp only [Res.ok.injEq, Prod.mk.injEq] at h1
        rw [← h1.2.2]; exact hs
    obtain ⟨out, s'', g1, g2⟩ := ih s' hs'
    exact ⟨(p, l) :: out, s'', by simp [sapRun, h1, g1], .cons ⟨h2, h3, h4⟩ g2⟩

/-- C20 for every sequence of calls on one object with the 3D variance of the library: no call panics and every call is exact. -/
theorem c20_runs3 (bound : A → Aabb3 K) (calls : List (List A)) : ∀ (s : Sap (V3 K × V3 K)), s.sweep_axis < 3 →
    ∃ out s', sapRun sapAabb3 (variance3 Aabb3.min Aabb3.max) bound s calls = .ok (out, s') ∧
      List.Forall₂ (fun shapes (o : List (Nat × Nat) × List A) => o.2.Perm shapes ∧ o.1.Nodup ∧
        ∀ i j, (i, j) ∈ o.1 ↔ i < j ∧ Hit bound Aabb3.intersects o.2 i j) calls out := by
  induction calls with
  | nil => intro s _; exact ⟨[], s, rfl, .nil⟩
  | cons shapes rest ih =>
    intro s hs
    obtain ⟨p, l, s', h1, h2, h3, h4⟩ := c20_boxes3 (variance3 Aabb3.min Aabb3.max) bound s shapes hs
    have hs' : s'.sweep_axis < 3 := by
      by_cases hl : 2 ≤ shapes.length
      · obtain ⟨p', l', s1, g1, g2⟩ := c21_axis_always_x3 sapAabb3 Aabb3.min Aabb3.max bound s shapes (overlaps_aabb3 _) hs hl
        rw [h1] at g1
        simp only [Res.ok.injEq, Prod.mk.injEq] at g1
        rw [g1.2.2, g2]; omega
      · unfold Sap.findColliderPairs at h1
        rw [if_pos (by omega)] at h1
        simp only [Res.ok.injEq, Prod.mk.injEq] at h1
        rw [← h1.2.2]; exact hs
    obtain ⟨out, s'', g1, g2⟩ := ih s' hs'
    exact ⟨(p, l) :: out, s'', by simp [sapRun, h1, g1], .cons ⟨h2, h3, h4⟩ g2⟩

/-- A call with shapes given out of order: sorted along y, one overlap. -/
example : (⟨1, 0, 0⟩ : Sap (V2 ℚ × V2 ℚ)).findColliderPairs sapAabb2 (variance2 Aabb2.min Aabb2.max) id
    [⟨⟨4, 4⟩, ⟨9, 9⟩⟩, ⟨⟨0, 0⟩, ⟨5, 5⟩⟩] = .ok ([(0, 1)], [⟨⟨0, 0⟩, ⟨5, 5⟩⟩, ⟨⟨4, 4⟩, ⟨9, 9⟩⟩], ⟨0, 0, 0⟩) := by
  have h : [(⟨⟨4, 4⟩, ⟨9, 9⟩⟩ : Aabb2 ℚ), ⟨⟨0, 0⟩, ⟨5, 5⟩⟩].mergeSort (fun a b => sapLe sapAabb2 1 (id a) (id b)) =
      [⟨⟨0, 0⟩, ⟨5, 5⟩⟩, ⟨⟨4, 4⟩, ⟨9, 9⟩⟩] := by
    simp [List.mergeSort, List.merge, List.MergeSort.Internal.splitInTwo, sapLe, sapAabb2, idx2]
  unfold Sap.findColliderPairs
  rw [if_neg (by simp), if_neg (by decide)]
  simp only [h]
  decide +kernel

end Verif.BroadPhase
