import Verif.Geom.Aabb
import Mathlib.Algebra.Order.Ring.Rat
import Mathlib.Tactic.NormNum
/-!
# Boxes: C24 – C29

Membership (`Mem`, `IMem`), `Valid`, `Pos`, `Affine2/3` are defined in `Aabb.lean`; everything else in the
statements is the modelled API.
-/
namespace Verif.Geom
set_option linter.unusedSectionVars false
variable {K : Type} [LinearOrder K]

/-! ## C24: `new` normalises -/

/-- C24 (2D): `new p q` is normalised, symmetric, contains both points, and lies inside every box that
contains both points. -/
theorem c24_new2 (p q : V2 K) :
    (Aabb2.new p q).Valid ∧ Aabb2.new p q = Aabb2.new q p ∧
    (Aabb2.new p q).Mem p ∧ (Aabb2.new p q).Mem q ∧
    ∀ b : Aabb2 K, b.Mem p → b.Mem q → ∀ x, (Aabb2.new p q).Mem x → b.Mem x := by
  refine ⟨?_, ?_, ?_, ?_, ?_⟩
  · simp [Aabb2.new, Aabb2.Valid]
  · simp [Aabb2.new, min_comm, max_comm]
  · simp [Aabb2.new, Aabb2.Mem]
  · simp [Aabb2.new, Aabb2.Mem]
  · rintro b ⟨⟨h1, h2⟩, h3, h4⟩ ⟨⟨h5, h6⟩, h7, h8⟩ x ⟨⟨h9, h10⟩, h11, h12⟩
    simp only [Aabb2.new, pmin_eq, pmax_eq] at *
    exact ⟨⟨(le_min h1 h5).trans h9, h10.trans (max_le h2 h6)⟩, (le_min h3 h7).trans h11, h12.trans (max_le h4 h8)⟩

/-- C24 (3D) -/
theorem c24_new3 (p q : V3 K) :
    (Aabb3.new p q).Valid ∧ Aabb3.new p q = Aabb3.new q p ∧
    (Aabb3.new p q).Mem p ∧ (Aabb3.new p q).Mem q ∧
    ∀ b : Aabb3 K, b.Mem p → b.Mem q → ∀ x, (Aabb3.new p q).Mem x → b.Mem x := by
  refine ⟨?_, ?_, ?_, ?_, ?_⟩
  · simp [Aabb3.new, Aabb3.Valid]
  · simp [Aabb3.new, min_comm, max_comm]
  · simp [Aabb3.new, Aabb3.Mem]
  · simp [Aabb3.new, Aabb3.Mem]
  · rintro b ⟨⟨h1, h2⟩, ⟨h3, h4⟩, i1, i2⟩ ⟨⟨h5, h6⟩, ⟨h7, h8⟩, i3, i4⟩ x ⟨⟨h9, h10⟩, ⟨h11, h12⟩, i5, i6⟩
    simp only [Aabb3.new, pmin_eq, pmax_eq] at *
    exact ⟨⟨(le_min h1 h5).trans h9, h10.trans (max_le h2 h6)⟩,
      ⟨(le_min h3 h7).trans h11, h12.trans (max_le h4 h8)⟩, (le_min i1 i3).trans i5, i6.trans (max_le i2 i4)⟩

example : Aabb2.new (⟨3, 1⟩ : V2 ℚ) ⟨1, 2⟩ = ⟨⟨1, 1⟩, ⟨3, 2⟩⟩ := by
  simp [Aabb2.new]

/-! ## C26: containment -/

/-- C26 (2D): `contains` is inclusion of closed boxes, a partial order; `contains(point)` is the half
open box (closed box without its upper faces); `contains(line)` asks for both ends. -/
theorem c26_contains2 (a b : Aabb2 K) (hb : b.Valid) :
    (a.contains b = true ↔ ∀ p, b.Mem p → a.Mem p) := by
  simp only [Aabb2.contains, Bool.and_eq_true, decide_eq_true_eq]
  constructor
  · rintro ⟨⟨⟨h1, h2⟩, h3⟩, h4⟩ p ⟨⟨h5, h6⟩, h7, h8⟩
    exact ⟨⟨h1.trans h5, h6.trans h3⟩, h2.trans h7, h8.trans h4⟩
  · intro h
    obtain ⟨⟨h1, _⟩, h2, _⟩ := h b.min ⟨⟨le_rfl, hb.1⟩, le_rfl, hb.2⟩
    obtain ⟨⟨_, h3⟩, _, h4⟩ := h b.max ⟨⟨hb.1, le_rfl⟩, hb.2, le_rfl⟩
    exact ⟨⟨⟨h1, h2⟩, h3⟩, h4⟩

theorem c26_contains3 (a b : Aabb3 K) (hb : b.Valid) :
    (a.contains b = true ↔ ∀ p, b.Mem p → a.Mem p) := by
  simp only [Aabb3.contains, Bool.and_eq_true, decide_eq_true_eq]
  constructor
  · rintro ⟨⟨⟨⟨⟨h1, h2⟩, h2'⟩, h3⟩, h4⟩, h4'⟩ p ⟨⟨h5, h6⟩, ⟨h7, h8⟩, h9, h10⟩
    exact ⟨⟨h1.trans h5, h6.trans h3⟩, ⟨h2.trans h7, h8.trans h4⟩, h2'.trans h9, h10.trans h4'⟩
  · intro h
    obtain ⟨⟨h1, _⟩, ⟨h2, _⟩, h2', _⟩ := h b.min ⟨⟨le_rfl, hb.1⟩, ⟨le_rfl, hb.2.1⟩, le_rfl, hb.2.2⟩
    obtain ⟨⟨_, h3⟩, ⟨_, h4⟩, _, h4'⟩ := h b.max ⟨⟨hb.1, le_rfl⟩, ⟨hb.2.1, le_rfl⟩, hb.2.2, le_rfl⟩
    exact ⟨⟨⟨⟨⟨h1, h2⟩, h2'⟩, h3⟩, h4⟩, h4'⟩

/-- C26 (2D), partial order laws of `contains` (no normalisation needed). -/
theorem c26_order2 :
    (∀ a : Aabb2 K, a.contains a = true) ∧
    (∀ a b c : Aabb2 K, a.contains b = true → b.contains c = true → a.contains c = true) ∧
    (∀ a b : Aabb2 K, a.contains b = true → b.contains a = true → a = b) := by
  refine ⟨fun a => by simp [Aabb2.contains], ?_, ?_⟩ <;>
    simp only [Aabb2.contains, Bool.and_eq_true, decide_eq_true_eq]
  · rintro a b c ⟨⟨⟨h1, h2⟩, h3⟩, h4⟩ ⟨⟨⟨g1, g2⟩, g3⟩, g4⟩
    exact ⟨⟨⟨h1.trans g1, h2.trans g2⟩, g3.trans h3⟩, g4.trans h4⟩
  · rintro a b ⟨⟨⟨h1, h2⟩, h3⟩, h4⟩ ⟨⟨⟨g1, g2⟩, g3⟩, g4⟩
    ext
    exacts [h1.antisymm g1, h2.antisymm g2, g3.antisymm h3, g4.antisymm h4]

/-- C26 (3D), partial order laws of `contains`. -/
theorem c26_order3 :
    (∀ a : Aabb3 K, a.contains a = true) ∧
    (∀ a b c : Aabb3 K, a.contains b = true → b.contains c = true → a.contains c = true) ∧
    (∀ a b : Aabb3 K, a.contains b = true → b.contains a = true → a = b) := by
  refine ⟨fun a => by simp [Aabb3.contains], ?_, ?_⟩ <;>
    simp only [Aabb3.contains, Bool.and_eq_true, decide_eq_true_eq]
  · rintro a b c ⟨⟨⟨⟨⟨h1, h2⟩, h3⟩, h4⟩, h5⟩, h6⟩ ⟨⟨⟨⟨⟨g1, g2⟩, g3⟩, g4⟩, g5⟩, g6⟩
    exact ⟨⟨⟨⟨⟨h1.trans g1, h2.trans g2⟩, h3.trans g3⟩, g4.trans h4⟩, g5.trans h5⟩, g6.trans h6⟩
  · rintro a b ⟨⟨⟨⟨⟨h1, h2⟩, h3⟩, h4⟩, h5⟩, h6⟩ ⟨⟨⟨⟨⟨g1, g2⟩, g3⟩, g4⟩, g5⟩, g6⟩
    ext
    exacts [h1.antisymm g1, h2.antisymm g2, h3.antisymm g3, g4.antisymm h4, g5.antisymm h5, g6.antisymm h6]

/-- C26 (2D): points and lines. -/
theorem c26_point_line2 (a : Aabb2 K) (p : V2 K) (l : Line2 K) :
    (a.containsPoint p = true ↔ a.Mem p ∧ p.x ≠ a.max.x ∧ p.y ≠ a.max.y) ∧
    (a.containsLine l = true ↔ a.containsPoint l.origin = true ∧ a.containsPoint l.dest = true) := by
  refine ⟨?_, by simp [Aabb2.containsLine]⟩
  simp only [Aabb2.containsPoint, Aabb2.Mem, Bool.and_eq_true, decide_eq_true_eq, lt_iff_le_and_ne]
  tauto

/-- C26 (3D): points and lines. -/
theorem c26_point_line3 (a : Aabb3 K) (p : V3 K) (l : Line3 K) :
    (a.containsPoint p = true ↔ a.Mem p ∧ p.x ≠ a.max.x ∧ p.y ≠ a.max.y ∧ p.z ≠ a.max.z) ∧
    (a.containsLine l = true ↔ a.containsPoint l.origin = true ∧ a.containsPoint l.dest = true) := by
  refine ⟨?_, by simp [Aabb3.containsLine]⟩
  simp only [Aabb3.containsPoint, Aabb3.Mem, Bool.and_eq_true, decide_eq_true_eq, lt_iff_le_and_ne]
  tauto

/-- The segment between two contained points is contained (the boxes are convex), so `contains(line)` is
about the whole segment. -/
theorem c26_line_segment2 [Field K] [IsStrictOrderedRing K] (a : Aabb2 K) (l : Line2 K) :
    a.containsLine l = true ↔
      ∀ t : K, 0 ≤ t → t ≤ 1 → a.containsPoint (l.origin + (l.dest - l.origin) * t) = true := by
  constructor
  · intro h t h0 h1
    simp only [Aabb2.containsLine, Aabb2.containsPoint, Bool.and_eq_true, decide_eq_true_eq, V2.add_x,
      V2.add_y, V2.mul_x, V2.mul_y, V2.sub_x, V2.sub_y] at *
    obtain ⟨⟨⟨⟨a1, a2⟩, a3⟩, a4⟩, ⟨⟨a5, a6⟩, a7⟩, a8⟩ := h
    have key : ∀ u v lo hi : K, lo ≤ u → u < hi → lo ≤ v → v < hi → lo ≤ u + (v - u) * t ∧ u + (v - u) * t < hi := by
      intro u v lo hi b1 b2 b3 b4
      constructor
      · nlinarith [mul_nonneg (sub_nonneg.2 b1) (sub_nonneg.2 h1), mul_nonneg (sub_nonneg.2 b3) h0]
      · rcases h1.lt_or_eq with h | h
        · nlinarith [mul_pos (sub_pos.2 b2) (sub_pos.2 h), mul_nonneg (sub_pos.2 b4).le h0]
        · rw [h]; linarith
    have k1 := key _ _ _ _ a1 a2 a5 a6
    have k2 := key _ _ _ _ a3 a4 a7 a8
    exact ⟨⟨⟨k1.1, k1.2⟩, k2.1⟩, k2.2⟩
  · intro h
    have h0 := h 0 le_rfl zero_le_one
    have h1 := h 1 zero_le_one le_rfl
    simp only [Aabb2.containsLine, Aabb2.containsPoint, Bool.and_eq_true, decide_eq_true_eq, V2.add_x,
      V2.add_y, V2.mul_x, V2.mul_y, V2.sub_x, V2.sub_y, mul_zero, mul_one, add_zero, add_sub_cancel] at *
    exact ⟨h0, h1⟩

example : (⟨⟨0, 0⟩, ⟨3, 3⟩⟩ : Aabb2 ℚ).contains ⟨⟨1, 1⟩, ⟨3, 2⟩⟩ = true ∧
    (⟨⟨0, 0⟩, ⟨3, 3⟩⟩ : Aabb2 ℚ).contains ⟨⟨1, 1⟩, ⟨4, 2⟩⟩ = false ∧
    (⟨⟨0, 0⟩, ⟨3, 3⟩⟩ : Aabb2 ℚ).containsLine ⟨⟨1, 1⟩, ⟨3, 2⟩⟩ = false ∧
    (⟨⟨1, 1⟩, ⟨3, 2⟩⟩ : Aabb2 ℚ).Valid := by
  simp [Aabb2.contains, Aabb2.containsLine, Aabb2.containsPoint, Aabb2.Valid]; norm_num

/-! ## C25: union and grow -/

theorem grow2_eq (a : Aabb2 K) (p : V2 K) :
    a.grow p = ⟨⟨min a.min.x p.x, min a.min.y p.y⟩, ⟨max a.max.x p.x, max a.max.y p.y⟩⟩ := by
  have h : ∀ x y z : K, min x z ≤ max y z := fun x y z => (min_le_right _ _).trans (le_max_right _ _)
  simp [Aabb2.grow, Aabb2.new, V2.pmin, V2.pmax, -le_sup_iff, -inf_le_iff, -min_le_iff, -le_max_iff, h]

theorem grow3_eq (a : Aabb3 K) (p : V3 K) :
    a.grow p = ⟨⟨min a.min.x p.x, min a.min.y p.y, min a.min.z p.z⟩,
      ⟨max a.max.x p.x, max a.max.y p.y, max a.max.z p.z⟩⟩ := by
  have h : ∀ x y z : K, min x z ≤ max y z := fun x y z => (min_le_right _ _).trans (le_max_right _ _)
  simp [Aabb3.grow, Aabb3.new, V3.pmin, V3.pmax, -le_sup_iff, -inf_le_iff, -min_le_iff, -le_max_iff, h]

theorem union2_eq (a b : Aabb2 K) (hb : b.Valid) :
    a.union b = ⟨⟨min a.min.x b.min.x, min a.min.y b.min.y⟩, ⟨max a.max.x b.max.x, max a.max.y b.max.y⟩⟩ := by
  obtain ⟨h1, h2⟩ := hb
  simp only [Aabb2.union, grow2_eq, min_assoc, max_assoc, min_eq_left h1, min_eq_left h2, max_eq_right h1, max_eq_right h2]

theorem union3_eq (a b : Aabb3 K) (hb : b.Valid) :
    a.union b = ⟨⟨min a.min.x b.min.x, min a.min.y b.min.y, min a.min.z b.min.z⟩,
      ⟨max a.max.x b.max.x, max a.max.y b.max.y, max a.max.z b.max.z⟩⟩ := by
  obtain ⟨h1, h2, h3⟩ := hb
  simp only [Aabb3.union, grow3_eq, min_assoc, max_assoc, min_eq_left h1, min_eq_left h2, min_eq_left h3,
    max_eq_right h1, max_eq_right h2, max_eq_right h3]

/-- C25 (2D), `grow`: the least box containing the box and the point. -/
theorem c25_grow2 (a : Aabb2 K) (p : V2 K) :
    (a.grow p).Valid ∧ (a.grow p).contains a = true ∧ (a.grow p).Mem p ∧
    ∀ c : Aabb2 K, c.contains a = true → c.Mem p → c.contains (a.grow p) = true := by
  have h : ∀ x y z : K, min x z ≤ max y z := fun x y z => (min_le_right _ _).trans (le_max_right _ _)
  rw [grow2_eq]
  simp only [Aabb2.Valid, Aabb2.contains, Aabb2.Mem, Bool.and_eq_true, decide_eq_true_eq]
  refine ⟨⟨h .., h ..⟩, by simp, by simp, ?_⟩
  rintro c ⟨⟨⟨g1, g2⟩, g3⟩, g4⟩ ⟨⟨k1, k2⟩, k3, k4⟩
  exact ⟨⟨⟨le_min g1 k1, le_min g2 k3⟩, max_le g3 k2⟩, max_le g4 k4⟩

/-- C25 (3D), `grow`: the least box containing the box and the point. -/
theorem c25_grow3 (a : Aabb3 K) (p : V3 K) :
    (a.grow p).Valid ∧ (a.grow p).contains a = true ∧ (a.grow p).Mem p ∧
    ∀ c : Aabb3 K, c.contains a = true → c.Mem p → c.contains (a.grow p) = true := by
  have h : ∀ x y z : K, min x z ≤ max y z := fun x y z => (min_le_right _ _).trans (le_max_right _ _)
  rw [grow3_eq]
  simp only [Aabb3.Valid, Aabb3.contains, Aabb3.Mem, Bool.and_eq_true, decide_eq_true_eq]
  refine ⟨⟨h .., h .., h ..⟩, by simp, by simp, ?_⟩
  rintro c ⟨⟨⟨⟨⟨g1, g2⟩, g3⟩, g4⟩, g5⟩, g6⟩ ⟨⟨k1, k2⟩, ⟨k3, k4⟩, k5, k6⟩
  exact ⟨⟨⟨⟨⟨le_min g1 k1, le_min g2 k3⟩, le_min g3 k5⟩, max_le g4 k2⟩, max_le g5 k4⟩, max_le g6 k6⟩

/-- C25 (2D), `union`: contains both arguments (also for boxes that are not normalised). -/
theorem c25_union_contains2 (a b : Aabb2 K) :
    (a.union b).Valid ∧ (a.union b).contains a = true ∧ (a.union b).contains b = true := by
  have h : ∀ x y z : K, min x z ≤ max y z := fun x y z => (min_le_right _ _).trans (le_max_right _ _)
  simp only [Aabb2.union, grow2_eq, Aabb2.Valid, Aabb2.contains, Bool.and_eq_true, decide_eq_true_eq]
  exact ⟨⟨h .., h ..⟩, by simp, by simp⟩

/-- C25 (3D), `union`: contains both arguments (also for boxes that are not normalised). -/
theorem c25_union_contains3 (a b : Aabb3 K) :
    (a.union b).Valid ∧ (a.union b).contains a = true ∧ (a.union b).contains b = true := by
  have h : ∀ x y z : K, min x z ≤ max y z := fun x y z => (min_le_right _ _).trans (le_max_right _ _)
  simp only [Aabb3.union, grow3_eq, Aabb3.Valid, Aabb3.contains, Bool.and_eq_true, decide_eq_true_eq]
  exact ⟨⟨h .., h .., h ..⟩, by simp, by simp⟩

/-- C25 (2D), `union` is the least upper bound: any box containing both arguments contains the union. -/
theorem c25_union_least2 (a b c : Aabb2 K) (hb : b.Valid)
    (h1 : c.contains a = true) (h2 : c.contains b = true) : c.contains (a.union b) = true := by
  rw [union2_eq a b hb]
  simp only [Aabb2.contains, Bool.and_eq_true, decide_eq_true_eq] at *
  obtain ⟨⟨⟨g1, g2⟩, g3⟩, g4⟩ := h1
  obtain ⟨⟨⟨k1, k2⟩, k3⟩, k4⟩ := h2
  exact ⟨⟨⟨le_min g1 k1, le_min g2 k2⟩, max_le g3 k3⟩, max_le g4 k4⟩

/-- C25 (3D), `union` is the least upper bound. -/
theorem c25_union_least3 (a b c : Aabb3 K) (hb : b.Valid)
    (h1 : c.contains a = true) (h2 : c.contains b = true) : c.contains (a.union b) = true := by
  rw [union3_eq a b hb]
  simp only [Aabb3.contains, Bool.and_eq_true, decide_eq_true_eq] at *
  obtain ⟨⟨⟨⟨⟨g1, g2⟩, g3⟩, g4⟩, g5⟩, g6⟩ := h1
  obtain ⟨⟨⟨⟨⟨k1, k2⟩, k3⟩, k4⟩, k5⟩, k6⟩ := h2
  exact ⟨⟨⟨⟨⟨le_min g1 k1, le_min g2 k2⟩, le_min g3 k3⟩, max_le g4 k4⟩, max_le g5 k5⟩, max_le g6 k6⟩

/-- C25 (2D): union is commutative, associative and idempotent on normalised boxes. -/
theorem c25_union_laws2 (a b c : Aabb2 K) (ha : a.Valid) (hb : b.Valid) (hc : c.Valid) :
    a.union b = b.union a ∧ (a.union b).union c = a.union (b.union c) ∧ a.union a = a := by
  refine ⟨?_, ?_, ?_⟩
  · rw [union2_eq _ _ ha, union2_eq _ _ hb]
    simp only [min_comm, max_comm]
  · rw [union2_eq _ _ hc, union2_eq _ _ (c25_union_contains2 b c).1, union2_eq _ _ hb, union2_eq _ _ hc]
    simp only [min_assoc, max_assoc]
  · rw [union2_eq _ _ ha]; simp

/-- C25 (3D): union is commutative, associative and idempotent on normalised boxes. -/
theorem c25_union_laws3 (a b c : Aabb3 K) (ha : a.Valid) (hb : b.Valid) (hc : c.Valid) :
    a.union b = b.union a ∧ (a.union b).union c = a.union (b.union c) ∧ a.union a = a := by
  refine ⟨?_, ?_, ?_⟩
  · rw [union3_eq _ _ ha, union3_eq _ _ hb]
    simp only [min_comm, max_comm]
  · rw [union3_eq _ _ hc, union3_eq _ _ (c25_union_contains3 b c).1, union3_eq _ _ hb, union3_eq _ _ hc]
    simp only [min_assoc, max_assoc]
  · rw [union3_eq _ _ ha]; simp

example : (⟨⟨0, 0⟩, ⟨1, 1⟩⟩ : Aabb2 ℚ).union ⟨⟨2, -1⟩, ⟨3, 0⟩⟩ = ⟨⟨0, -1⟩, ⟨3, 1⟩⟩ ∧
    (⟨⟨2, -1⟩, ⟨3, 0⟩⟩ : Aabb2 ℚ).Valid := by
  constructor
  · rw [union2_eq _ _ (by constructor <;> norm_num)]; ext <;> norm_num
  · constructor <;> norm_num

/-! ## C27: box/box intersection -/

variable [Field K] [IsStrictOrderedRing K]

theorem exists_between2 {a b c d : K} (h1 : a < b) (h2 : c < d) (h3 : c < b) (h4 : a < d) :
    ∃ x, (a < x ∧ x < b) ∧ (c < x ∧ x < d) := by
  obtain ⟨x, h5, h6⟩ := exists_between (max_lt (lt_min h1 h4) (lt_min h3 h2) : max a c < min b d)
  simp only [max_lt_iff, lt_min_iff] at h5 h6
  exact ⟨x, ⟨h5.1, h6.1⟩, h5.2, h6.2⟩

/-- C27 (2D): two boxes of positive extent are reported as intersecting exactly if some point is in the
interior of both. -/
theorem c27_exact2 (a b : Aabb2 K) (ha : a.Pos) (hb : b.Pos) :
    a.intersects b = true ↔ ∃ p, a.IMem p ∧ b.IMem p := by
  simp only [Aabb2.intersects, Bool.and_eq_true, decide_eq_true_eq, Aabb2.IMem]
  constructor
  · rintro ⟨⟨⟨h1, h2⟩, h3⟩, h4⟩
    obtain ⟨x, hx1, hx2⟩ := exists_between2 ha.1 hb.1 h1 h2
    obtain ⟨y, hy1, hy2⟩ := exists_between2 ha.2 hb.2 h3 h4
    exact ⟨⟨x, y⟩, ⟨hx1, hy1⟩, hx2, hy2⟩
  · rintro ⟨p, ⟨⟨h1, h2⟩, h3, h4⟩, ⟨h5, h6⟩, h7, h8⟩
    exact ⟨⟨⟨h5.trans h2, h1.trans h6⟩, h7.trans h4⟩, h3.trans h8⟩

/-- C27 (3D) -/
theorem c27_exact3 (a b : Aabb3 K) (ha : a.Pos) (hb : b.Pos) :
    a.intersects b = true ↔ ∃ p, a.IMem p ∧ b.IMem p := by
  simp only [Aabb3.intersects, Bool.and_eq_true, decide_eq_true_eq, Aabb3.IMem]
  constructor
  · rintro ⟨⟨⟨⟨⟨h1, h2⟩, h3⟩, h4⟩, h5⟩, h6⟩
    obtain ⟨x, hx1, hx2⟩ := exists_between2 ha.1 hb.1 h1 h2
    obtain ⟨y, hy1, hy2⟩ := exists_between2 ha.2.1 hb.2.1 h3 h4
    obtain ⟨z, hz1, hz2⟩ := exists_between2 ha.2.2 hb.2.2 h5 h6
    exact ⟨⟨x, y, z⟩, ⟨hx1, hy1, hz1⟩, hx2, hy2, hz2⟩
  · rintro ⟨p, ⟨⟨h1, h2⟩, ⟨h3, h4⟩, h9, h10⟩, ⟨h5, h6⟩, ⟨h7, h8⟩, h11, h12⟩
    exact ⟨⟨⟨⟨⟨h5.trans h2, h1.trans h6⟩, h7.trans h4⟩, h3.trans h8⟩, h11.trans h10⟩, h9.trans h12⟩

omit [Field K] [IsStrictOrderedRing K] in
/-- C27 (2D): symmetric, monotone under enlarging either box, and false for boxes that only touch
(any boxes). -/
theorem c27_laws2 (a b : Aabb2 K) :
    a.intersects b = b.intersects a ∧
    (∀ a' b' : Aabb2 K, a'.contains a = true → b'.contains b = true → a.intersects b = true → a'.intersects b' = true) ∧
    ((a.max.x ≤ b.min.x ∨ a.max.y ≤ b.min.y) → a.intersects b = false) := by
  refine ⟨?_, ?_, ?_⟩
  · rw [Bool.eq_iff_iff]; simp only [Aabb2.intersects, Bool.and_eq_true, decide_eq_true_eq]; tauto
  · simp only [Aabb2.intersects, Aabb2.contains, Bool.and_eq_true, decide_eq_true_eq]
    rintro a' b' ⟨⟨⟨g1, g2⟩, g3⟩, g4⟩ ⟨⟨⟨k1, k2⟩, k3⟩, k4⟩ ⟨⟨⟨h1, h2⟩, h3⟩, h4⟩
    exact ⟨⟨⟨(k1.trans_lt h1).trans_le g3, (g1.trans_lt h2).trans_le k3⟩, (k2.trans_lt h3).trans_le g4⟩,
      (g2.trans_lt h4).trans_le k4⟩
  · rintro (h | h) <;> simp [Aabb2.intersects, not_lt.2 h]

omit [Field K] [IsStrictOrderedRing K] in
/-- C27 (3D): symmetric, monotone, false for touching boxes. -/
theorem c27_laws3 (a b : Aabb3 K) :
    a.intersects b = b.intersects a ∧
    (∀ a' b' : Aabb3 K, a'.contains a = true → b'.contains b = true → a.intersects b = true → a'.intersects b' = true) ∧
    ((a.max.x ≤ b.min.x ∨ a.max.y ≤ b.min.y ∨ a.max.z ≤ b.min.z) → a.intersects b = false) := by
  refine ⟨?_, ?_, ?_⟩
  · rw [Bool.eq_iff_iff]; simp only [Aabb3.intersects, Bool.and_eq_true, decide_eq_true_eq]; tauto
  · simp only [Aabb3.intersects, Aabb3.contains, Bool.and_eq_true, decide_eq_true_eq]
    rintro a' b' ⟨⟨⟨⟨⟨g1, g2⟩, g3⟩, g4⟩, g5⟩, g6⟩ ⟨⟨⟨⟨⟨k1, k2⟩, k3⟩, k4⟩, k5⟩, k6⟩ ⟨⟨⟨⟨⟨h1, h2⟩, h3⟩, h4⟩, h5⟩, h6⟩
    exact ⟨⟨⟨⟨⟨(k1.trans_lt h1).trans_le g4, (g1.trans_lt h2).trans_le k4⟩, (k2.trans_lt h3).trans_le g5⟩,
      (g2.trans_lt h4).trans_le k5⟩, (k3.trans_lt h5).trans_le g6⟩, (g3.trans_lt h6).trans_le k6⟩
  · rintro (h | h | h) <;> simp [Aabb3.intersects, not_lt.2 h]

example : (⟨⟨0, 0⟩, ⟨2, 2⟩⟩ : Aabb2 ℚ).intersects ⟨⟨1, 1⟩, ⟨3, 3⟩⟩ = true ∧
    (⟨⟨0, 0⟩, ⟨2, 2⟩⟩ : Aabb2 ℚ).intersects ⟨⟨2, 1⟩, ⟨3, 3⟩⟩ = false ∧ (⟨⟨0, 0⟩, ⟨2, 2⟩⟩ : Aabb2 ℚ).Pos := by
  simp [Aabb2.intersects, Aabb2.Pos]

/-! ## C28: transform -/

theorem foldl_grow2 (T : V2 K → V2 K) (l : List (V2 K)) (b : Aabb2 K) :
    (l.foldl (fun u c => u.grow (T c)) b).contains b = true ∧
    (∀ c ∈ l, (l.foldl (fun u c => u.grow (T c)) b).Mem (T c)) ∧
    ∀ w : Aabb2 K, w.contains b = true → (∀ c ∈ l, w.Mem (T c)) →
      w.contains (l.foldl (fun u c => u.grow (T c)) b) = true := by
  induction l generalizing b with
  | nil => exact ⟨c26_order2.1 b, by simp, fun w h _ => h⟩
  | cons a l ih =>
    obtain ⟨h1, h2, h3⟩ := ih (b.grow (T a))
    obtain ⟨g0, g1, g2, g3⟩ := c25_grow2 b (T a)
    refine ⟨c26_order2.2.1 _ _ _ h1 g1, ?_, ?_⟩
    · intro c hc
      rcases List.mem_cons.1 hc with rfl | hc
      · exact (c26_contains2 _ _ g0).1 h1 _ g2
      · exact h2 c hc
    · intro w hw hl
      exact h3 w (g3 w hw (hl a (by simp))) (fun c hc => hl c (by simp [hc]))

theorem foldl_grow3 (T : V3 K → V3 K) (l : List (V3 K)) (b : Aabb3 K) :
    (l.foldl (fun u c => u.grow (T c)) b).contains b = true ∧
    (∀ c ∈ l, (l.foldl (fun u c => u.grow (T c)) b).Mem (T c)) ∧
    ∀ w : Aabb3 K, w.contains b = true → (∀ c ∈ l, w.Mem (T c)) →
      w.contains (l.foldl (fun u c => u.grow (T c)) b) = true := by
  induction l generalizing b with
  | nil => exact ⟨c26_order3.1 b, by simp, fun w h _ => h⟩
  | cons a l ih =>
    obtain ⟨h1, h2, h3⟩ := ih (b.grow (T a))
    obtain ⟨g0, g1, g2, g3⟩ := c25_grow3 b (T a)
    refine ⟨c26_order3.2.1 _ _ _ h1 g1, ?_, ?_⟩
    · intro c hc
      rcases List.mem_cons.1 hc with rfl | hc
      · exact (c26_contains3 _ _ g0).1 h1 _ g2
      · exact h2 c hc
    · intro w hw hl
      exact h3 w (g3 w hw (hl a (by simp))) (fun c hc => hl c (by simp [hc]))

/-- A coordinate between `lo` and `hi` is reached by an interpolation parameter in `[0,1]`. -/
theorem exists_param {lo hi x : K} (h1 : lo ≤ x) (h2 : x ≤ hi) :
    ∃ t : K, 0 ≤ t ∧ t ≤ 1 ∧ x = lo + (hi - lo) * t := by
  rcases (h1.trans h2).lt_or_eq with h | h
  · have hp : 0 < hi - lo := sub_pos.2 h
    refine ⟨(x - lo) / (hi - lo), div_nonneg (by linarith) hp.le, ?_, ?_⟩
    · rw [div_le_one hp]; linarith
    · field_simp; ring
  · exact ⟨0, le_rfl, zero_le_one, by rw [mul_zero, add_zero]; exact le_antisymm (h2.trans h.symm.le) h1⟩

theorem between_interp {lo hi u v t : K} (h0 : 0 ≤ t) (h1 : t ≤ 1) (a : lo ≤ u ∧ u ≤ hi) (b : lo ≤ v ∧ v ≤ hi) :
    lo ≤ u + (v - u) * t ∧ u + (v - u) * t ≤ hi := by
  constructor
  · nlinarith [mul_nonneg (sub_nonneg.2 a.1) (sub_nonneg.2 h1), mul_nonneg (sub_nonneg.2 b.1) h0]
  · nlinarith [mul_nonneg (sub_nonneg.2 a.2) (sub_nonneg.2 h1), mul_nonneg (sub_nonneg.2 b.2) h0]

/-- Closed boxes are convex. -/
theorem Aabb2.mem_interp (b : Aabb2 K) {p q : V2 K} {t : K} (h0 : 0 ≤ t) (h1 : t ≤ 1) (hp : b.Mem p) (hq : b.Mem q) :
    b.Mem (p + (q - p) * t) :=
  ⟨between_interp h0 h1 hp.1 hq.1, between_interp h0 h1 hp.2 hq.2⟩

/-- Closed boxes are convex. -/
theorem Aabb3.mem_interp (b : Aabb3 K) {p q : V3 K} {t : K} (h0 : 0 ≤ t) (h1 : t ≤ 1) (hp : b.Mem p) (hq : b.Mem q) :
    b.Mem (p + (q - p) * t) :=
  ⟨between_interp h0 h1 hp.1 hq.1, between_interp h0 h1 hp.2.1 hq.2.1, between_interp h0 h1 hp.2.2 hq.2.2⟩

/-- A set closed under interpolation containing the corners of a box contains the box. -/
theorem Aabb2.induct (b : Aabb2 K) (P : V2 K → Prop)
    (hP : ∀ p q t, (0 : K) ≤ t → t ≤ 1 → P p → P q → P (p + (q - p) * t))
    (hc : ∀ c ∈ b.toCorners, P c) {p : V2 K} (hp : b.Mem p) : P p := by
  obtain ⟨⟨h1, h2⟩, h3, h4⟩ := hp
  obtain ⟨s, s0, s1, hs⟩ := exists_param h1 h2
  obtain ⟨t, t0, t1, ht⟩ := exists_param h3 h4
  simp only [Aabb2.toCorners, List.mem_cons, List.not_mem_nil, or_false, forall_eq_or_imp, forall_eq] at hc
  obtain ⟨c1, c2, c3, c4⟩ := hc
  have := hP _ _ t t0 t1 (hP _ _ s s0 s1 c1 c2) (hP _ _ s s0 s1 c3 c4)
  convert this using 1
  ext <;> simp <;> linarith

/-- A set closed under interpolation containing the corners of a box contains the box. -/
theorem Aabb3.induct (b : Aabb3 K) (P : V3 K → Prop)
    (hP : ∀ p q t, (0 : K) ≤ t → t ≤ 1 → P p → P q → P (p + (q - p) * t))
    (hc : ∀ c ∈ b.toCorners, P c) {p : V3 K} (hp : b.Mem p) : P p := by
  obtain ⟨⟨h1, h2⟩, ⟨h3, h4⟩, h5, h6⟩ := hp
  obtain ⟨s, s0, s1, hs⟩ := exists_param h1 h2
  obtain ⟨t, t0, t1, ht⟩ := exists_param h3 h4
  obtain ⟨u, u0, u1, hu⟩ := exists_param h5 h6
  simp only [Aabb3.toCorners, List.mem_cons, List.not_mem_nil, or_false, forall_eq_or_imp, forall_eq] at hc
  obtain ⟨c1, c2, c3, c4, c5, c6, c7, c8⟩ := hc
  have := hP _ _ u u0 u1 (hP _ _ t t0 t1 (hP _ _ s s0 s1 c1 c2) (hP _ _ s s0 s1 c3 c4))
    (hP _ _ t t0 t1 (hP _ _ s s0 s1 c5 c6) (hP _ _ s s0 s1 c7 c8))
  convert this using 1
  ext <;> simp <;> linarith

/-- C28 (2D): for an affine transform every point of the box is mapped into the returned box, which is
the tightest box around the transformed corners. -/
theorem c28_transform2 (b : Aabb2 K) (T : V2 K → V2 K) :
    (Affine2 T → ∀ p, b.Mem p → (b.transform T).Mem (T p)) ∧
    (∀ c ∈ b.toCorners, (b.transform T).Mem (T c)) ∧
    ∀ w : Aabb2 K, (∀ c ∈ b.toCorners, w.Mem (T c)) → w.contains (b.transform T) = true := by
  obtain ⟨h1, h2, h3⟩ := foldl_grow2 T b.toCorners.tail (Aabb2.new (T b.min) (T b.min))
  obtain ⟨n1, n2, n3, n4, n5⟩ := c24_new2 (T b.min) (T b.min)
  have hc : ∀ c ∈ b.toCorners, (b.transform T).Mem (T c) := by
    intro c hc
    rcases List.mem_cons.1 (show c ∈ b.min :: b.toCorners.tail from hc) with rfl | hc
    · exact (c26_contains2 _ _ n1).1 h1 _ n3
    · exact h2 c hc
  refine ⟨?_, hc, ?_⟩
  · intro hT p hp
    refine b.induct (fun p => (b.transform T).Mem (T p)) ?_ hc hp
    intro p q t t0 t1 hp hq
    show Aabb2.Mem _ (T _)
    rw [hT]
    exact Aabb2.mem_interp _ t0 t1 hp hq
  · intro w hw
    have hm := hw b.min (by simp [Aabb2.toCorners])
    exact h3 w ((c26_contains2 _ _ n1).2 (n5 w hm hm)) (fun c hc => hw c (List.mem_of_mem_tail hc))

/-- C28 (3D) -/
theorem c28_transform3 (b : Aabb3 K) (T : V3 K → V3 K) :
    (Affine3 T → ∀ p, b.Mem p → (b.transform T).Mem (T p)) ∧
    (∀ c ∈ b.toCorners, (b.transform T).Mem (T c)) ∧
    ∀ w : Aabb3 K, (∀ c ∈ b.toCorners, w.Mem (T c)) → w.contains (b.transform T) = true := by
  obtain ⟨h1, h2, h3⟩ := foldl_grow3 T b.toCorners.tail (Aabb3.new (T b.min) (T b.min))
  obtain ⟨n1, n2, n3, n4, n5⟩ := c24_new3 (T b.min) (T b.min)
  have hc : ∀ c ∈ b.toCorners, (b.transform T).Mem (T c) := by
    intro c hc
    rcases List.mem_cons.1 (show c ∈ b.min :: b.toCorners.tail from hc) with rfl | hc
    · exact (c26_contains3 _ _ n1).1 h1 _ n3
    · exact h2 c hc
  refine ⟨?_, hc, ?_⟩
  · intro hT p hp
    refine b.induct (fun p => (b.transform T).Mem (T p)) ?_ hc hp
    intro p q t t0 t1 hp hq
    show Aabb3.Mem _ (T _)
    rw [hT]
    exact Aabb3.mem_interp _ t0 t1 hp hq
  · intro w hw
    have hm := hw b.min (by simp [Aabb3.toCorners])
    exact h3 w ((c26_contains3 _ _ n1).2 (n5 w hm hm)) (fun c hc => hw c (List.mem_of_mem_tail hc))

/-- The linear map `(x, y) ↦ (a x + b y + e, c x + d y + f)` is affine: C28 applies. -/
example (a b c d e f : ℚ) : Affine2 (fun p : V2 ℚ => ⟨a * p.x + b * p.y + e, c * p.x + d * p.y + f⟩) := by
  intro p q t; ext <;> simp <;> ring

/-- Every map given by a 3×3 matrix and a translation is affine. -/
example (m : V3 (V3 ℚ)) (e : V3 ℚ) : Affine3 (fun p : V3 ℚ => ⟨m.x.dot p, m.y.dot p, m.z.dot p⟩ + e) := by
  intro p q t; ext <;> simp [V3.dot] <;> ring

/-! ## C29: arithmetic -/

/-- C29 (2D): margins. -/
theorem c29_margin2 (b : Aabb2 K) (m : V2 K) (hx : 0 ≤ m.x) (hy : 0 ≤ m.y) :
    (b.addMargin m).contains b = true ∧
    (b.Valid → ∀ p, (b.addMargin m).Mem p ↔
      (b.min.x - m.x ≤ p.x ∧ p.x ≤ b.max.x + m.x) ∧ (b.min.y - m.y ≤ p.y ∧ p.y ≤ b.max.y + m.y)) := by
  simp only [Aabb2.addMargin, Aabb2.new, pmin_eq, pmax_eq]
  constructor
  · simp [Aabb2.contains, hx, hy]
  · rintro ⟨h1, h2⟩ p
    simp only [Aabb2.Mem]
    rw [min_eq_left (by linarith), min_eq_left (by linarith), max_eq_right (by linarith), max_eq_right (by linarith)]

/-- C29 (3D): margins. -/
theorem c29_margin3 (b : Aabb3 K) (m : V3 K) (hx : 0 ≤ m.x) (hy : 0 ≤ m.y) (hz : 0 ≤ m.z) :
    (b.addMargin m).contains b = true ∧
    (b.Valid → ∀ p, (b.addMargin m).Mem p ↔
      (b.min.x - m.x ≤ p.x ∧ p.x ≤ b.max.x + m.x) ∧ (b.min.y - m.y ≤ p.y ∧ p.y ≤ b.max.y + m.y) ∧
      (b.min.z - m.z ≤ p.z ∧ p.z ≤ b.max.z + m.z)) := by
  simp only [Aabb3.addMargin, Aabb3.new, pmin_eq, pmax_eq]
  constructor
  · simp [Aabb3.contains, hx, hy, hz]
  · rintro ⟨h1, h2, h3⟩ p
    simp only [Aabb3.Mem]
    rw [min_eq_left (by linarith), min_eq_left (by linarith), max_eq_right (by linarith), max_eq_right (by linarith),
      min_eq_left (by linarith), max_eq_right (by linarith)]

theorem scale_mem {lo hi s x : K} (h : lo ≤ hi) :
    (min (lo * s) (hi * s) ≤ x ∧ x ≤ max (lo * s) (hi * s)) ↔ ∃ y, (lo ≤ y ∧ y ≤ hi) ∧ x = y * s := by
  rcases lt_trichotomy s 0 with hs | hs | hs
  · have h1 : hi * s ≤ lo * s := mul_le_mul_of_nonpos_right h hs.le
    rw [min_eq_right h1, max_eq_left h1]
    constructor
    · rintro ⟨h2, h3⟩
      exact ⟨x / s, ⟨by rwa [le_div_iff_of_neg hs], by rwa [div_le_iff_of_neg hs]⟩, (div_mul_cancel₀ x hs.ne).symm⟩
    · rintro ⟨y, ⟨h2, h3⟩, rfl⟩
      exact ⟨mul_le_mul_of_nonpos_right h3 hs.le, mul_le_mul_of_nonpos_right h2 hs.le⟩
  · subst hs
    simp only [mul_zero, min_self, max_self]
    exact ⟨fun h2 => ⟨lo, ⟨le_rfl, h⟩, le_antisymm h2.2 h2.1⟩, fun ⟨y, _, e⟩ => by simp [e]⟩
  · have h1 : lo * s ≤ hi * s := mul_le_mul_of_nonneg_right h hs.le
    rw [min_eq_left h1, max_eq_right h1]
    constructor
    · rintro ⟨h2, h3⟩
      exact ⟨x / s, ⟨by rwa [le_div_iff₀ hs], by rwa [div_le_iff₀ hs]⟩, by field_simp⟩
    · rintro ⟨y, ⟨h2, h3⟩, rfl⟩
      exact ⟨mul_le_mul_of_nonneg_right h2 hs.le, mul_le_mul_of_nonneg_right h3 hs.le⟩

/-- C29 (2D): `add_v`, `mul_s`, `mul_v` are the images of the box under translation and (possibly
negative or zero) scaling. -/
theorem c29_images2 (b : Aabb2 K) (hb : b.Valid) (v : V2 K) (s : K) (x : V2 K) :
    ((b.addV v).Mem x ↔ ∃ p, b.Mem p ∧ x = p + v) ∧
    ((b.mulS s).Mem x ↔ ∃ p, b.Mem p ∧ x = p * s) ∧
    ((b.mulV v).Mem x ↔ ∃ p, b.Mem p ∧ x = ⟨p.x * v.x, p.y * v.y⟩) := by
  obtain ⟨h1, h2⟩ := hb
  refine ⟨?_, ?_, ?_⟩
  · simp only [Aabb2.addV, Aabb2.new, pmin_eq, pmax_eq, Aabb2.Mem, V2.add_x, V2.add_y]
    rw [min_eq_left (by linarith), min_eq_left (by linarith), max_eq_right (by linarith), max_eq_right (by linarith)]
    constructor
    · rintro ⟨⟨a1, a2⟩, a3, a4⟩
      exact ⟨x - v, ⟨⟨by simp; linarith, by simp; linarith⟩, by simp; linarith, by simp; linarith⟩, by ext <;> simp⟩
    · rintro ⟨p, ⟨⟨a1, a2⟩, a3, a4⟩, rfl⟩
      exact ⟨⟨by simp; linarith, by simp; linarith⟩, by simp; linarith, by simp; linarith⟩
  all_goals
    simp only [Aabb2.mulS, Aabb2.mulV, V2.mulE, Aabb2.new, pmin_eq, pmax_eq, Aabb2.Mem, V2.mul_x, V2.mul_y]
    rw [scale_mem h1, scale_mem h2]
    constructor
    · rintro ⟨⟨p, hp, e1⟩, q, hq, e2⟩
      exact ⟨⟨p, q⟩, ⟨hp, hq⟩, by ext; exacts [e1, e2]⟩
    · rintro ⟨p, ⟨h3, h4⟩, e⟩
      subst e
      exact ⟨⟨p.x, h3, rfl⟩, p.y, h4, rfl⟩

/-- C29 (3D): `add_v`, `mul_s`, `mul_v`. -/
theorem c29_images3 (b : Aabb3 K) (hb : b.Valid) (v : V3 K) (s : K) (x : V3 K) :
    ((b.addV v).Mem x ↔ ∃ p, b.Mem p ∧ x = p + v) ∧
    ((b.mulS s).Mem x ↔ ∃ p, b.Mem p ∧ x = p * s) ∧
    ((b.mulV v).Mem x ↔ ∃ p, b.Mem p ∧ x = ⟨p.x * v.x, p.y * v.y, p.z * v.z⟩) := by
  obtain ⟨h1, h2, h3⟩ := hb
  refine ⟨?_, ?_, ?_⟩
  · simp only [Aabb3.addV, Aabb3.new, pmin_eq, pmax_eq, Aabb3.Mem, V3.add_x, V3.add_y, V3.add_z]
    rw [min_eq_left (by linarith), min_eq_left (by linarith), max_eq_right (by linarith), max_eq_right (by linarith),
      min_eq_left (by linarith), max_eq_right (by linarith)]
    constructor
    · rintro ⟨⟨a1, a2⟩, ⟨a3, a4⟩, a5, a6⟩
      exact ⟨x - v, ⟨⟨by simp; linarith, by simp; linarith⟩, ⟨by simp; linarith, by simp; linarith⟩,
        by simp; linarith, by simp; linarith⟩, by ext <;> simp⟩
    · rintro ⟨p, ⟨⟨a1, a2⟩, ⟨a3, a4⟩, a5, a6⟩, rfl⟩
      exact ⟨⟨by simp; linarith, by simp; linarith⟩, ⟨by simp; linarith, by simp; linarith⟩, by simp; linarith, by simp; linarith⟩
  all_goals
    simp only [Aabb3.mulS, Aabb3.mulV, V3.mulE, Aabb3.new, pmin_eq, pmax_eq, Aabb3.Mem, V3.mul_x, V3.mul_y, V3.mul_z]
    rw [scale_mem h1, scale_mem h2, scale_mem h3]
    constructor
    · rintro ⟨⟨p, hp, e1⟩, ⟨q, hq, e2⟩, r, hr, e3⟩
      exact ⟨⟨p, q, r⟩, ⟨hp, hq, hr⟩, by ext; exacts [e1, e2, e3]⟩
    · rintro ⟨p, ⟨h3, h4, h5⟩, e⟩
      subst e
      exact ⟨⟨p.x, h3, rfl⟩, ⟨p.y, h4, rfl⟩, p.z, h5, rfl⟩

/-- C29 (2D): the center is the midpoint and is in the box, areas are non-negative, and the area does
not decrease under enlarging (in particular under union). -/
theorem c29_measures2 (b : Aabb2 K) (hb : b.Valid) :
    b.Mem b.center ∧ b.center - b.min = b.max - b.center ∧ 0 ≤ b.volume ∧ 0 ≤ b.surfaceArea ∧
    (∀ c : Aabb2 K, c.contains b = true → b.surfaceArea ≤ c.surfaceArea) ∧
    (∀ c : Aabb2 K, b.surfaceArea ≤ (b.union c).surfaceArea) := by
  obtain ⟨h1, h2⟩ := hb
  have mono : ∀ c : Aabb2 K, c.contains b = true → b.surfaceArea ≤ c.surfaceArea := by
    intro c hc
    simp only [Aabb2.contains, Bool.and_eq_true, decide_eq_true_eq] at hc
    obtain ⟨⟨⟨g1, g2⟩, g3⟩, g4⟩ := hc
    simp only [Aabb2.surfaceArea, Aabb2.dim, V2.sub_x, V2.sub_y]
    exact mul_le_mul (by linarith) (by linarith) (by linarith) (by linarith)
  have two : (1 + 1 : K) = 2 := by norm_num
  refine ⟨?_, ?_, ?_, ?_, mono, fun c => mono _ (c25_union_contains2 b c).2.1⟩
  · simp only [Aabb2.Mem, Aabb2.center, Aabb2.dim, V2.add_x, V2.add_y, V2.div_x, V2.div_y, V2.sub_x, V2.sub_y, two]
    constructor <;> constructor <;> linarith
  · ext <;> simp only [Aabb2.center, Aabb2.dim, V2.add_x, V2.add_y, V2.div_x, V2.div_y, V2.sub_x, V2.sub_y, two] <;> ring
  · exact mul_nonneg (by simp [Aabb2.dim, h1]) (by simp [Aabb2.dim, h2])
  · exact mul_nonneg (by simp [Aabb2.dim, h1]) (by simp [Aabb2.dim, h2])

/-- C29 (3D) -/
theorem c29_measures3 (b : Aabb3 K) (hb : b.Valid) :
    b.Mem b.center ∧ b.center - b.min = b.max - b.center ∧ 0 ≤ b.volume ∧ 0 ≤ b.surfaceArea ∧
    (∀ c : Aabb3 K, c.contains b = true → b.surfaceArea ≤ c.surfaceArea) ∧
    (∀ c : Aabb3 K, b.surfaceArea ≤ (b.union c).surfaceArea) := by
  obtain ⟨h1, h2, h3⟩ := hb
  have two : (1 + 1 : K) = 2 := by norm_num
  have mono : ∀ c : Aabb3 K, c.contains b = true → b.surfaceArea ≤ c.surfaceArea := by
    intro c hc
    simp only [Aabb3.contains, Bool.and_eq_true, decide_eq_true_eq] at hc
    obtain ⟨⟨⟨⟨⟨g1, g2⟩, g3⟩, g4⟩, g5⟩, g6⟩ := hc
    simp only [Aabb3.surfaceArea, Aabb3.dim, V3.sub_x, V3.sub_y, V3.sub_z, two]
    refine mul_le_mul_of_nonneg_left (add_le_add (add_le_add ?_ ?_) ?_) (by norm_num)
    all_goals exact mul_le_mul (by linarith) (by linarith) (by linarith) (by linarith)
  have hx : 0 ≤ b.dim.x := by simp [Aabb3.dim, h1]
  have hy : 0 ≤ b.dim.y := by simp [Aabb3.dim, h2]
  have hz : 0 ≤ b.dim.z := by simp [Aabb3.dim, h3]
  refine ⟨?_, ?_, mul_nonneg (mul_nonneg hx hy) hz, ?_, mono, fun c => mono _ (c25_union_contains3 b c).2.1⟩
  · simp only [Aabb3.Mem, Aabb3.center, Aabb3.dim, V3.add_x, V3.add_y, V3.add_z, V3.div_x, V3.div_y, V3.div_z,
      V3.sub_x, V3.sub_y, V3.sub_z, two]
    refine ⟨⟨?_, ?_⟩, ⟨?_, ?_⟩, ?_, ?_⟩ <;> linarith
  · ext <;> simp only [Aabb3.center, Aabb3.dim, V3.add_x, V3.add_y, V3.add_z, V3.div_x, V3.div_y, V3.div_z,
      V3.sub_x, V3.sub_y, V3.sub_z, two] <;> ring
  · rw [Aabb3.surfaceArea, two]
    have := mul_nonneg hx hy
    have := mul_nonneg hx hz
    have := mul_nonneg hy hz
    linarith

/-- C29: volume and surface area are the documented products. -/
theorem c29_formulas (a : Aabb2 K) (b : Aabb3 K) :
    a.volume = (a.max.x - a.min.x) * (a.max.y - a.min.y) ∧
    b.volume = (b.max.x - b.min.x) * (b.max.y - b.min.y) * (b.max.z - b.min.z) ∧
    a.surfaceArea = a.volume ∧
    b.surfaceArea = 2 * ((b.max.x - b.min.x) * (b.max.y - b.min.y)) + 2 * ((b.max.x - b.min.x) * (b.max.z - b.min.z)) +
      2 * ((b.max.y - b.min.y) * (b.max.z - b.min.z)) := by
  refine ⟨rfl, rfl, rfl, ?_⟩
  simp only [Aabb3.surfaceArea, Aabb3.dim, V3.sub_x, V3.sub_y, V3.sub_z]; ring

example : (⟨⟨0, 0⟩, ⟨2, 3⟩⟩ : Aabb2 ℚ).Valid ∧ ((⟨⟨0, 0⟩, ⟨2, 3⟩⟩ : Aabb2 ℚ).mulS (-1)) = ⟨⟨-2, -3⟩, ⟨0, 0⟩⟩ ∧
    (⟨⟨0, 0, 0⟩, ⟨2, 3, 4⟩⟩ : Aabb3 ℚ).Valid ∧ (⟨⟨0, 0, 0⟩, ⟨2, 3, 4⟩⟩ : Aabb3 ℚ).surfaceArea = 52 := by
  refine ⟨by constructor <;> norm_num, ?_, ⟨by norm_num, by norm_num, by norm_num⟩, ?_⟩
  · simp [Aabb2.mulS, Aabb2.new]
  · simp [Aabb3.surfaceArea, Aabb3.dim]; norm_num

end Verif.Geom
