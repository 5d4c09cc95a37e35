import Verif.Minkowski.Epa3
import Mathlib.Data.ZMod.Basic
/-!
# Cones over triangles (for C70 in 3D)

The algebra used to show that the faces of the EPA polytope surround the origin: sides of planes, cones over triangles, and the parity of the number of
cones that contain a direction.
-/
namespace Verif.Minkowski
open Verif Geom Primitive
set_option linter.unusedSectionVars false
variable {K : Type} [Field K] [LinearOrder K] [IsStrictOrderedRing K]

/-- Six times the signed volume of the tetrahedron over the origin. -/
def vol (a b c : V3 K) : K := a.dot (b.cross c)
/-- The side of the plane of `a b c` on which `x` lies. -/
def side (a b c x : V3 K) : K := ((b - a).cross (c - a)).dot (x - a)

theorem side_zero (a b c : V3 K) : side a b c 0 = -vol a b c := by
  simp only [side, vol, V3.dot, V3.cross, V3.sub_x, V3.sub_y, V3.sub_z, V3.zero_x, V3.zero_y, V3.zero_z]; ring
theorem side_rot (a b c x : V3 K) : side b c a x = side a b c x := by
  simp only [side, V3.dot, V3.cross, V3.sub_x, V3.sub_y, V3.sub_z]; ring
theorem side_third (a b c p : V3 K) : side p a b c = -side a b c p := by
  simp only [side, V3.dot, V3.cross, V3.sub_x, V3.sub_y, V3.sub_z]; ring
theorem side_self (a b c : V3 K) : side a b c a = 0 ∧ side a b c b = 0 ∧ side a b c c = 0 := by
  simp only [side, V3.dot, V3.cross, V3.sub_x, V3.sub_y, V3.sub_z]
  refine ⟨?_, ?_, ?_⟩ <;> ring
theorem vol_rot (a b c : V3 K) : vol b c a = vol a b c := by
  simp only [vol, V3.dot, V3.cross]; ring
/-- Planes through a common edge. -/
theorem side_pencil (a b c d p x : V3 K) :
    side b a d c * side p a b x = side b a d p * side a b c x - side a b c p * side b a d x := by
  simp only [side, V3.dot, V3.cross, V3.sub_x, V3.sub_y, V3.sub_z]; ring

/-- A new point `p` beyond the plane of `a b c` and not beyond that of `b a d`, both of which have the origin and each other's corners on their inner side:
the plane of `p a b` has the origin and every point that is inside both on its inner side. -/
theorem side_new {a b c d p : V3 K} (h0 : 0 < vol a b c) (h0' : 0 < vol b a d) (hc : side b a d c ≤ 0) (hp : 0 < side a b c p) (hp' : side b a d p ≤ 0) :
    0 < vol p a b ∧ ∀ x, side a b c x ≤ 0 → side b a d x ≤ 0 → side p a b x ≤ 0 := by
  have hz := side_pencil a b c d p 0
  rw [side_zero a b c, side_zero b a d, side_zero p a b] at hz
  have hneg : side b a d c < 0 := by
    rcases hc.lt_or_eq with h | h
    · exact h
    · exfalso
      rw [h] at hz
      nlinarith [mul_pos hp h0', mul_nonneg (neg_nonneg.2 hp') h0.le]
  constructor
  · have : 0 < (-side b a d c) * vol p a b := by nlinarith [mul_pos hp h0', mul_nonneg (neg_nonneg.2 hp') h0.le]
    exact pos_of_mul_pos_right this (by linarith)
  · intro x h1 h2
    have := side_pencil a b c d p x
    by_contra hx
    push Not at hx
    nlinarith [mul_nonneg (neg_nonneg.2 hp') (neg_nonneg.2 h1), mul_nonneg hp.le (neg_nonneg.2 h2), mul_pos (neg_pos.2 hneg) hx]

/-- `u` is in the open cone over the triangle. -/
def InCone (u a b c : V3 K) : Prop := ∃ x y z : K, 0 < x ∧ 0 < y ∧ 0 < z ∧ u = a * x + b * y + c * z

theorem inCone_swap {u a b c : V3 K} : InCone u a b c ↔ InCone u a c b := by
  constructor
  all_goals
    rintro ⟨x, y, z, hx, hy, hz, rfl⟩
    refine ⟨x, z, y, hx, hz, hy, ?_⟩
    ext <;> simp <;> ring
theorem inCone_rot {u a b c : V3 K} : InCone u a b c ↔ InCone u b c a := by
  constructor
  · rintro ⟨x, y, z, hx, hy, hz, rfl⟩
    refine ⟨y, z, x, hy, hz, hx, ?_⟩
    ext <;> simp <;> ring
  · rintro ⟨x, y, z, hx, hy, hz, rfl⟩
    refine ⟨z, x, y, hz, hx, hy, ?_⟩
    ext <;> simp <;> ring

theorem vol_combo (u a b c : V3 K) : u * vol a b c = a * vol u b c + b * vol u c a + c * vol u a b := by
  ext <;> simp [vol, V3.dot, V3.cross] <;> ring

/-- Cones over positively oriented triangles. -/
theorem inCone_pos {u a b c : V3 K} (h : 0 < vol a b c) : InCone u a b c ↔ 0 < vol u a b ∧ 0 < vol u b c ∧ 0 < vol u c a := by
  constructor
  · rintro ⟨x, y, z, hx, hy, hz, rfl⟩
    have e1 : vol (a * x + b * y + c * z) a b = z * vol a b c := by
      simp only [vol, V3.dot, V3.cross, V3.add_x, V3.add_y, V3.add_z, V3.mul_x, V3.mul_y, V3.mul_z]; ring
    have e2 : vol (a * x + b * y + c * z) b c = x * vol a b c := by
      simp only [vol, V3.dot, V3.cross, V3.add_x, V3.add_y, V3.add_z, V3.mul_x, V3.mul_y, V3.mul_z]; ring
    have e3 : vol (a * x + b * y + c * z) c a = y * vol a b c := by
      simp only [vol, V3.dot, V3.cross, V3.add_x, V3.add_y, V3.add_z, V3.mul_x, V3.mul_y, V3.mul_z]; ring
    rw [e1, e2, e3]
    exact ⟨mul_pos hz h, mul_pos hx h, mul_pos hy h⟩
  · rintro ⟨h1, h2, h3⟩
    refine ⟨vol u b c / vol a b c, vol u c a / vol a b c, vol u a b / vol a b c, div_pos h2 h, div_pos h3 h, div_pos h1 h, ?_⟩
    have := vol_combo u a b c
    rw [V3.ext_iff] at this ⊢
    simp only [V3.add_x, V3.add_y, V3.add_z, V3.mul_x, V3.mul_y, V3.mul_z] at this ⊢
    obtain ⟨hx, hy, hz⟩ := this
    refine ⟨?_, ?_, ?_⟩ <;> field_simp <;> linarith

/-- Cones over triangles on one side of a plane through the origin. -/
theorem inCone_half {u a b c h : V3 K} (ha : 0 < h.dot a) (hb : 0 < h.dot b) (hc : 0 < h.dot c) (hab : vol u a b ≠ 0) :
    InCone u a b c ↔ 0 < h.dot u ∧ ((0 < vol u a b ∧ 0 < vol u b c ∧ 0 < vol u c a) ∨ (vol u a b < 0 ∧ vol u b c < 0 ∧ vol u c a < 0)) := by
  constructor
  · rintro ⟨x, y, z, hx, hy, hz, rfl⟩
    have e1 : vol (a * x + b * y + c * z) a b = z * vol a b c := by
      simp only [vol, V3.dot, V3.cross, V3.add_x, V3.add_y, V3.add_z, V3.mul_x, V3.mul_y, V3.mul_z]; ring
    have e2 : vol (a * x + b * y + c * z) b c = x * vol a b c := by
      simp only [vol, V3.dot, V3.cross, V3.add_x, V3.add_y, V3.add_z, V3.mul_x, V3.mul_y, V3.mul_z]; ring
    have e3 : vol (a * x + b * y + c * z) c a = y * vol a b c := by
      simp only [vol, V3.dot, V3.cross, V3.add_x, V3.add_y, V3.add_z, V3.mul_x, V3.mul_y, V3.mul_z]; ring
    have e4 : h.dot (a * x + b * y + c * z) = h.dot a * x + h.dot b * y + h.dot c * z := by
      simp only [V3.dot, V3.add_x, V3.add_y, V3.add_z, V3.mul_x, V3.mul_y, V3.mul_z]; ring
    rw [e1] at hab
    rw [e1, e2, e3, e4]
    refine ⟨by positivity, ?_⟩
    rcases lt_trichotomy (vol a b c) 0 with hv | hv | hv
    · right; exact ⟨mul_neg_of_pos_of_neg hz hv, mul_neg_of_pos_of_neg hx hv, mul_neg_of_pos_of_neg hy hv⟩
    · rw [hv, mul_zero] at hab; exact absurd rfl hab
    · left; exact ⟨mul_pos hz hv, mul_pos hx hv, mul_pos hy hv⟩
  · rintro ⟨hu, hs⟩
    have e := vol_combo u a b c
    have ed : h.dot u * vol a b c = h.dot a * vol u b c + h.dot b * vol u c a + h.dot c * vol u a b := by
      rw [V3.ext_iff] at e
      simp only [V3.add_x, V3.add_y, V3.add_z, V3.mul_x, V3.mul_y, V3.mul_z] at e
      simp only [V3.dot] at *
      linear_combination h.x * e.1 + h.y * e.2.1 + h.z * e.2.2
    rcases hs with ⟨h1, h2, h3⟩ | ⟨h1, h2, h3⟩
    · have hv : 0 < vol a b c := by
        have : 0 < h.dot u * vol a b c := by rw [ed]; positivity
        exact pos_of_mul_pos_right this hu.le
      exact (inCone_pos hv).2 ⟨h1, h2, h3⟩
    · have hv : vol a b c < 0 := by
        have : h.dot u * vol a b c < 0 := by
          rw [ed]; nlinarith [mul_pos ha (neg_pos.2 h2), mul_pos hb (neg_pos.2 h3), mul_pos hc (neg_pos.2 h1)]
        by_contra hn
        push Not at hn
        nlinarith [mul_nonneg hu.le hn]
      have hv' : 0 < vol a c b := by
        have : vol a c b = -vol a b c := by simp only [vol, V3.dot, V3.cross]; ring
        rw [this]; linarith
      have sw : ∀ x y : V3 K, vol u x y = -vol u y x := fun x y => by simp only [vol, V3.dot, V3.cross]; ring
      rw [inCone_swap, inCone_pos hv', sw a c, sw c b, sw b a]
      exact ⟨by linarith, by linarith, by linarith⟩

theorem parallel_of_cross {p a : V3 K} (ha : a ≠ 0) (h : p.cross a = 0) : ∃ l : K, p = a * l := by
  refine ⟨p.dot a / a.dot a, ?_⟩
  have hd := dot_self_pos3 ha
  rw [V3.ext_iff] at h
  simp only [V3.cross, V3.zero_x, V3.zero_y, V3.zero_z] at h
  obtain ⟨h1, h2, h3⟩ := h
  have hd' : a.x * a.x + a.y * a.y + a.z * a.z ≠ 0 := by simp only [V3.dot] at hd; exact hd.ne'
  ext <;> simp only [V3.mul_x, V3.mul_y, V3.mul_z, V3.dot] <;> rw [mul_div_assoc', eq_div_iff hd']
  · linear_combination a.z * (-h2) + a.y * h3
  · linear_combination a.z * h1 - a.x * h3
  · linear_combination -a.y * h1 + a.x * h2

open Classical in
/-- The characteristic function of the cone, modulo 2. -/
noncomputable def chi (u a b c : V3 K) : ZMod 2 := if InCone u a b c then 1 else 0

theorem chi_swap (u a b c : V3 K) : chi u a b c = chi u a c b := by
  unfold chi; congr 1; exact propext inCone_swap
theorem chi_rot (u a b c : V3 K) : chi u a b c = chi u b c a := by
  unfold chi; congr 1; exact propext inCone_rot

/-- Of the four triangles with corners among four points on one side of a plane through the origin, an even number have a given (generic) direction in their cone. -/
theorem chi_tetra {u a b c p h : V3 K} (ha : 0 < h.dot a) (hb : 0 < h.dot b) (hc : 0 < h.dot c) (hp : 0 < h.dot p)
    (gab : vol u a b ≠ 0) (gbc : vol u b c ≠ 0) (gca : vol u c a ≠ 0)
    (gpa : p.cross a ≠ 0 → vol u p a ≠ 0) (gpb : p.cross b ≠ 0 → vol u p b ≠ 0) (gpc : p.cross c ≠ 0 → vol u p c ≠ 0) :
    chi u p a b + chi u p b c + chi u p c a = chi u a b c := by
  have sw : ∀ x y : V3 K, vol u x y = -vol u y x := fun x y => by simp only [vol, V3.dot, V3.cross]; ring
  have e1 : InCone u p a b ↔ _ := inCone_rot.trans (inCone_half ha hb hp gab)
  have e2 : InCone u p b c ↔ _ := inCone_rot.trans (inCone_half hb hc hp gbc)
  have e3 : InCone u p c a ↔ _ := inCone_rot.trans (inCone_half hc ha hp gca)
  have e4 := inCone_half ha hb hc gab
  unfold chi
  rw [e1, e2, e3, e4, sw b p, sw c p, sw a p]
  by_cases hu : 0 < h.dot u
  swap
  · simp [hu]
  have pl : vol u p a * vol u b c + vol u p b * vol u c a + vol u p c * vol u a b = 0 := by
    simp only [vol, V3.dot, V3.cross]; ring
  have par : ∀ x y z : V3 K, 0 < h.dot x → vol u p x = 0 → (p.cross x ≠ 0 → vol u p x ≠ 0) → ∃ l : K, 0 < l ∧ vol u p y = l * vol u x y ∧ vol u p z = l * vol u x z := by
    intro x y z hx h0 hg
    have hc0 : p.cross x = 0 := by by_contra hn; exact hg hn h0
    obtain ⟨l, hl⟩ := parallel_of_cross (by rintro rfl; simp [V3.dot] at hx) hc0
    have hpl : h.dot p = l * h.dot x := by rw [hl]; simp only [V3.dot, V3.mul_x, V3.mul_y, V3.mul_z]; ring
    refine ⟨l, ?_, ?_, ?_⟩
    · rw [hpl] at hp; exact pos_of_mul_pos_left hp hx.le
    · rw [hl]; simp only [vol, V3.dot, V3.cross, V3.mul_x, V3.mul_y, V3.mul_z]; ring
    · rw [hl]; simp only [vol, V3.dot, V3.cross, V3.mul_x, V3.mul_y, V3.mul_z]; ring
  by_cases za : vol u p a = 0
  · obtain ⟨l, hl, k1, k2⟩ := par a b c ha za gpa
    rw [sw a c] at k2
    rw [za, k1, k2]
    generalize vol u a b = A at *
    generalize vol u b c = B at *
    generalize vol u c a = C at *
    rcases lt_or_gt_of_ne gab with h1 | h1 <;> rcases lt_or_gt_of_ne gbc with h2 | h2 <;> rcases lt_or_gt_of_ne gca with h3 | h3 <;>
      simp [hu, h1, h2, h3, h1.not_gt, h2.not_gt, h3.not_gt, mul_pos_iff, mul_neg_iff, hl, hl.not_gt]
  by_cases zb : vol u p b = 0
  · obtain ⟨l, hl, k1, k2⟩ := par b c a hb zb gpb
    rw [sw b a] at k2
    rw [zb, k1, k2]
    generalize vol u a b = A at *
    generalize vol u b c = B at *
    generalize vol u c a = C at *
    rcases lt_or_gt_of_ne gab with h1 | h1 <;> rcases lt_or_gt_of_ne gbc with h2 | h2 <;> rcases lt_or_gt_of_ne gca with h3 | h3 <;>
      simp [hu, h1, h2, h3, h1.not_gt, h2.not_gt, h3.not_gt, mul_pos_iff, mul_neg_iff, hl, hl.not_gt]
  by_cases zc : vol u p c = 0
  · obtain ⟨l, hl, k1, k2⟩ := par c a b hc zc gpc
    rw [sw c b] at k2
    rw [zc, k1, k2]
    generalize vol u a b = A at *
    generalize vol u b c = B at *
    generalize vol u c a = C at *
    rcases lt_or_gt_of_ne gab with h1 | h1 <;> rcases lt_or_gt_of_ne gbc with h2 | h2 <;> rcases lt_or_gt_of_ne gca with h3 | h3 <;>
      simp [hu, h1, h2, h3, h1.not_gt, h2.not_gt, h3.not_gt, mul_pos_iff, mul_neg_iff, hl, hl.not_gt]
  clear par sw e1 e2 e3 e4
  generalize vol u a b = A at *
  generalize vol u b c = B at *
  generalize vol u c a = C at *
  generalize vol u p a = X at *
  generalize vol u p b = Y at *
  generalize vol u p c = Z at *
  rcases lt_or_gt_of_ne gab with h1 | h1 <;> rcases lt_or_gt_of_ne gbc with h2 | h2 <;> rcases lt_or_gt_of_ne gca with h3 | h3 <;>
    rcases lt_or_gt_of_ne za with h4 | h4 <;> rcases lt_or_gt_of_ne zb with h5 | h5 <;> rcases lt_or_gt_of_ne zc with h6 | h6 <;>
    first
    | (simp [hu, h1, h2, h3, h4, h5, h6, h1.not_gt, h2.not_gt, h3.not_gt, h4.not_gt, h5.not_gt, h6.not_gt]; done)
    | (simp [hu, h1, h2, h3, h4, h5, h6, h1.not_gt, h2.not_gt, h3.not_gt, h4.not_gt, h5.not_gt, h6.not_gt]; decide)
    | (exfalso
       have q1 : 0 < X * B := by first | exact mul_pos h4 h2 | exact mul_pos_of_neg_of_neg h4 h2
       have q2 : 0 < Y * C := by first | exact mul_pos h5 h3 | exact mul_pos_of_neg_of_neg h5 h3
       have q3 : 0 < Z * A := by first | exact mul_pos h6 h1 | exact mul_pos_of_neg_of_neg h6 h1
       linarith)
    | (exfalso
       have q1 : X * B < 0 := by first | exact mul_neg_of_pos_of_neg h4 h2 | exact mul_neg_of_neg_of_pos h4 h2
       have q2 : Y * C < 0 := by first | exact mul_neg_of_pos_of_neg h5 h3 | exact mul_neg_of_neg_of_pos h5 h3
       have q3 : Z * A < 0 := by first | exact mul_neg_of_pos_of_neg h6 h1 | exact mul_neg_of_neg_of_pos h6 h1
       linarith)
end Verif.Minkowski
