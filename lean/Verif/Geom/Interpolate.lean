import Verif.Geom.Transformed
import Mathlib.Analysis.SpecialFunctions.Trigonometric.Inverse
/-!
# Interpolation of transforms: model of `src/traits.rs:180-246`; C58, C76

`lerp` is cgmath's `VectorSpace::lerp`: `self + (other - self) * amount`.
-/
namespace Verif.Geom
open Verif
set_option linter.unusedSectionVars false

section
variable {K : Type} [Field K] [LinearOrder K]

/-- A quaternion `s + v`, cgmath `Quaternion` -/
@[ext] structure Quat (K : Type) where
  s : K
  v : V3 K
  deriving DecidableEq

/-- Specification: squared length of a quaternion. -/
def Quat.normSq (q : Quat K) : K := q.s * q.s + q.v.dot q.v
/-- Specification: squared distance of two quaternions. -/
def Quat.distSq (p q : Quat K) : K := (q.s - p.s) * (q.s - p.s) + (q.v - p.v).dot (q.v - p.v)

/-- `VectorSpace::lerp` on scalars, vectors and quaternions -/
def lerpK (a b t : K) : K := a + (b - a) * t
/-- `VectorSpace::lerp` on `Vector2` -/
def V2.lerp (a b : V2 K) (t : K) : V2 K := a + (b - a) * t
/-- `VectorSpace::lerp` on `Vector3` -/
def V3.lerp (a b : V3 K) (t : K) : V3 K := a + (b - a) * t
/-- `Interpolate for Quaternion`, `src/traits.rs:181-188` -/
def Quat.interpolate (p q : Quat K) (t : K) : Quat K := ⟨lerpK p.s q.s t, p.v.lerp q.v t⟩
/-- cgmath's `Quaternion * Vector3`: what a quaternion used as rotation does to a vector -/
def Quat.rotate (q : Quat K) (w : V3 K) : V3 K := q.v.cross (q.v.cross w + w * q.s) * (2 : K) + w

/-- cgmath `Decomposed<Vector3, Quaternion>` -/
@[ext] structure DecQ (K : Type) where
  scale : K
  rot : Quat K
  disp : V3 K
/-- `transform_point` of cgmath's `Decomposed`: rotate the scaled point, then translate -/
def DecQ.point (D : DecQ K) (p : V3 K) : V3 K := D.rot.rotate (p * D.scale) + D.disp
/-- `Interpolate for Decomposed` with quaternion rotation, `src/traits.rs:218-231` -/
def DecQ.interpolate (D E : DecQ K) (t : K) : DecQ K :=
  ⟨D.scale * (1 - t) + E.scale * t, D.rot.interpolate E.rot t, D.disp.lerp E.disp t⟩
/-- `TranslationInterpolate for Decomposed`, `src/traits.rs:233-246` -/
def DecQ.translationInterpolate (D E : DecQ K) (t : K) : DecQ K := ⟨E.scale, E.rot, D.disp.lerp E.disp t⟩

/-- **C58, the ends:** at 0 the interpolation is the first transform, at 1 the second. -/
theorem c58_ends (D E : DecQ K) : D.interpolate E 0 = D ∧ D.interpolate E 1 = E := by
  constructor <;> (ext <;> simp [DecQ.interpolate, Quat.interpolate, lerpK, V3.lerp])

/-- **C58, in between:** scale, displacement and the quaternion's components are `self * (1 - t) + other * t`. -/
theorem c58_affine (D E : DecQ K) (t : K) :
    (D.interpolate E t).scale = D.scale * (1 - t) + E.scale * t ∧ (D.interpolate E t).disp = D.disp * (1 - t) + E.disp * t ∧
    (D.interpolate E t).rot.s = D.rot.s * (1 - t) + E.rot.s * t ∧ (D.interpolate E t).rot.v = D.rot.v * (1 - t) + E.rot.v * t := by
  refine ⟨rfl, ?_, ?_, ?_⟩
  · ext <;> simp [DecQ.interpolate, V3.lerp] <;> ring
  · simp [DecQ.interpolate, Quat.interpolate, lerpK]; ring
  · ext <;> simp [DecQ.interpolate, Quat.interpolate, V3.lerp] <;> ring

/-- **C58, same transform:** interpolating a transform with itself does not change it, for every amount. -/
theorem c58_same (D : DecQ K) (t : K) : D.interpolate D t = D := by
  ext <;> simp [DecQ.interpolate, Quat.interpolate, lerpK, V3.lerp]
  ring

/-- **C58, reversal:** interpolating backwards by `1 - t` is interpolating forwards by `t`. -/
theorem c58_reverse (D E : DecQ K) (t : K) : E.interpolate D (1 - t) = D.interpolate E t := by
  ext <;> simp [DecQ.interpolate, Quat.interpolate, lerpK, V3.lerp] <;> ring

/-- **C58, translation only:** the displacement is interpolated, rotation and scale are those of `other` for every amount, 0 included. -/
theorem c58_translation (D E : DecQ K) (t : K) : (D.translationInterpolate E t).scale = E.scale ∧ (D.translationInterpolate E t).rot = E.rot ∧
    (D.translationInterpolate E t).disp = D.disp * (1 - t) + E.disp * t ∧
    D.translationInterpolate E 1 = E ∧ (D.translationInterpolate E 0 = D ↔ D.scale = E.scale ∧ D.rot = E.rot) := by
  refine ⟨rfl, rfl, ?_, ?_, ?_⟩
  · ext <;> simp [DecQ.translationInterpolate, V3.lerp] <;> ring
  · ext <;> simp [DecQ.translationInterpolate, V3.lerp]
  · constructor
    · intro h; rw [← h]; exact ⟨rfl, rfl⟩
    · rintro ⟨h1, h2⟩
      have : D.disp.lerp E.disp 0 = D.disp := by ext <;> simp [V3.lerp]
      simp only [DecQ.translationInterpolate, this, ← h1, ← h2]

/-- For transforms of the same rotation and scale the placed points are interpolated too, by both kinds of interpolation. -/
theorem c58_points (D E : DecQ K) (h1 : D.scale = E.scale) (h2 : D.rot = E.rot) (t : K) (p : V3 K) :
    (D.interpolate E t).point p = (D.point p).lerp (E.point p) t ∧ (D.translationInterpolate E t).point p = (D.point p).lerp (E.point p) t := by
  have e1 : (D.interpolate E t).rot = E.rot := by
    rw [← h2]
    ext <;> simp [DecQ.interpolate, h2, Quat.interpolate, lerpK, V3.lerp]
  have e2 : (D.interpolate E t).scale = E.scale := by simp only [DecQ.interpolate, h1]; ring
  constructor
  · simp only [DecQ.point, e1, e2, h1, h2]
    ext <;> simp [DecQ.interpolate, V3.lerp] <;> ring
  · simp only [DecQ.point, h1, h2]
    ext <;> simp [DecQ.translationInterpolate, V3.lerp] <;> ring

variable [IsStrictOrderedRing K]

/-! ## C76: is the interpolated rotation a rotation? -/

/-- The length of the quaternion between two unit quaternions. -/
theorem c76_quaternion_length (p q : Quat K) (hp : p.normSq = 1) (hq : q.normSq = 1) (t : K) :
    (p.interpolate q t).normSq = 1 - t * (1 - t) * p.distSq q := by
  simp only [Quat.normSq, Quat.distSq, Quat.interpolate, lerpK, V3.lerp, V3.dot, V3.add_x, V3.add_y, V3.add_z, V3.mul_x, V3.mul_y, V3.mul_z,
    V3.sub_x, V3.sub_y, V3.sub_z] at *
  linear_combination (1 - t) * hp + t * hq

theorem Quat.distSq_pos {p q : Quat K} (h : p ≠ q) : 0 < p.distSq q := by
  have h1 := mul_self_nonneg (q.s - p.s)
  have h2 := mul_self_nonneg (q.v.x - p.v.x)
  have h3 := mul_self_nonneg (q.v.y - p.v.y)
  have h4 := mul_self_nonneg (q.v.z - p.v.z)
  have e : p.distSq q = (q.s - p.s) * (q.s - p.s) + ((q.v.x - p.v.x) * (q.v.x - p.v.x) + (q.v.y - p.v.y) * (q.v.y - p.v.y) +
    (q.v.z - p.v.z) * (q.v.z - p.v.z)) := rfl
  rcases lt_or_eq_of_le (show 0 ≤ p.distSq q by rw [e]; linarith) with hx | hx
  · exact hx
  · exfalso; apply h
    rw [e] at hx
    have z1 : q.s - p.s = 0 := mul_self_eq_zero.1 (by linarith)
    have z2 : q.v.x - p.v.x = 0 := mul_self_eq_zero.1 (by linarith)
    have z3 : q.v.y - p.v.y = 0 := mul_self_eq_zero.1 (by linarith)
    have z4 : q.v.z - p.v.z = 0 := mul_self_eq_zero.1 (by linarith)
    ext
    · linarith
    · show p.v.x = q.v.x; linarith
    · show p.v.y = q.v.y; linarith
    · show p.v.z = q.v.z; linarith

/-- **C76 fails for all interior amounts:** between two different unit quaternions the interpolated one is shorter than one. -/
theorem c76_quaternion_false (p q : Quat K) (hp : p.normSq = 1) (hq : q.normSq = 1) (hpq : p ≠ q) (t : K) (h0 : 0 < t) (h1 : t < 1) :
    (p.interpolate q t).normSq < 1 := by
  rw [c76_quaternion_length p q hp hq]
  have := mul_pos (mul_pos h0 (sub_pos.2 h1)) (Quat.distSq_pos hpq)
  linarith

/-- What `Quat.rotate` does with a quaternion that is not of unit length: the length it gives to a vector across the axis of a half turn. -/
theorem Quat.rotate_length (q : Quat K) (w : V3 K) : (q.rotate w).dot (q.rotate w) =
    w.dot w - 4 * (1 - q.normSq) * (q.v.cross w).dot (q.v.cross w) := by
  simp only [Quat.rotate, Quat.normSq, V3.cross, V3.dot, V3.add_x, V3.add_y, V3.add_z, V3.mul_x, V3.mul_y, V3.mul_z]
  ring

/-- **C76 for quaternion rotations fails:** the interpolated transform shrinks every vector that is not along the axis of the interpolated quaternion. -/
theorem c76_shrinks_false (p q : Quat K) (hp : p.normSq = 1) (hq : q.normSq = 1) (hpq : p ≠ q) (t : K) (h0 : 0 < t) (h1 : t < 1) (w : V3 K)
    (hw : 0 < ((p.interpolate q t).v.cross w).dot ((p.interpolate q t).v.cross w)) :
    ((p.interpolate q t).rotate w).dot ((p.interpolate q t).rotate w) < w.dot w := by
  rw [Quat.rotate_length]
  have := c76_quaternion_false p q hp hq hpq t h0 h1
  have := mul_pos (sub_pos.2 this) hw
  linarith

/-- **C76, the ends:** unit quaternions keep lengths, so at 0 and 1, and between equal rotations, the interpolated rotation keeps lengths. -/
theorem c76_ends_partial (p q : Quat K) (hp : p.normSq = 1) (hq : q.normSq = 1) (t : K) (ht : t = 0 ∨ t = 1 ∨ p = q) (w : V3 K) :
    ((p.interpolate q t).rotate w).dot ((p.interpolate q t).rotate w) = w.dot w := by
  rw [Quat.rotate_length, c76_quaternion_length p q hp hq]
  rcases ht with rfl | rfl | rfl
  · ring
  · ring
  · have : p.distSq p = 0 := by simp [Quat.distSq, V3.dot]
    rw [this]; ring

/-- a concrete case: halfway between no rotation and the half turn about `x`, `y` is shortened to length `√½` -/
theorem c76_example : ∃ p q : Quat ℚ, p.normSq = 1 ∧ q.normSq = 1 ∧ ((p.interpolate q (1 / 2)).rotate ⟨0, 1, 0⟩).dot ((p.interpolate q (1 / 2)).rotate ⟨0, 1, 0⟩) = 1 / 2 :=
  ⟨⟨1, 0, 0, 0⟩, ⟨0, 1, 0, 0⟩, by decide +kernel, by decide +kernel, by decide +kernel⟩

end

/-! ## Basis2 -/

noncomputable section

/-- `Basis2::from_angle`, cgmath: columns `(cos, sin)` and `(-sin, cos)` -/
def M2.fromAngle (a : ℝ) : M2 ℝ := ⟨⟨Real.cos a, Real.sin a⟩, ⟨-Real.sin a, Real.cos a⟩⟩
/-- `Interpolate for Basis2`, `src/traits.rs:201-216` -/
def M2.interpolate (m n : M2 ℝ) (t : ℝ) : M2 ℝ :=
  let c := m.c0.lerp n.c0 t
  M2.fromAngle (Real.arccos c.x)

/-- **C76 for 2D rotations:** the result is always a rotation. -/
theorem c76_basis2 (m n : M2 ℝ) (t : ℝ) : (m.interpolate n t).Orthogonal := by
  set a := Real.arccos (m.c0.lerp n.c0 t).x
  have := Real.sin_sq_add_cos_sq a
  show (M2.fromAngle a).Orthogonal
  refine ⟨?_, ?_, ?_⟩ <;> simp only [M2.fromAngle, V2.dot] <;> nlinarith

/-- **C58 for 2D rotations, partial:** for angles between 0 and half a turn the ends are right, and the cosine is interpolated. -/
theorem c58_basis2_partial (a b : ℝ) (ha : 0 ≤ a ∧ a ≤ Real.pi) (hb : 0 ≤ b ∧ b ≤ Real.pi) :
    (M2.fromAngle a).interpolate (M2.fromAngle b) 0 = M2.fromAngle a ∧ (M2.fromAngle a).interpolate (M2.fromAngle b) 1 = M2.fromAngle b ∧
    ∀ t, 0 ≤ t → t ≤ 1 → ((M2.fromAngle a).interpolate (M2.fromAngle b) t).c0.x = Real.cos a * (1 - t) + Real.cos b * t := by
  refine ⟨?_, ?_, fun t h0 h1 => ?_⟩
  · simp only [M2.interpolate, V2.lerp, M2.fromAngle, V2.add_x, V2.mul_x, V2.sub_x, mul_zero, add_zero, Real.arccos_cos ha.1 ha.2]
  · simp only [M2.interpolate, V2.lerp, M2.fromAngle, V2.add_x, V2.mul_x, V2.sub_x, mul_one, add_sub_cancel, Real.arccos_cos hb.1 hb.2]
  · have e : (M2.fromAngle a).c0.lerp (M2.fromAngle b).c0 t = ⟨Real.cos a * (1 - t) + Real.cos b * t, Real.sin a * (1 - t) + Real.sin b * t⟩ := by
      ext <;> simp [V2.lerp, M2.fromAngle] <;> ring
    simp only [M2.interpolate, e]
    show Real.cos (Real.arccos _) = _
    have c1 := Real.neg_one_le_cos a
    have c2 := Real.cos_le_one a
    have c3 := Real.neg_one_le_cos b
    have c4 := Real.cos_le_one b
    apply Real.cos_arccos <;> nlinarith

/-- **C58 is false for 2D rotations:** for every rotation by a negative angle, interpolating it with itself, or with anything by amount 0, gives the
opposite rotation. -/
theorem c58_basis2_false (a : ℝ) (h0 : 0 < a) (h1 : a < Real.pi) (n : M2 ℝ) :
    (M2.fromAngle (-a)).interpolate n 0 = M2.fromAngle a ∧ (M2.fromAngle (-a)).interpolate n 0 ≠ M2.fromAngle (-a) := by
  have e : (M2.fromAngle (-a)).interpolate n 0 = M2.fromAngle a := by
    simp only [M2.interpolate, V2.lerp, M2.fromAngle, V2.add_x, V2.mul_x, V2.sub_x, mul_zero, add_zero, Real.cos_neg, Real.arccos_cos h0.le h1.le]
  refine ⟨e, ?_⟩
  rw [e]
  intro h
  have hs : Real.sin a = Real.sin (-a) := congrArg (fun m : M2 ℝ => m.c0.y) h
  rw [Real.sin_neg] at hs
  have := Real.sin_pos_of_pos_of_lt_pi h0 h1
  linarith

end
end Verif.Geom
