import Verif.Geom.Interpolate
import Verif.Geom.RealVec
import Mathlib.Tactic.FieldSimp
import Mathlib.Tactic.LinearCombination
/-!
# Interpolation of 3D rotation matrices: model of `src/traits.rs:190-199`; C58, C76, C82

The code converts both matrices to quaternions, interpolates those and converts back. The two conversions are cgmath's (0.18).
-/
namespace Verif.Geom
open Verif
set_option linter.unusedSectionVars false

/-- Specification: a rotation matrix: orthonormal columns, each the cross product of the other two. -/
structure M3.Rotation {K : Type} [Field K] (m : M3 K) : Prop where
  unit0 : m.c0.dot m.c0 = 1
  unit1 : m.c1.dot m.c1 = 1
  unit2 : m.c2.dot m.c2 = 1
  orth01 : m.c0.dot m.c1 = 0
  orth02 : m.c0.dot m.c2 = 0
  orth12 : m.c1.dot m.c2 = 0
  hand : m.c0.cross m.c1 = m.c2

/-- cgmath's `Matrix3::from(Quaternion)`, which is `Basis3::from(Quaternion)` -/
def Quat.toMatrix {K : Type} [Field K] (q : Quat K) : M3 K :=
  let x2 := q.v.x + q.v.x
  let y2 := q.v.y + q.v.y
  let z2 := q.v.z + q.v.z
  let xx2 := x2 * q.v.x
  let xy2 := x2 * q.v.y
  let xz2 := x2 * q.v.z
  let yy2 := y2 * q.v.y
  let yz2 := y2 * q.v.z
  let zz2 := z2 * q.v.z
  let sy2 := y2 * q.s
  let sz2 := z2 * q.s
  let sx2 := x2 * q.s
  ⟨⟨1 - yy2 - zz2, xy2 + sz2, xz2 - sy2⟩, ⟨xy2 - sz2, 1 - xx2 - zz2, yz2 + sx2⟩, ⟨xz2 + sy2, yz2 - sx2, 1 - xx2 - yy2⟩⟩

noncomputable section

/-- cgmath's `Quaternion::from(Matrix3)`, which is `Quaternion::from(*basis.as_ref())`; `m.c1.z` is `mat[1][2]` -/
def M3.toQuat (m : M3 ℝ) : Quat ℝ :=
  let trace := m.c0.x + m.c1.y + m.c2.z
  if 0 ≤ trace then
    let s := Real.sqrt (1 + trace)
    let w := 1 / 2 * s
    let s := 1 / 2 / s
    ⟨w, (m.c1.z - m.c2.y) * s, (m.c2.x - m.c0.z) * s, (m.c0.y - m.c1.x) * s⟩
  else if m.c0.x > m.c1.y ∧ m.c0.x > m.c2.z then
    let s := Real.sqrt ((m.c0.x - m.c1.y - m.c2.z) + 1)
    let x := 1 / 2 * s
    let s := 1 / 2 / s
    ⟨(m.c1.z - m.c2.y) * s, x, (m.c1.x + m.c0.y) * s, (m.c0.z + m.c2.x) * s⟩
  else if m.c1.y > m.c2.z then
    let s := Real.sqrt ((m.c1.y - m.c0.x - m.c2.z) + 1)
    let y := 1 / 2 * s
    let s := 1 / 2 / s
    ⟨(m.c2.x - m.c0.z) * s, (m.c1.x + m.c0.y) * s, y, (m.c2.y + m.c1.z) * s⟩
  else
    let s := Real.sqrt ((m.c2.z - m.c0.x - m.c1.y) + 1)
    let z := 1 / 2 * s
    let s := 1 / 2 / s
    ⟨(m.c0.y - m.c1.x) * s, (m.c0.z + m.c2.x) * s, (m.c2.y + m.c1.z) * s, z⟩

/-- `Interpolate for Basis3`, `src/traits.rs:190-199` -/
def M3.interpolate (m n : M3 ℝ) (t : ℝ) : M3 ℝ := (m.toQuat.interpolate n.toQuat t).toMatrix

/-- `Interpolate for Decomposed<Vector3, Basis3>`, `src/traits.rs:218-231` -/
def Dec3.interpolate (D E : Dec3 ℝ) (t : ℝ) : Dec3 ℝ :=
  ⟨D.scale * (1 - t) + E.scale * t, D.rot.interpolate E.rot t, D.disp.lerp E.disp t⟩
/-- `TranslationInterpolate for Decomposed<Vector3, Basis3>`, `src/traits.rs:233-246` -/
def Dec3.translationInterpolate (D E : Dec3 ℝ) (t : ℝ) : Dec3 ℝ := ⟨E.scale, E.rot, D.disp.lerp E.disp t⟩

/-- The matrix of a quaternion does what the quaternion does. -/
theorem Quat.toMatrix_apply {K : Type} [Field K] (q : Quat K) (w : V3 K) : q.toMatrix.apply w = q.rotate w := by
  ext <;> simp only [Quat.toMatrix, M3.apply, Quat.rotate, V3.cross, V3.add_x, V3.add_y, V3.add_z, V3.mul_x, V3.mul_y, V3.mul_z] <;> ring

/-- The polynomial relations between the entries of a rotation matrix (entries named by column, row). -/
structure Rel (a b c d e f g h i : ℝ) : Prop where
  u0 : a * a + b * b + c * c = 1
  u1 : d * d + e * e + f * f = 1
  u2 : g * g + h * h + i * i = 1
  o01 : a * d + b * e + c * f = 0
  o02 : a * g + b * h + c * i = 0
  o12 : d * g + e * h + f * i = 0
  r0 : a * a + d * d + g * g = 1
  r1 : b * b + e * e + h * h = 1
  r2 : c * c + f * f + i * i = 1
  p01 : a * b + d * e + g * h = 0
  p02 : a * c + d * f + g * i = 0
  p12 : b * c + e * f + h * i = 0
  k00 : e * i - f * h = a
  k01 : f * g - d * i = b
  k02 : d * h - e * g = c
  k10 : c * h - b * i = d
  k11 : a * i - c * g = e
  k12 : b * g - a * h = f
  k20 : b * f - c * e = g
  k21 : c * d - a * f = h
  k22 : a * e - b * d = i

theorem M3.Rotation.rel {m : M3 ℝ} (h : m.Rotation) :
    Rel m.c0.x m.c0.y m.c0.z m.c1.x m.c1.y m.c1.z m.c2.x m.c2.y m.c2.z := by
  obtain ⟨⟨a, b, c⟩, ⟨d, e, f⟩, ⟨g, hh, i⟩⟩ := m
  obtain ⟨u0, u1, u2, o01, o02, o12, hand⟩ := h
  simp only [V3.dot, V3.cross, V3.ext_iff] at u0 u1 u2 o01 o02 o12 hand
  obtain ⟨k20, k21, k22⟩ := hand
  -- the other cofactors, from `c0 × c1 = c2` and the double cross product
  have k00 : e * i - f * hh = a := by
    rw [← k22, ← k21]; linear_combination a * u1 - d * o01
  have k01 : f * g - d * i = b := by
    rw [← k22, ← k20]; linear_combination b * u1 - e * o01
  have k02 : d * hh - e * g = c := by
    rw [← k21, ← k20]; linear_combination c * u1 - f * o01
  have k10 : c * hh - b * i = d := by
    rw [← k22, ← k21]; linear_combination d * u0 - a * o01
  have k11 : a * i - c * g = e := by
    rw [← k22, ← k20]; linear_combination e * u0 - b * o01
  have k12 : b * g - a * hh = f := by
    rw [← k21, ← k20]; linear_combination f * u0 - c * o01
  -- the determinant, along columns and rows
  refine ⟨u0, u1, u2, o01, o02, o12, ?_, ?_, ?_, ?_, ?_, ?_, k00, k01, k02, k10, k11, k12, k20, k21, k22⟩
  · linear_combination u0 + b * k01 + c * k02 - d * k10 - g * k20
  · linear_combination u0 + a * k00 + c * k02 - e * k11 - hh * k21
  · linear_combination u0 + a * k00 + b * k01 - f * k12 - i * k22
  · linear_combination -a * k01 - d * k11 - g * k21
  · linear_combination -a * k02 - d * k12 - g * k22
  · linear_combination -b * k02 - e * k12 - hh * k22

/-- A quaternion whose products of components are those of the matrix. -/
theorem ofProducts {a b c d e f g h i : ℝ} (q : Quat ℝ) (ss : q.s * q.s = (1 + a + e + i) * (1 / 4)) (sx : q.s * q.v.x = (f - h) * (1 / 4))
    (sy : q.s * q.v.y = (g - c) * (1 / 4)) (sz : q.s * q.v.z = (b - d) * (1 / 4)) (xx : q.v.x * q.v.x = (1 + a - e - i) * (1 / 4))
    (xy : q.v.x * q.v.y = (b + d) * (1 / 4)) (xz : q.v.x * q.v.z = (c + g) * (1 / 4)) (yy : q.v.y * q.v.y = (1 - a + e - i) * (1 / 4))
    (yz : q.v.y * q.v.z = (f + h) * (1 / 4)) (zz : q.v.z * q.v.z = (1 - a - e + i) * (1 / 4)) :
    q.toMatrix = ⟨⟨a, b, c⟩, ⟨d, e, f⟩, ⟨g, h, i⟩⟩ ∧ q.normSq = 1 := by
  constructor
  · simp only [Quat.toMatrix, M3.mk.injEq, V3.mk.injEq]
    refine ⟨⟨?_, ?_, ?_⟩, ⟨?_, ?_, ?_⟩, ?_, ?_, ?_⟩
    · linear_combination -2 * yy - 2 * zz
    · linear_combination 2 * xy + 2 * sz
    · linear_combination 2 * xz - 2 * sy
    · linear_combination 2 * xy - 2 * sz
    · linear_combination -2 * xx - 2 * zz
    · linear_combination 2 * yz + 2 * sx
    · linear_combination 2 * xz + 2 * sy
    · linear_combination 2 * yz - 2 * sx
    · linear_combination -2 * xx - 2 * yy
  · simp only [Quat.normSq, V3.dot]
    linear_combination ss + xx + yy + zz

theorem Rel.row_s {a b c d e f g h i t : ℝ} (R : Rel a b c d e f g h i) (ht : t * t * (1 + a + e + i) = 1 / 4) :
    (⟨(1 + a + e + i) * t, (f - h) * t, (g - c) * t, (b - d) * t⟩ : Quat ℝ).toMatrix = ⟨⟨a, b, c⟩, ⟨d, e, f⟩, ⟨g, h, i⟩⟩ ∧
    (⟨(1 + a + e + i) * t, (f - h) * t, (g - c) * t, (b - d) * t⟩ : Quat ℝ).normSq = 1 := by
  obtain ⟨u0, u1, u2, o01, o02, o12, r0, r1, r2, p01, p02, p12, k00, k01, k02, k10, k11, k12, k20, k21, k22⟩ := R
  have msxx : (f - h) * (f - h) = (1 + a + e + i) * (1 + a - e - i) := by linear_combination (1) * u1 + (1) * u2 + (-1) * r0 + (2) * k00
  have msxy : (f - h) * (g - c) = (1 + a + e + i) * (b + d) := by linear_combination (-1) * o01 + (-1) * p01 + (1) * k01 + (1) * k10
  have msxz : (f - h) * (b - d) = (1 + a + e + i) * (c + g) := by linear_combination (-1) * o02 + (-1) * p02 + (1) * k02 + (1) * k20
  have msyy : (g - c) * (g - c) = (1 + a + e + i) * (1 - a + e - i) := by linear_combination (1) * u0 + (1) * u2 + (-1) * r1 + (2) * k11
  have msyz : (g - c) * (b - d) = (1 + a + e + i) * (f + h) := by linear_combination (-1) * o12 + (-1) * p12 + (1) * k12 + (1) * k21
  have mszz : (b - d) * (b - d) = (1 + a + e + i) * (1 - a - e + i) := by linear_combination (-1) * u2 + (1) * r0 + (1) * r1 + (2) * k22
  exact ofProducts _ (by linear_combination (1 + a + e + i) * ht) (by linear_combination (f - h) * ht) (by linear_combination (g - c) * ht) (by linear_combination (b - d) * ht) (by linear_combination t * t * msxx + (1 + a - e - i) * ht) (by linear_combination t * t * msxy + (b + d) * ht) (by linear_combination t * t * msxz + (c + g) * ht) (by linear_combination t * t * msyy + (1 - a + e - i) * ht) (by linear_combination t * t * msyz + (f + h) * ht) (by linear_combination t * t * mszz + (1 - a - e + i) * ht)

theorem Rel.row_x {a b c d e f g h i t : ℝ} (R : Rel a b c d e f g h i) (ht : t * t * (1 + a - e - i) = 1 / 4) :
    (⟨(f - h) * t, (1 + a - e - i) * t, (b + d) * t, (c + g) * t⟩ : Quat ℝ).toMatrix = ⟨⟨a, b, c⟩, ⟨d, e, f⟩, ⟨g, h, i⟩⟩ ∧
    (⟨(f - h) * t, (1 + a - e - i) * t, (b + d) * t, (c + g) * t⟩ : Quat ℝ).normSq = 1 := by
  obtain ⟨u0, u1, u2, o01, o02, o12, r0, r1, r2, p01, p02, p12, k00, k01, k02, k10, k11, k12, k20, k21, k22⟩ := R
  have mxss : (f - h) * (f - h) = (1 + a - e - i) * (1 + a + e + i) := by linear_combination (1) * u1 + (1) * u2 + (-1) * r0 + (2) * k00
  have mxsy : (f - h) * (b + d) = (1 + a - e - i) * (g - c) := by linear_combination (-1) * o02 + (1) * p02 + (-1) * k02 + (1) * k20
  have mxsz : (f - h) * (c + g) = (1 + a - e - i) * (b - d) := by linear_combination (1) * o01 + (-1) * p01 + (1) * k01 + (-1) * k10
  have mxyy : (b + d) * (b + d) = (1 + a - e - i) * (1 - a + e - i) := by linear_combination (-1) * u2 + (1) * r0 + (1) * r1 + (-2) * k22
  have mxyz : (b + d) * (c + g) = (1 + a - e - i) * (f + h) := by linear_combination (1) * o12 + (1) * p12 + (1) * k12 + (1) * k21
  have mxzz : (c + g) * (c + g) = (1 + a - e - i) * (1 - a - e + i) := by linear_combination (1) * u0 + (1) * u2 + (-1) * r1 + (-2) * k11
  exact ofProducts _ (by linear_combination t * t * mxss + (1 + a + e + i) * ht) (by linear_combination (f - h) * ht) (by linear_combination t * t * mxsy + (g - c) * ht) (by linear_combination t * t * mxsz + (b - d) * ht) (by linear_combination (1 + a - e - i) * ht) (by linear_combination (b + d) * ht) (by linear_combination (c + g) * ht) (by linear_combination t * t * mxyy + (1 - a + e - i) * ht) (by linear_combination t * t * mxyz + (f + h) * ht) (by linear_combination t * t * mxzz + (1 - a - e + i) * ht)

theorem Rel.row_y {a b c d e f g h i t : ℝ} (R : Rel a b c d e f g h i) (ht : t * t * (1 - a + e - i) = 1 / 4) :
    (⟨(g - c) * t, (b + d) * t, (1 - a + e - i) * t, (f + h) * t⟩ : Quat ℝ).toMatrix = ⟨⟨a, b, c⟩, ⟨d, e, f⟩, ⟨g, h, i⟩⟩ ∧
    (⟨(g - c) * t, (b + d) * t, (1 - a + e - i) * t, (f + h) * t⟩ : Quat ℝ).normSq = 1 := by
  obtain ⟨u0, u1, u2, o01, o02, o12, r0, r1, r2, p01, p02, p12, k00, k01, k02, k10, k11, k12, k20, k21, k22⟩ := R
  have myss : (g - c) * (g - c) = (1 - a + e - i) * (1 + a + e + i) := by linear_combination (1) * u0 + (1) * u2 + (-1) * r1 + (2) * k11
  have mysx : (g - c) * (b + d) = (1 - a + e - i) * (f - h) := by linear_combination (1) * o12 + (-1) * p12 + (1) * k12 + (-1) * k21
  have mysz : (g - c) * (f + h) = (1 - a + e - i) * (b - d) := by linear_combination (-1) * o01 + (1) * p01 + (1) * k01 + (-1) * k10
  have myxx : (b + d) * (b + d) = (1 - a + e - i) * (1 + a - e - i) := by linear_combination (-1) * u2 + (1) * r0 + (1) * r1 + (-2) * k22
  have myxz : (b + d) * (f + h) = (1 - a + e - i) * (c + g) := by linear_combination (1) * o02 + (1) * p02 + (1) * k02 + (1) * k20
  have myzz : (f + h) * (f + h) = (1 - a + e - i) * (1 - a - e + i) := by linear_combination (1) * u1 + (1) * u2 + (-1) * r0 + (-2) * k00
  exact ofProducts _ (by linear_combination t * t * myss + (1 + a + e + i) * ht) (by linear_combination t * t * mysx + (f - h) * ht) (by linear_combination (g - c) * ht) (by linear_combination t * t * mysz + (b - d) * ht) (by linear_combination t * t * myxx + (1 + a - e - i) * ht) (by linear_combination (b + d) * ht) (by linear_combination t * t * myxz + (c + g) * ht) (by linear_combination (1 - a + e - i) * ht) (by linear_combination (f + h) * ht) (by linear_combination t * t * myzz + (1 - a - e + i) * ht)

theorem Rel.row_z {a b c d e f g h i t : ℝ} (R : Rel a b c d e f g h i) (ht : t * t * (1 - a - e + i) = 1 / 4) :
    (⟨(b - d) * t, (c + g) * t, (f + h) * t, (1 - a - e + i) * t⟩ : Quat ℝ).toMatrix = ⟨⟨a, b, c⟩, ⟨d, e, f⟩, ⟨g, h, i⟩⟩ ∧
    (⟨(b - d) * t, (c + g) * t, (f + h) * t, (1 - a - e + i) * t⟩ : Quat ℝ).normSq = 1 := by
  obtain ⟨u0, u1, u2, o01, o02, o12, r0, r1, r2, p01, p02, p12, k00, k01, k02, k10, k11, k12, k20, k21, k22⟩ := R
  have mzss : (b - d) * (b - d) = (1 - a - e + i) * (1 + a + e + i) := by linear_combination (-1) * u2 + (1) * r0 + (1) * r1 + (2) * k22
  have mzsx : (b - d) * (c + g) = (1 - a - e + i) * (f - h) := by linear_combination (-1) * o12 + (1) * p12 + (1) * k12 + (-1) * k21
  have mzsy : (b - d) * (f + h) = (1 - a - e + i) * (g - c) := by linear_combination (1) * o02 + (-1) * p02 + (-1) * k02 + (1) * k20
  have mzxx : (c + g) * (c + g) = (1 - a - e + i) * (1 + a - e - i) := by linear_combination (1) * u0 + (1) * u2 + (-1) * r1 + (-2) * k11
  have mzxy : (c + g) * (f + h) = (1 - a - e + i) * (b + d) := by linear_combination (1) * o01 + (1) * p01 + (1) * k01 + (1) * k10
  have mzyy : (f + h) * (f + h) = (1 - a - e + i) * (1 - a + e - i) := by linear_combination (1) * u1 + (1) * u2 + (-1) * r0 + (-2) * k00
  exact ofProducts _ (by linear_combination t * t * mzss + (1 + a + e + i) * ht) (by linear_combination t * t * mzsx + (f - h) * ht) (by linear_combination t * t * mzsy + (g - c) * ht) (by linear_combination (b - d) * ht) (by linear_combination t * t * mzxx + (1 + a - e - i) * ht) (by linear_combination t * t * mzxy + (b + d) * ht) (by linear_combination (c + g) * ht) (by linear_combination t * t * mzyy + (1 - a + e - i) * ht) (by linear_combination (f + h) * ht) (by linear_combination (1 - a - e + i) * ht)

theorem half_sqrt {x : ℝ} (hx : 0 < x) : (1 / 2 / Real.sqrt x) * (1 / 2 / Real.sqrt x) * x = 1 / 4 ∧
    1 / 2 * Real.sqrt x = x * (1 / 2 / Real.sqrt x) := by
  have hs := (Real.sqrt_pos.2 hx).ne'
  have hq := Real.mul_self_sqrt hx.le
  generalize Real.sqrt x = s at *
  subst hq
  constructor <;> field_simp <;> norm_num

/-- **The conversion to a quaternion is right:** the quaternion has unit length and its matrix is the given one. -/
theorem M3.toQuat_spec {m : M3 ℝ} (hm : m.Rotation) : m.toQuat.toMatrix = m ∧ m.toQuat.normSq = 1 := by
  have R := hm.rel
  obtain ⟨⟨a, b, c⟩, ⟨d, e, f⟩, ⟨g, h, i⟩⟩ := m
  simp only [] at R
  unfold M3.toQuat
  dsimp only
  split
  · rename_i ht
    obtain ⟨h1, h2⟩ := half_sqrt (show 0 < 1 + (a + e + i) by linarith)
    rw [h2, show (1 + (a + e + i)) * (1 / 2 / √(1 + (a + e + i))) = (1 + a + e + i) * (1 / 2 / √(1 + (a + e + i))) by ring]
    exact R.row_s (by linear_combination h1)
  rename_i ht
  split
  · rename_i hc
    obtain ⟨h1, h2⟩ := half_sqrt (show 0 < a - e - i + 1 by linarith [hc.1, hc.2])
    rw [h2, show (a - e - i + 1) * (1 / 2 / √(a - e - i + 1)) = (1 + a - e - i) * (1 / 2 / √(a - e - i + 1)) by ring, add_comm d b]
    exact R.row_x (by linear_combination h1)
  rename_i hc
  split
  · rename_i hc2
    have : a ≤ e := by
      by_contra hh
      push Not at hh hc
      linarith [hc hh]
    obtain ⟨h1, h2⟩ := half_sqrt (show 0 < e - a - i + 1 by linarith)
    rw [h2, show (e - a - i + 1) * (1 / 2 / √(e - a - i + 1)) = (1 - a + e - i) * (1 / 2 / √(e - a - i + 1)) by ring, add_comm d b, add_comm h f]
    exact R.row_y (by linear_combination h1)
  · rename_i hc2
    have : a ≤ i := by
      by_contra hh
      push Not at hh hc hc2
      linarith [hc (by linarith)]
    obtain ⟨h1, h2⟩ := half_sqrt (show 0 < i - a - e + 1 by linarith)
    rw [h2, show (i - a - e + 1) * (1 / 2 / √(i - a - e + 1)) = (1 - a - e + i) * (1 / 2 / √(i - a - e + 1)) by ring, add_comm h f]
    exact R.row_z (by linear_combination h1)

/-- **C58 for 3D rotation matrices:** the ends are right, a rotation interpolated with itself is itself, and interpolation can be reversed. -/
theorem c58_basis3 (m n : M3 ℝ) (hm : m.Rotation) (hn : n.Rotation) :
    m.interpolate n 0 = m ∧ m.interpolate n 1 = n ∧ (∀ t, m.interpolate m t = m) ∧ ∀ t, n.interpolate m (1 - t) = m.interpolate n t := by
  have e0 : ∀ p q : Quat ℝ, p.interpolate q 0 = p := fun p q => by ext <;> simp [Quat.interpolate, lerpK, V3.lerp]
  have e1 : ∀ p q : Quat ℝ, p.interpolate q 1 = q := fun p q => by ext <;> simp [Quat.interpolate, lerpK, V3.lerp]
  have e2 : ∀ (p : Quat ℝ) t, p.interpolate p t = p := fun p t => by ext <;> simp [Quat.interpolate, lerpK, V3.lerp]
  have e3 : ∀ (p q : Quat ℝ) t, q.interpolate p (1 - t) = p.interpolate q t := fun p q t => by
    ext <;> simp [Quat.interpolate, lerpK, V3.lerp] <;> ring
  refine ⟨?_, ?_, fun t => ?_, fun t => ?_⟩
  · rw [M3.interpolate, e0, (M3.toQuat_spec hm).1]
  · rw [M3.interpolate, e1, (M3.toQuat_spec hn).1]
  · rw [M3.interpolate, e2, (M3.toQuat_spec hm).1]
  · rw [M3.interpolate, e3, M3.interpolate]

/-- **C58 for transforms with 3D rotation matrices:** ends, scale and displacement in between, and `translation_interpolate`. -/
theorem c58_dec3 (D E : Dec3 ℝ) (hD : D.rot.Rotation) (hE : E.rot.Rotation) : D.interpolate E 0 = D ∧ D.interpolate E 1 = E ∧
    (∀ t, (D.interpolate E t).scale = D.scale * (1 - t) + E.scale * t ∧ (D.interpolate E t).disp = D.disp * (1 - t) + E.disp * t) ∧
    ∀ t, D.translationInterpolate E t = ⟨E.scale, E.rot, D.disp * (1 - t) + E.disp * t⟩ := by
  obtain ⟨h0, h1, -, -⟩ := c58_basis3 D.rot E.rot hD hE
  have l0 : D.disp.lerp E.disp 0 = D.disp := by ext <;> simp [V3.lerp]
  have l1 : D.disp.lerp E.disp 1 = E.disp := by ext <;> simp [V3.lerp]
  have lt : ∀ t : ℝ, D.disp.lerp E.disp t = D.disp * (1 - t) + E.disp * t := fun t => by ext <;> simp [V3.lerp] <;> ring
  refine ⟨?_, ?_, fun t => ⟨rfl, lt t⟩, fun t => by rw [Dec3.translationInterpolate, lt]⟩
  · simp only [Dec3.interpolate, h0, l0, sub_zero, mul_one, mul_zero, add_zero]
  · simp only [Dec3.interpolate, h1, l1, sub_self, mul_one, mul_zero, zero_add]

/-- **C76 fails for 3D rotation matrices** as it does for quaternions: strictly between two different rotations every vector not along the axis of
the interpolated quaternion is shortened. -/
theorem c76_basis3_false (m n : M3 ℝ) (hm : m.Rotation) (hn : n.Rotation) (hmn : m ≠ n) (t : ℝ) (h0 : 0 < t) (h1 : t < 1) (w : V3 ℝ)
    (hw : 0 < ((m.toQuat.interpolate n.toQuat t).v.cross w).dot ((m.toQuat.interpolate n.toQuat t).v.cross w)) :
    ((m.interpolate n t).apply w).dot ((m.interpolate n t).apply w) < w.dot w := by
  rw [M3.interpolate, Quat.toMatrix_apply]
  refine c76_shrinks_false _ _ (M3.toQuat_spec hm).2 (M3.toQuat_spec hn).2 ?_ t h0 h1 w hw
  intro e
  apply hmn
  rw [← (M3.toQuat_spec hm).1, e, (M3.toQuat_spec hn).1]

/-! ## C82 -/

/-- Specification: the rotation about the axis `u` whose half angle has cosine `c` and sine `s`, as a quaternion. -/
def turn (u : V3 ℝ) (c s : ℝ) : Quat ℝ := ⟨c, u * s⟩

/-- What an interpolated turn does to a vector across the axis. -/
theorem turn_across (u : V3 ℝ) (hu : u.dot u = 1) (c s : ℝ) (w : V3 ℝ) (hw : w.dot u = 0) :
    w.dot ((turn u c s).rotate w) = (1 - 2 * (s * s)) * w.dot w := by
  simp only [turn, Quat.rotate, V3.cross, V3.dot, V3.add_x, V3.add_y, V3.add_z, V3.mul_x, V3.mul_y, V3.mul_z] at *
  linear_combination (-2 * s * s * (w.x * w.x + w.y * w.y + w.z * w.z)) * hu + 2 * s * s * (w.x * u.x + w.y * u.y + w.z * u.z) * hw

theorem turn_interpolate (u : V3 ℝ) (c1 s1 c2 s2 t : ℝ) :
    (turn u c1 s1).interpolate (turn u c2 s2) t = turn u (lerpK c1 c2 t) (lerpK s1 s2 t) := by
  ext <;> simp [turn, Quat.interpolate, lerpK, V3.lerp] <;> ring

theorem sq_between {s1 s2 t : ℝ} (h1 : 0 ≤ s1) (h12 : s1 ≤ s2) (t0 : 0 ≤ t) (t1 : t ≤ 1) :
    s1 * s1 ≤ lerpK s1 s2 t * lerpK s1 s2 t ∧ lerpK s1 s2 t * lerpK s1 s2 t ≤ s2 * s2 := by
  have a1 : s1 ≤ lerpK s1 s2 t := by unfold lerpK; nlinarith
  have a2 : lerpK s1 s2 t ≤ s2 := by unfold lerpK; nlinarith
  exact ⟨mul_self_le_mul_self h1 a1, mul_self_le_mul_self (h1.trans a1) a2⟩

/-- **C82 for quaternions:** between two turns about the same axis in the same sense, by at most half a turn, the component along itself
of the image of a vector across the axis stays between its values at the ends. -/
theorem c82_quaternion (u : V3 ℝ) (hu : u.dot u = 1) (c1 s1 c2 s2 : ℝ) (h1 : 0 ≤ s1) (h12 : s1 ≤ s2) (t : ℝ) (t0 : 0 ≤ t) (t1 : t ≤ 1)
    (w : V3 ℝ) (hw : w.dot u = 0) :
    w.dot ((turn u c2 s2).rotate w) ≤ w.dot (((turn u c1 s1).interpolate (turn u c2 s2) t).rotate w) ∧
    w.dot (((turn u c1 s1).interpolate (turn u c2 s2) t).rotate w) ≤ w.dot ((turn u c1 s1).rotate w) := by
  rw [turn_interpolate, turn_across u hu _ _ w hw, turn_across u hu _ _ w hw, turn_across u hu _ _ w hw]
  obtain ⟨a, b⟩ := sq_between h1 h12 t0 t1
  have hn : 0 ≤ w.dot w := by simp only [V3.dot]; nlinarith [mul_self_nonneg w.x, mul_self_nonneg w.y, mul_self_nonneg w.z]
  exact ⟨mul_le_mul_of_nonneg_right (by linarith) hn, mul_le_mul_of_nonneg_right (by linarith) hn⟩

/-- Up to a third of a turn the conversion gives back the quaternion with positive scalar part. -/
theorem toQuat_turn (u : V3 ℝ) (hu : u.dot u = 1) (c s : ℝ) (hcs : c * c + s * s = 1) (hc : 1 / 2 ≤ c) : (turn u c s).toMatrix.toQuat = turn u c s := by
  have hu' : u.x * u.x + u.y * u.y + u.z * u.z = 1 := hu
  have htr : (turn u c s).toMatrix.c0.x + (turn u c s).toMatrix.c1.y + (turn u c s).toMatrix.c2.z = 4 * (c * c) - 1 := by
    simp only [turn, Quat.toMatrix, V3.mul_x, V3.mul_y, V3.mul_z]
    linear_combination (-4 * s * s) * hu' - 4 * hcs
  unfold M3.toQuat
  simp only [htr]
  rw [if_pos (by nlinarith)]
  have hsq : Real.sqrt (1 + (4 * (c * c) - 1)) = 2 * c := by
    rw [show 1 + (4 * (c * c) - 1) = (2 * c) * (2 * c) by ring]
    exact Real.sqrt_mul_self (by linarith)
  have hc0 : c ≠ 0 := by linarith
  rw [hsq]
  simp only [turn, Quat.toMatrix]
  ext <;> simp only [V3.mul_x, V3.mul_y, V3.mul_z] <;> field_simp <;> ring

/-- **C82 for rotation matrices, partial:** if both turns are by at most a third of a turn (missing: larger turns, where it is false). -/
theorem c82_basis3_partial (u : V3 ℝ) (hu : u.dot u = 1) (c1 s1 c2 s2 : ℝ) (hcs1 : c1 * c1 + s1 * s1 = 1) (hcs2 : c2 * c2 + s2 * s2 = 1)
    (hc1 : 1 / 2 ≤ c1) (hc2 : 1 / 2 ≤ c2) (h1 : 0 ≤ s1) (h12 : s1 ≤ s2) (t : ℝ) (t0 : 0 ≤ t) (t1 : t ≤ 1) (w : V3 ℝ) (hw : w.dot u = 0) :
    w.dot ((turn u c2 s2).toMatrix.apply w) ≤ w.dot (((turn u c1 s1).toMatrix.interpolate (turn u c2 s2).toMatrix t).apply w) ∧
    w.dot (((turn u c1 s1).toMatrix.interpolate (turn u c2 s2).toMatrix t).apply w) ≤ w.dot ((turn u c1 s1).toMatrix.apply w) := by
  simp only [M3.interpolate, toQuat_turn u hu c1 s1 hcs1 hc1, toQuat_turn u hu c2 s2 hcs2 hc2, Quat.toMatrix_apply]
  exact c82_quaternion u hu c1 s1 c2 s2 h1 h12 t t0 t1 w hw

/-- **C82 is false for rotation matrices:** halfway between a turn by 106° and a turn by 135° about the same axis, in the same sense, there is
almost no turn at all: `y` is turned backwards by both, but the interpolated matrix keeps more than 99% of it. The sign of the quaternion the
conversion picks jumps when a rotation passes a third of a turn. -/
theorem c82_basis3_false : ∃ (u : V3 ℝ) (c1 s1 c2 s2 : ℝ) (w : V3 ℝ), u.dot u = 1 ∧ c1 * c1 + s1 * s1 = 1 ∧ c2 * c2 + s2 * s2 = 1 ∧ 0 < c1 ∧ 0 < c2 ∧ 0 ≤ s1 ∧
    s1 ≤ s2 ∧ w.dot u = 0 ∧ w.dot w = 1 ∧ w.dot ((turn u c1 s1).toMatrix.apply w) < 0 ∧ w.dot ((turn u c2 s2).toMatrix.apply w) < 0 ∧
    99 / 100 < w.dot (((turn u c1 s1).toMatrix.interpolate (turn u c2 s2).toMatrix (1 / 2)).apply w) := by
  refine ⟨⟨-1, 0, 0⟩, 3 / 5, 4 / 5, 5 / 13, 12 / 13, ⟨0, 1, 0⟩, by norm_num [V3.dot], by norm_num, by norm_num, by norm_num, by norm_num, by norm_num,
    by norm_num, by norm_num [V3.dot], by norm_num [V3.dot], ?_, ?_, ?_⟩
  · norm_num [turn, Quat.toMatrix, M3.apply, V3.dot]
  · norm_num [turn, Quat.toMatrix, M3.apply, V3.dot]
  · have q1 : (turn (⟨-1, 0, 0⟩ : V3 ℝ) (3 / 5) (4 / 5)).toMatrix.toQuat = ⟨3 / 5, -(4 / 5), 0, 0⟩ := by
      rw [toQuat_turn _ (by norm_num [V3.dot]) _ _ (by norm_num) (by norm_num)]
      ext <;> norm_num [turn]
    have hm : (turn (⟨-1, 0, 0⟩ : V3 ℝ) (5 / 13) (12 / 13)).toMatrix = ⟨⟨1, 0, 0⟩, ⟨0, -119 / 169, -120 / 169⟩, ⟨0, 120 / 169, -119 / 169⟩⟩ := by
      norm_num [turn, Quat.toMatrix]
    have hsq : Real.sqrt (576 / 169) = 24 / 13 := by
      rw [show (576 / 169 : ℝ) = 24 / 13 * (24 / 13) by norm_num]
      exact Real.sqrt_mul_self (by norm_num)
    have q2 : (turn (⟨-1, 0, 0⟩ : V3 ℝ) (5 / 13) (12 / 13)).toMatrix.toQuat = ⟨-(5 / 13), 12 / 13, 0, 0⟩ := by
      rw [hm]
      unfold M3.toQuat
      dsimp only
      rw [if_neg (by norm_num), if_pos (by norm_num)]
      rw [show ((1 : ℝ) - -119 / 169 - -119 / 169) + 1 = 576 / 169 by norm_num, hsq]
      ext <;> norm_num
    rw [M3.interpolate, q1, q2]
    norm_num [Quat.interpolate, lerpK, V3.lerp, Quat.toMatrix, M3.apply, V3.dot]

/-- A rotation matrix of each kind the conversion distinguishes: the identity and the half turns about the axes. -/
example : (⟨⟨1, 0, 0⟩, ⟨0, 1, 0⟩, ⟨0, 0, 1⟩⟩ : M3 ℝ).Rotation ∧ (⟨⟨1, 0, 0⟩, ⟨0, -1, 0⟩, ⟨0, 0, -1⟩⟩ : M3 ℝ).Rotation ∧
    (⟨⟨-1, 0, 0⟩, ⟨0, 1, 0⟩, ⟨0, 0, -1⟩⟩ : M3 ℝ).Rotation ∧ (⟨⟨-1, 0, 0⟩, ⟨0, -1, 0⟩, ⟨0, 0, 1⟩⟩ : M3 ℝ).Rotation := by
  refine ⟨⟨?_, ?_, ?_, ?_, ?_, ?_, ?_⟩, ⟨?_, ?_, ?_, ?_, ?_, ?_, ?_⟩, ⟨?_, ?_, ?_, ?_, ?_, ?_, ?_⟩, ⟨?_, ?_, ?_, ?_, ?_, ?_, ?_⟩⟩ <;>
    norm_num [V3.dot, V3.cross]

end
end Verif.Geom
