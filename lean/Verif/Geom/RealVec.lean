import Verif.Geom.AabbProps
import Mathlib.Analysis.Real.Sqrt
/-!
# Euclidean length over the reals

`InnerSpace::magnitude` / `MetricSpace::distance` need a square root; the parts of the library that use
them are modelled over `ℝ`.
-/
namespace Verif.Geom
noncomputable section

/-- `InnerSpace::magnitude` -/
def V2.norm (v : V2 ℝ) : ℝ := Real.sqrt (v.dot v)
/-- `InnerSpace::magnitude` -/
def V3.norm (v : V3 ℝ) : ℝ := Real.sqrt (v.dot v)
/-- `InnerSpace::normalize` (`normalize_to(1)`) -/
def V2.normalize (v : V2 ℝ) : V2 ℝ := v * (1 / v.norm)
/-- `InnerSpace::normalize` (`normalize_to(1)`) -/
def V3.normalize (v : V3 ℝ) : V3 ℝ := v * (1 / v.norm)
/-- `InnerSpace::normalize_to` -/
def V2.normalizeTo (v : V2 ℝ) (m : ℝ) : V2 ℝ := v * (m / v.norm)
/-- `InnerSpace::normalize_to` -/
def V3.normalizeTo (v : V3 ℝ) (m : ℝ) : V3 ℝ := v * (m / v.norm)

namespace V3
theorem dot_self_nonneg (v : V3 ℝ) : 0 ≤ v.dot v := by
  simp only [dot]; nlinarith [mul_self_nonneg v.x, mul_self_nonneg v.y, mul_self_nonneg v.z]
theorem norm_nonneg (v : V3 ℝ) : 0 ≤ v.norm := Real.sqrt_nonneg _
theorem norm_sq (v : V3 ℝ) : v.norm * v.norm = v.dot v := Real.mul_self_sqrt v.dot_self_nonneg
theorem norm_le_iff (v : V3 ℝ) {r : ℝ} (hr : 0 ≤ r) : v.norm ≤ r ↔ v.dot v ≤ r * r := by
  rw [norm, Real.sqrt_le_left hr, pow_two]
theorem lt_norm_iff (v : V3 ℝ) {r : ℝ} (hr : 0 ≤ r) : r < v.norm ↔ r * r < v.dot v := by
  rw [← not_le, norm_le_iff v hr, not_le]
theorem norm_eq_zero (v : V3 ℝ) : v.norm = 0 ↔ v = 0 := by
  constructor
  · intro h
    have := v.norm_sq
    rw [h] at this
    simp only [dot] at this
    have hx := mul_self_nonneg v.x
    have hy := mul_self_nonneg v.y
    have hz := mul_self_nonneg v.z
    ext <;> simp <;> apply mul_self_eq_zero.1 <;> linarith
  · rintro rfl; simp [norm, dot]
theorem norm_neg (v : V3 ℝ) : (-v).norm = v.norm := by simp [norm, dot]
theorem norm_smul (v : V3 ℝ) (s : ℝ) : (v * s).norm = v.norm * |s| := by
  have : (v * s).dot (v * s) = v.dot v * (s * s) := by simp [dot]; ring
  rw [norm, this, Real.sqrt_mul v.dot_self_nonneg, Real.sqrt_mul_self_eq_abs, norm]
theorem cauchy (a b : V3 ℝ) : a.dot b ≤ a.norm * b.norm := by
  have h : a.dot b * a.dot b ≤ a.dot a * b.dot b := by
    simp only [dot]
    nlinarith [mul_self_nonneg (a.x * b.y - a.y * b.x), mul_self_nonneg (a.x * b.z - a.z * b.x),
      mul_self_nonneg (a.y * b.z - a.z * b.y)]
  have hn : 0 ≤ a.norm * b.norm := mul_nonneg a.norm_nonneg b.norm_nonneg
  rw [← a.norm_sq, ← b.norm_sq] at h
  nlinarith
theorem norm_add_le (a b : V3 ℝ) : (a + b).norm ≤ a.norm + b.norm := by
  rw [norm_le_iff _ (add_nonneg a.norm_nonneg b.norm_nonneg)]
  have h1 := cauchy a b
  have h2 := a.norm_sq
  have h3 := b.norm_sq
  have : (a + b).dot (a + b) = a.dot a + b.dot b + 2 * a.dot b := by simp [dot]; ring
  nlinarith
theorem norm_sub_comm (a b : V3 ℝ) : (a - b).norm = (b - a).norm := by
  have : a - b = -(b - a) := by ext <;> simp
  rw [this, norm_neg]
theorem norm_tri (a b c : V3 ℝ) : (a - c).norm ≤ (a - b).norm + (b - c).norm := by
  have : a - c = (a - b) + (b - c) := by ext <;> simp
  rw [this]; exact norm_add_le _ _
theorem abs_x_le (v : V3 ℝ) : |v.x| ≤ v.norm := by
  rw [← Real.sqrt_mul_self_eq_abs]; apply Real.sqrt_le_sqrt; simp only [dot]
  nlinarith [mul_self_nonneg v.y, mul_self_nonneg v.z]
theorem abs_y_le (v : V3 ℝ) : |v.y| ≤ v.norm := by
  rw [← Real.sqrt_mul_self_eq_abs]; apply Real.sqrt_le_sqrt; simp only [dot]
  nlinarith [mul_self_nonneg v.x, mul_self_nonneg v.z]
theorem abs_z_le (v : V3 ℝ) : |v.z| ≤ v.norm := by
  rw [← Real.sqrt_mul_self_eq_abs]; apply Real.sqrt_le_sqrt; simp only [dot]
  nlinarith [mul_self_nonneg v.x, mul_self_nonneg v.y]
theorem norm_pos {v : V3 ℝ} (h : v ≠ 0) : 0 < v.norm :=
  lt_of_le_of_ne v.norm_nonneg (fun e => h ((norm_eq_zero v).1 e.symm))
theorem norm_normalizeTo {v : V3 ℝ} (h : v ≠ 0) {m : ℝ} (hm : 0 ≤ m) : (v.normalizeTo m).norm = m := by
  have := norm_pos h
  rw [normalizeTo, norm_smul, abs_of_nonneg (by positivity)]; field_simp
theorem norm_normalize {v : V3 ℝ} (h : v ≠ 0) : v.normalize.norm = 1 := norm_normalizeTo h zero_le_one
end V3

namespace V2
theorem dot_self_nonneg (v : V2 ℝ) : 0 ≤ v.dot v := by
  simp only [dot]; nlinarith [mul_self_nonneg v.x, mul_self_nonneg v.y]
theorem norm_nonneg (v : V2 ℝ) : 0 ≤ v.norm := Real.sqrt_nonneg _
theorem norm_sq (v : V2 ℝ) : v.norm * v.norm = v.dot v := Real.mul_self_sqrt v.dot_self_nonneg
theorem norm_le_iff (v : V2 ℝ) {r : ℝ} (hr : 0 ≤ r) : v.norm ≤ r ↔ v.dot v ≤ r * r := by
  rw [norm, Real.sqrt_le_left hr, pow_two]
theorem lt_norm_iff (v : V2 ℝ) {r : ℝ} (hr : 0 ≤ r) : r < v.norm ↔ r * r < v.dot v := by
  rw [← not_le, norm_le_iff v hr, not_le]
theorem norm_eq_zero (v : V2 ℝ) : v.norm = 0 ↔ v = 0 := by
  constructor
  · intro h
    have := v.norm_sq
    rw [h] at this
    simp only [dot] at this
    have hx := mul_self_nonneg v.x
    have hy := mul_self_nonneg v.y
    ext <;> simp <;> apply mul_self_eq_zero.1 <;> linarith
  · rintro rfl; simp [norm, dot]
theorem norm_neg (v : V2 ℝ) : (-v).norm = v.norm := by simp [norm, dot]
theorem norm_smul (v : V2 ℝ) (s : ℝ) : (v * s).norm = v.norm * |s| := by
  have : (v * s).dot (v * s) = v.dot v * (s * s) := by simp [dot]; ring
  rw [norm, this, Real.sqrt_mul v.dot_self_nonneg, Real.sqrt_mul_self_eq_abs, norm]
theorem cauchy (a b : V2 ℝ) : a.dot b ≤ a.norm * b.norm := by
  have h : a.dot b * a.dot b ≤ a.dot a * b.dot b := by
    simp only [dot]
    nlinarith [mul_self_nonneg (a.x * b.y - a.y * b.x)]
  have hn : 0 ≤ a.norm * b.norm := mul_nonneg a.norm_nonneg b.norm_nonneg
  rw [← a.norm_sq, ← b.norm_sq] at h
  nlinarith
theorem norm_add_le (a b : V2 ℝ) : (a + b).norm ≤ a.norm + b.norm := by
  rw [norm_le_iff _ (add_nonneg a.norm_nonneg b.norm_nonneg)]
  have h1 := cauchy a b
  have h2 := a.norm_sq
  have h3 := b.norm_sq
  have : (a + b).dot (a + b) = a.dot a + b.dot b + 2 * a.dot b := by simp [dot]; ring
  nlinarith
theorem norm_sub_comm (a b : V2 ℝ) : (a - b).norm = (b - a).norm := by
  have : a - b = -(b - a) := by ext <;> simp
  rw [this, norm_neg]
theorem norm_tri (a b c : V2 ℝ) : (a - c).norm ≤ (a - b).norm + (b - c).norm := by
  have : a - c = (a - b) + (b - c) := by ext <;> simp
  rw [this]; exact norm_add_le _ _
theorem abs_x_le (v : V2 ℝ) : |v.x| ≤ v.norm := by
  rw [← Real.sqrt_mul_self_eq_abs]; apply Real.sqrt_le_sqrt; simp only [dot]
  nlinarith [mul_self_nonneg v.y]
theorem abs_y_le (v : V2 ℝ) : |v.y| ≤ v.norm := by
  rw [← Real.sqrt_mul_self_eq_abs]; apply Real.sqrt_le_sqrt; simp only [dot]
  nlinarith [mul_self_nonneg v.x]
theorem norm_pos {v : V2 ℝ} (h : v ≠ 0) : 0 < v.norm :=
  lt_of_le_of_ne v.norm_nonneg (fun e => h ((norm_eq_zero v).1 e.symm))
theorem norm_normalizeTo {v : V2 ℝ} (h : v ≠ 0) {m : ℝ} (hm : 0 ≤ m) : (v.normalizeTo m).norm = m := by
  have := norm_pos h
  rw [normalizeTo, norm_smul, abs_of_nonneg (by positivity)]; field_simp
theorem norm_normalize {v : V2 ℝ} (h : v ≠ 0) : v.normalize.norm = 1 := norm_normalizeTo h zero_le_one
end V2

end
end Verif.Geom
