import Verif.Scene.Formats
import Verif.Dbvt.RoundedSphere
/-!
# Round shapes in rounded arithmetic (C117): `normalize_to`

The support points of circles, spheres and capsules use `normalize_to`, so a square root and a division. Here is the error of it, for directions whose square does not underflow.
-/
namespace Verif.Scene
open Verif Geom Primitive Minkowski
open Verif.Dbvt (Rounding)
set_option linter.unusedSectionVars false
noncomputable section
open Classical
variable {F : Type} [LinearOrder F] {R : Rounding F} {u η Ω M N A B τ : ℝ}

variable (R) in
/-- The square root of a number of the format (`magnitude` of cgmath calls `sqrt`). -/
def sqrtF (a : Fl R) : Fl R := R.sqrt a
theorem sqrtF_toF {m : ℝ} (hm : Rep R m) : sqrtF R (toF R m) = toF R (Real.sqrt m) := by
  unfold sqrtF Rounding.sqrt
  have e : R.val (toF R m) = (m : EReal) := hm
  rw [e, if_neg (EReal.coe_ne_top m), EReal.toReal_coe]
  rfl

/-- The factor `r / |e|` in rounded arithmetic, where `L` is `|e|` and `m` its square with rounding. -/
theorem factor_err (h : Std R u η Ω) (hu' : u ≤ 1 / 1024) {L r m : ℝ} (hL : 0 < L) (hr : 0 ≤ r) (rr : Rep R r) (rm : Rep R m) (hm : |m - L * L| ≤ 16 * (u * (L * L))) (hηL : η ≤ u * L) (h1 : 2 * L ≤ Ω) (h2 : 2 * r ≤ Ω * L) :
    ∃ k, Rep R k ∧ toF R r / sqrtF R (toF R m) = toF R k ∧ |k * L - r| ≤ 23 * (u * r) + η * L := by
  have hu := h.u0
  have hη := h.η0
  have uL : u * L ≤ 1 / 1024 * L := mul_le_mul_of_nonneg_right hu' hL.le
  have uL0 : 0 ≤ u * L := mul_nonneg hu hL.le
  have ur0 : 0 ≤ u * r := mul_nonneg hu hr
  -- the square root
  have hs0 : 0 ≤ Real.sqrt m := Real.sqrt_nonneg m
  have m0 : 0 ≤ m := by
    have : u * (L * L) ≤ 1 / 1024 * (L * L) := mul_le_mul_of_nonneg_right hu' (by positivity)
    have hLL : 0 < L * L := by positivity
    rw [abs_le] at hm
    linarith
  have hss : Real.sqrt m * Real.sqrt m = m := Real.mul_self_sqrt m0
  have d1 : |Real.sqrt m - L| ≤ 16 * (u * L) := by
    have e : (Real.sqrt m - L) * (Real.sqrt m + L) = m - L * L := by linear_combination hss
    have h3 : |Real.sqrt m - L| * L ≤ 16 * (u * L) * L := by
      have h4 : |Real.sqrt m - L| * L ≤ |Real.sqrt m - L| * (Real.sqrt m + L) := mul_le_mul_of_nonneg_left (by linarith) (abs_nonneg _)
      have h5 : |Real.sqrt m - L| * (Real.sqrt m + L) = |m - L * L| := by
        rw [← e, abs_mul, abs_of_nonneg (by linarith : 0 ≤ Real.sqrt m + L)]
      rw [h5] at h4
      calc _ ≤ _ := h4
        _ ≤ _ := hm
        _ = _ := by ring
    exact le_of_mul_le_mul_right h3 hL
  have d1' := abs_le.1 d1
  have b1 : |Real.sqrt m| ≤ 2 * L := by
    rw [abs_of_nonneg hs0]
    linarith
  obtain ⟨n, rn, en, dn⟩ := h.err _ (b1.trans h1)
  rw [abs_of_nonneg hs0] at dn
  have us : u * Real.sqrt m ≤ 5 / 4 * (u * L) := by
    have : u * Real.sqrt m ≤ u * (5 / 4 * L) := mul_le_mul_of_nonneg_left (by linarith) hu
    linarith
  have dn' : |n - L| ≤ 19 * (u * L) := by
    rw [abs_le] at dn ⊢
    constructor <;> linarith
  have hn : 49 / 50 * L ≤ n := by
    rw [abs_le] at dn'
    linarith
  have n0 : 0 < n := by linarith
  -- the quotient
  have q0 : 0 ≤ r / n := div_nonneg hr n0.le
  have qn : r / n * n = r := by field_simp
  have q1 : r / n * L ≤ 51 / 50 * r + r / 1000 := by
    have := mul_le_mul_of_nonneg_left hn q0
    rw [qn] at this
    linarith
  have q2 : |r / n * L - r| ≤ 39 / 2 * (u * r) := by
    have e : r / n * L - r = r / n * (L - n) := by rw [mul_sub, qn]
    rw [e, abs_mul, abs_of_nonneg q0, abs_sub_comm]
    have h3 : r / n * |n - L| ≤ r / n * (19 * (u * L)) := mul_le_mul_of_nonneg_left dn' q0
    have h4 : r / n * (19 * (u * L)) = 19 * u * (r / n * L) := by ring
    have h5 : 19 * u * (r / n * L) ≤ 19 * u * (51 / 50 * r + r / 1000) := mul_le_mul_of_nonneg_left q1 (by linarith)
    linarith
  have b2 : |r / n| ≤ Ω := by
    rw [abs_of_nonneg q0, div_le_iff₀ n0]
    have hΩ : 0 ≤ Ω := by linarith
    have : Ω * (49 / 50 * L) ≤ Ω * n := mul_le_mul_of_nonneg_left hn hΩ
    nlinarith
  obtain ⟨k, rk, ek, dk⟩ := h.err _ b2
  rw [abs_of_nonneg q0] at dk
  refine ⟨k, rk, ?_, ?_⟩
  · rw [sqrtF_toF rm, en, toF_div rr rn, ek]
  · have h3 : |k * L - r / n * L| ≤ u * (r / n * L) + η * L := by
      rw [← sub_mul, abs_mul, abs_of_pos hL]
      have := mul_le_mul_of_nonneg_right dk hL.le
      linarith
    have h4 : u * (r / n * L) ≤ u * (51 / 50 * r + r / 1000) := mul_le_mul_of_nonneg_left q1 hu
    rw [abs_le] at h3 q2 ⊢
    constructor <;> linarith

/-- One component of `normalize_to`. -/
theorem component_err (h : Std R u η Ω) (hu' : u ≤ 1 / 1024) {L r k x : ℝ} (hL : 0 < L) (hr : 0 ≤ r) (rk : Rep R k) (hk : |k * L - r| ≤ 23 * (u * r) + η * L) (rx : Rep R x) (hx : |x| ≤ L) (hηL : η * L ≤ u) (hη : η ≤ u)
    (hΩ : 2 * r + 1 ≤ Ω) : ∃ z, Rep R z ∧ toF R x * toF R k = toF R z ∧ |z - x * (r / L)| ≤ 25 * (u * r) + 3 * u := by
  have hu := h.u0
  have hη0 := h.η0
  have ur0 : 0 ≤ u * r := mul_nonneg hu hr
  have ur : u * r ≤ 1 / 1024 * r := mul_le_mul_of_nonneg_right hu' hr
  have h1 : |x * k - x * (r / L)| ≤ 23 * (u * r) + u := by
    rw [← mul_sub, abs_mul]
    have h2 : |x| * |k - r / L| ≤ L * |k - r / L| := mul_le_mul_of_nonneg_right hx (abs_nonneg _)
    have h3 : L * |k - r / L| = |k * L - r| := by
      rw [show k * L - r = L * (k - r / L) by field_simp, abs_mul, abs_of_pos hL]
    linarith
  have h2 : |x * (r / L)| ≤ r := by
    rw [abs_mul, abs_of_nonneg (div_nonneg hr hL.le)]
    have := mul_le_mul_of_nonneg_right hx (div_nonneg hr hL.le)
    rw [show L * (r / L) = r by field_simp] at this
    exact this
  have h3 : |x * k| ≤ 33 / 32 * r + u := by
    rw [abs_le] at h1 h2 ⊢
    constructor <;> linarith
  obtain ⟨z, rz, ez, dz⟩ := h.fl h3 (by linarith)
  refine ⟨z, rz, by rw [toF_mul rx rk, ez], ?_⟩
  have uu : u * u ≤ 1 / 1024 * u := mul_le_mul_of_nonneg_right hu' hu
  have e : u * (33 / 32 * r + u) = 33 / 32 * (u * r) + u * u := by ring
  rw [e] at dz
  rw [abs_le] at dz h1 ⊢
  constructor <;> linarith

/-! ## 2D -/

variable (R) in
/-- `normalize_to` of cgmath: `self * (magnitude / self.magnitude())`. -/
def normalizeToF2 (e : V2 (Fl R)) (r : Fl R) : V2 (Fl R) := e * (r / sqrtF R (e.dot e))
variable (R) in
/-- `normalize_to` of cgmath, 3D. -/
def normalizeToF3 (e : V3 (Fl R)) (r : Fl R) : V3 (Fl R) := e * (r / sqrtF R (e.dot e))

theorem norm_sq2 (e : V2 ℝ) : e.norm * e.norm = e.dot e := by
  unfold V2.norm
  rw [Real.mul_self_sqrt]
  simp only [V2.dot]
  nlinarith [mul_self_nonneg e.x, mul_self_nonneg e.y]
theorem norm_sq3 (e : V3 ℝ) : e.norm * e.norm = e.dot e := by
  unfold V3.norm
  rw [Real.mul_self_sqrt]
  simp only [V3.dot]
  nlinarith [mul_self_nonneg e.x, mul_self_nonneg e.y, mul_self_nonneg e.z]
theorem sz_norm (e : V2 ℝ) : Sz e.norm e :=
  ⟨Real.abs_le_sqrt (by simp only [V2.dot]; nlinarith [mul_self_nonneg e.y]), Real.abs_le_sqrt (by simp only [V2.dot]; nlinarith [mul_self_nonneg e.x])⟩
theorem sz_norm3 (e : V3 ℝ) : Sz3 e.norm e :=
  ⟨Real.abs_le_sqrt (by simp only [V3.dot]; nlinarith [mul_self_nonneg e.y, mul_self_nonneg e.z]), Real.abs_le_sqrt (by simp only [V3.dot]; nlinarith [mul_self_nonneg e.x, mul_self_nonneg e.z]),
    Real.abs_le_sqrt (by simp only [V3.dot]; nlinarith [mul_self_nonneg e.x, mul_self_nonneg e.y])⟩
theorem norm_nonneg2 (e : V2 ℝ) : 0 ≤ e.norm := Real.sqrt_nonneg _
theorem norm_nonneg3 (e : V3 ℝ) : 0 ≤ e.norm := Real.sqrt_nonneg _
theorem norm_le_sz {e : V2 ℝ} (h : Sz A e) : e.norm ≤ 2 * A := by
  have hA := h.nonneg
  refine Real.sqrt_le_iff.2 ⟨by linarith, ?_⟩
  have := (abs_le.1 (dot_abs_le h h)).2
  nlinarith
theorem norm_le_sz3 {e : V3 ℝ} (h : Sz3 A e) : e.norm ≤ 2 * A := by
  have hA := h.nonneg
  refine Real.sqrt_le_iff.2 ⟨by linarith, ?_⟩
  have := (abs_le.1 (dot3_abs_le h h)).2
  nlinarith

/-- **`normalize_to` in rounded arithmetic, 2D**: each component is right up to rounding. -/
theorem normalize2_near (h : Std R u η Ω) (hu' : u ≤ 1 / 1024) {e : V2 ℝ} {r : ℝ} (hr : 0 ≤ r) (rr : Rep R r) (re : Rp R e) (hL : 0 < e.norm) (hsq : η ≤ u * (e.norm * e.norm)) (hηL : η ≤ u * e.norm) (hηL' : η * e.norm ≤ u) (hη : η ≤ u)
    (h1 : 3 * (e.norm * e.norm) + 1 ≤ Ω) (h1' : 2 * e.norm ≤ Ω) (h2 : 2 * r ≤ Ω * e.norm) (h3 : 2 * r + 1 ≤ Ω) :
    ∃ v, Rp R v ∧ normalizeToF2 R (toV2 R e) (toF R r) = toV2 R v ∧ Sz (25 * (u * r) + 3 * u) (v - e.normalizeTo r) := by
  obtain ⟨m, rm, em, dm, -⟩ := dot_err h re re (sz_norm e) (sz_norm e) h1
  obtain ⟨k, rk, ek, dk⟩ := factor_err h hu' hL hr rr rm (by
    rw [norm_sq2 e] at hsq ⊢
    rw [norm_sq2 e] at dm
    have : 0 ≤ u * e.dot e := by rw [← norm_sq2]; exact mul_nonneg h.u0 (by positivity)
    linarith) hηL h1' h2
  obtain ⟨x, rx, ex, dx⟩ := component_err h hu' hL hr rk dk re.1 (sz_norm e).1 hηL' hη h3
  obtain ⟨y, ry, ey, dy⟩ := component_err h hu' hL hr rk dk re.2 (sz_norm e).2 hηL' hη h3
  refine ⟨⟨x, y⟩, ⟨rx, ry⟩, ?_, dx, dy⟩
  unfold normalizeToF2
  rw [em, ek]
  ext
  · exact ex
  · exact ey
/-- **`normalize_to` in rounded arithmetic, 3D.** -/
theorem normalize3_near (h : Std R u η Ω) (hu' : u ≤ 1 / 1024) {e : V3 ℝ} {r : ℝ} (hr : 0 ≤ r) (rr : Rep R r) (re : Rep3 R e) (hL : 0 < e.norm) (hsq : η ≤ u * (e.norm * e.norm)) (hηL : η ≤ u * e.norm) (hηL' : η * e.norm ≤ u) (hη : η ≤ u)
    (h1 : 4 * (e.norm * e.norm) + 1 ≤ Ω) (h1' : 2 * e.norm ≤ Ω) (h2 : 2 * r ≤ Ω * e.norm) (h3 : 2 * r + 1 ≤ Ω) :
    ∃ v, Rep3 R v ∧ normalizeToF3 R (toV3 R e) (toF R r) = toV3 R v ∧ Sz3 (25 * (u * r) + 3 * u) (v - e.normalizeTo r) := by
  obtain ⟨m, rm, em, dm⟩ := dot3_err h re re (sz_norm3 e) (sz_norm3 e) h1
  obtain ⟨k, rk, ek, dk⟩ := factor_err h hu' hL hr rr rm (by
    rw [norm_sq3 e] at hsq ⊢
    rw [norm_sq3 e] at dm
    have : 0 ≤ u * e.dot e := by rw [← norm_sq3]; exact mul_nonneg h.u0 (by positivity)
    linarith) hηL h1' h2
  obtain ⟨x, rx, ex, dx⟩ := component_err h hu' hL hr rk dk re.1 (sz_norm3 e).1 hηL' hη h3
  obtain ⟨y, ry, ey, dy⟩ := component_err h hu' hL hr rk dk re.2.1 (sz_norm3 e).2.1 hηL' hη h3
  obtain ⟨z, rz, ez, dz⟩ := component_err h hu' hL hr rk dk re.2.2 (sz_norm3 e).2.2 hηL' hη h3
  refine ⟨⟨x, y, z⟩, ⟨rx, ry, rz⟩, ?_, dx, dy, dz⟩
  unfold normalizeToF3
  rw [em, ek]
  ext
  · exact ex
  · exact ey
  · exact ez
end
end Verif.Scene
