import Verif.Geom.Frustum
import Verif.Res
import Mathlib.Analysis.SpecialFunctions.Trigonometric.Inverse
/-!
# Frusta of perspective projections (C97)

`Perspective::to_frustum` and `PerspectiveFov::to_frustum` go through the projection matrix of cgmath and `Frustum::from_matrix4`. The matrices are
written down here (they are part of cgmath 0.18, not of this crate), and the frustum is shown to be the visible pyramid.
-/
namespace Verif.Geom
open Verif
set_option linter.unusedSectionVars false
noncomputable section

/-- `cgmath::Perspective` -/
structure Perspective where
  left : ℝ
  right : ℝ
  bottom : ℝ
  top : ℝ
  near : ℝ
  far : ℝ

/-- `Matrix4::from(Perspective)` of cgmath 0.18, by rows; panics by its assertions. -/
def Perspective.matrix (p : Perspective) : Res (M4 ℝ) :=
  if p.left ≤ p.right ∧ p.bottom ≤ p.top ∧ p.near ≤ p.far then
    .ok ⟨⟨2 * p.near / (p.right - p.left), 0, (p.right + p.left) / (p.right - p.left), 0⟩,
      ⟨0, 2 * p.near / (p.top - p.bottom), (p.top + p.bottom) / (p.top - p.bottom), 0⟩,
      ⟨0, 0, -(p.far + p.near) / (p.far - p.near), -(2 * p.far * p.near) / (p.far - p.near)⟩,
      ⟨0, 0, -1, 0⟩⟩
  else .panic

/-- `Perspective::to_frustum`, `src/frustum.rs:143-148`: `from_matrix4(..).unwrap()` -/
def Perspective.toFrustum (p : Perspective) : Res (Frustum ℝ) := do
  let m ← p.matrix
  Res.ofOption (Frustum.fromMatrix4 m)

/-- `cgmath::PerspectiveFov` (`fovy` in radians) -/
structure PerspectiveFov where
  fovy : ℝ
  aspect : ℝ
  near : ℝ
  far : ℝ

/-- `Matrix4::from(PerspectiveFov)` of cgmath 0.18, by rows; panics by its assertions. `cot x = 1 / tan x`. -/
def PerspectiveFov.matrix (p : PerspectiveFov) : Res (M4 ℝ) :=
  if 0 < p.fovy ∧ p.fovy < Real.pi ∧ p.aspect ≠ 0 ∧ 0 < p.near ∧ 0 < p.far ∧ p.far ≠ p.near then
    .ok ⟨⟨1 / Real.tan (p.fovy / 2) / p.aspect, 0, 0, 0⟩,
      ⟨0, 1 / Real.tan (p.fovy / 2), 0, 0⟩,
      ⟨0, 0, (p.far + p.near) / (p.near - p.far), 2 * p.far * p.near / (p.near - p.far)⟩,
      ⟨0, 0, -1, 0⟩⟩
  else .panic

/-- `PerspectiveFov::to_frustum`, `src/frustum.rs:136-141`: `from_matrix4(..).unwrap()` -/
def PerspectiveFov.toFrustum (p : PerspectiveFov) : Res (Frustum ℝ) := do
  let m ← p.matrix
  Res.ofOption (Frustum.fromMatrix4 m)

/-! ## Specification -/

/-- What the eye at the origin sees, looking along the negative z axis, through the open window `left .. right`, `bottom .. top` at distance `near`, up to the distance `far`. -/
def Perspective.Sees (P : Perspective) (p : V3 ℝ) : Prop :=
  (-P.far < p.z ∧ p.z < -P.near) ∧
  ∃ (w : V3 ℝ) (s : ℝ), 0 < s ∧ w.z = -P.near ∧ (P.left < w.x ∧ w.x < P.right) ∧ (P.bottom < w.y ∧ w.y < P.top) ∧ p = w * s
/-- The same with the rim. -/
def Perspective.SeesRim (P : Perspective) (p : V3 ℝ) : Prop :=
  (-P.far ≤ p.z ∧ p.z ≤ -P.near) ∧
  ∃ (w : V3 ℝ) (s : ℝ), 0 < s ∧ w.z = -P.near ∧ (P.left ≤ w.x ∧ w.x ≤ P.right) ∧ (P.bottom ≤ w.y ∧ w.y ≤ P.top) ∧ p = w * s

/-- What is seen with an opening angle of `fovy` in the vertical plane, at depth between the two distances. -/
def PerspectiveFov.Sees (P : PerspectiveFov) (p : V3 ℝ) : Prop :=
  (min P.near P.far < -p.z ∧ -p.z < max P.near P.far) ∧ |p.y| < -p.z * Real.tan (P.fovy / 2) ∧ |p.x| < -p.z * (Real.tan (P.fovy / 2) * |P.aspect|)
/-- The same with the rim. -/
def PerspectiveFov.SeesRim (P : PerspectiveFov) (p : V3 ℝ) : Prop :=
  (min P.near P.far ≤ -p.z ∧ -p.z ≤ max P.near P.far) ∧ |p.y| ≤ -p.z * Real.tan (P.fovy / 2) ∧ |p.x| ≤ -p.z * (Real.tan (P.fovy / 2) * |P.aspect|)

/-! ## From points to boxes and spheres -/

/-- A frustum whose planes bound the open set `V`: a box is `In` exactly if all its points are in `V`; if it is `Out`, none is. -/
theorem box_visible (f : Frustum ℝ) (V : V3 ℝ → Prop) (hV : ∀ p, f.contains p.relatePlane = .In ↔ V p) (b : Aabb3 ℝ) (hb : b.Valid) :
    (f.contains b.relatePlane = .In ↔ ∀ p, b.Mem p → V p) ∧ (f.contains b.relatePlane = .Out → ∀ p, b.Mem p → ¬ V p) := by
  obtain ⟨h1, h2, -⟩ := c41_frustum_box f b hb
  constructor
  · rw [h2]
    exact forall₂_congr fun p _ => by rw [← hV, (c41_frustum_point f p).2]
  · intro h p hp hv
    obtain ⟨P, hP, ho⟩ := h1.1 h
    have := (c41_frustum_point f p).2.1 ((hV p).2 hv) P hP
    have := ho p hp
    unfold Plane.Inside Plane.Outside at *
    linarith

/-- The same for spheres, the planes having unit normals. -/
theorem sphere_visible (f : Frustum ℝ) (hf : ∀ P, f.HasPlane P → P.n.norm = 1) (V : V3 ℝ → Prop) (hV : ∀ p, f.contains p.relatePlane = .In ↔ V p) (s : Sphere) (hs : 0 ≤ s.radius) :
    (f.contains s.relatePlane = .In ↔ ∀ p, s.Mem p → V p) ∧ (f.contains s.relatePlane = .Out → ∀ p, s.Mem p → ¬ V p) := by
  obtain ⟨h1, h2, -⟩ := c41_frustum_sphere f hf s hs
  constructor
  · rw [h2]
    exact forall₂_congr fun p _ => by rw [← hV, (c41_frustum_point f p).2]
  · intro h p hp hv
    obtain ⟨P, hP, ho⟩ := h1.1 h
    have := (c41_frustum_point f p).2.1 ((hV p).2 hv) P hP
    have := ho p hp
    unfold Plane.Inside Plane.Outside at *
    linarith

/-! ## C97 -/

theorem abs_div_lt {x c w : ℝ} (hc : 0 < c) : |x / c| < w ↔ |x| < w * c := by rw [abs_div, abs_of_pos hc, div_lt_iff₀ hc]
theorem abs_div_gt {x c w : ℝ} (hc : 0 < c) : |x / c| > w ↔ |x| > w * c := by rw [abs_div, abs_of_pos hc, gt_iff_lt, gt_iff_lt, lt_div_iff₀ hc]

/-- **C97, `Perspective`.** With `left < right`, `bottom < top`, `0 < near < far` the frustum exists (no panic), a point is `In` exactly if it is seen and `Out` exactly if it is not even
on the rim; a box or a sphere is `In` exactly if it is seen entirely, and no point of it is seen if it is `Out`. -/
theorem c97_perspective (P : Perspective) (hx : P.left < P.right) (hy : P.bottom < P.top) (hn : 0 < P.near) (hz : P.near < P.far) :
    ∃ f, P.toFrustum = .ok f ∧
      (∀ p, (f.contains p.relatePlane = .In ↔ P.Sees p) ∧ (f.contains p.relatePlane = .Out ↔ ¬ P.SeesRim p)) ∧
      (∀ b : Aabb3 ℝ, b.Valid → (f.contains b.relatePlane = .In ↔ ∀ p, b.Mem p → P.Sees p) ∧ (f.contains b.relatePlane = .Out → ∀ p, b.Mem p → ¬ P.Sees p)) ∧
      (∀ s : Sphere, 0 ≤ s.radius → (f.contains s.relatePlane = .In ↔ ∀ p, s.Mem p → P.Sees p) ∧ (f.contains s.relatePlane = .Out → ∀ p, s.Mem p → ¬ P.Sees p)) := by
  obtain ⟨l, r, b, t, n, f⟩ := P
  dsimp only at hx hy hn hz
  have e1 : 0 < r - l := by linarith
  have e2 : 0 < t - b := by linarith
  have e3 : 0 < f - n := by linarith
  obtain ⟨m, hm⟩ : ∃ m : M4 ℝ, m = ⟨⟨2 * n / (r - l), 0, (r + l) / (r - l), 0⟩, ⟨0, 2 * n / (t - b), (t + b) / (t - b), 0⟩, ⟨0, 0, -(f + n) / (f - n), -(2 * f * n) / (f - n)⟩, ⟨0, 0, -1, 0⟩⟩ := ⟨_, rfl⟩
  have hmat : Perspective.matrix ⟨l, r, b, t, n, f⟩ = .ok m := by
    unfold Perspective.matrix
    rw [if_pos ⟨hx.le, hy.le, hz.le⟩, hm]
  obtain ⟨F, hF⟩ : ∃ F, Frustum.fromMatrix4 m = some F := by
    rw [← Option.ne_none_iff_exists', ne_eq, c42_none, hm]
    have a1 : 0 < 2 * n / (r - l) := by positivity
    have a2 : 0 < 2 * n / (t - b) := by positivity
    have a3 : -(f + n) / (f - n) < -1 := by rw [div_lt_iff₀ e3]; linarith
    rintro ⟨v, hv, h⟩
    simp only [List.mem_cons, List.not_mem_nil, or_false] at hv
    rcases hv with rfl | rfl | rfl <;> simp only at h
    · rcases h with ⟨h, -⟩ | ⟨h, -⟩ <;> linarith
    · rcases h with ⟨-, h, -⟩ | ⟨-, h, -⟩ <;> linarith
    · rcases h with ⟨-, -, h⟩ | ⟨-, -, h⟩ <;> linarith
  have hq : ∀ p : V3 ℝ, m.mulVec p.hom = ⟨(2 * n * p.x + (r + l) * p.z) / (r - l), (2 * n * p.y + (t + b) * p.z) / (t - b), (-(f + n) * p.z - 2 * f * n) / (f - n), -p.z⟩ := by
    intro p
    rw [hm]
    simp only [M4.mulVec, V4.dot, V3.hom, V4.mk.injEq]
    refine ⟨?_, ?_, ?_, ?_⟩
    · field_simp; ring
    · field_simp; ring
    · field_simp; ring
    · ring
  have hpt : ∀ p : V3 ℝ, (F.contains p.relatePlane = .In ↔ Perspective.Sees ⟨l, r, b, t, n, f⟩ p) ∧ (F.contains p.relatePlane = .Out ↔ ¬ Perspective.SeesRim ⟨l, r, b, t, n, f⟩ p) := by
    intro p
    obtain ⟨hI, hO, -⟩ := c42_clip_space m F hF p
    rw [hq] at hI hO
    dsimp only at hI hO
    rw [abs_div_lt e1, abs_div_lt e2, abs_div_lt e3, abs_lt, abs_lt, abs_lt] at hI
    rw [abs_div_gt e1, abs_div_gt e2, abs_div_gt e3] at hO
    constructor
    · rw [hI]
      unfold Perspective.Sees
      dsimp only
      constructor
      · rintro ⟨⟨x1, x2⟩, ⟨y1, y2⟩, z1, z2⟩
        have w1 : -f < p.z := by nlinarith
        have w2 : p.z < -n := by nlinarith
        have w3 : 0 < -p.z := by linarith
        refine ⟨⟨w1, w2⟩, p * (n / -p.z), -p.z / n, by positivity, ?_, ⟨?_, ?_⟩, ⟨?_, ?_⟩, ?_⟩
        · have : p.z ≠ 0 := by linarith
          simp only [V3.mul_z]; field_simp
        · simp only [V3.mul_x]; rw [mul_div_assoc', lt_div_iff₀ w3]; linarith
        · simp only [V3.mul_x]; rw [mul_div_assoc', div_lt_iff₀ w3]; linarith
        · simp only [V3.mul_y]; rw [mul_div_assoc', lt_div_iff₀ w3]; linarith
        · simp only [V3.mul_y]; rw [mul_div_assoc', div_lt_iff₀ w3]; linarith
        · have : p.z ≠ 0 := by linarith
          ext <;> simp only [V3.mul_x, V3.mul_y, V3.mul_z] <;> field_simp
      · rintro ⟨⟨w1, w2⟩, w, s, hs, hw, ⟨x1, x2⟩, ⟨y1, y2⟩, rfl⟩
        simp only [V3.mul_x, V3.mul_y, V3.mul_z] at w1 w2 ⊢
        rw [hw] at w1 w2 ⊢
        have q1 := mul_pos (mul_pos hs hn) (sub_pos.2 x1)
        have q2 := mul_pos (mul_pos hs hn) (sub_pos.2 x2)
        have q3 := mul_pos (mul_pos hs hn) (sub_pos.2 y1)
        have q4 := mul_pos (mul_pos hs hn) (sub_pos.2 y2)
        have q5 := mul_pos (sub_pos.2 w1) hn
        have q6 := mul_pos (sub_pos.2 w2) (hn.trans hz)
        refine ⟨⟨?_, ?_⟩, ⟨?_, ?_⟩, ?_, ?_⟩ <;> nlinarith
    · rw [hO, ← not_iff_not, not_not]
      simp only [gt_iff_lt, not_or, not_lt, abs_le]
      unfold Perspective.SeesRim
      dsimp only
      constructor
      · rintro ⟨⟨x1, x2⟩, ⟨y1, y2⟩, z1, z2⟩
        have w1 : -f ≤ p.z := by nlinarith
        have w2 : p.z ≤ -n := by nlinarith
        have w3 : 0 < -p.z := by linarith
        refine ⟨⟨w1, w2⟩, p * (n / -p.z), -p.z / n, by positivity, ?_, ⟨?_, ?_⟩, ⟨?_, ?_⟩, ?_⟩
        · have : p.z ≠ 0 := by linarith
          simp only [V3.mul_z]; field_simp
        · simp only [V3.mul_x]; rw [mul_div_assoc', le_div_iff₀ w3]; linarith
        · simp only [V3.mul_x]; rw [mul_div_assoc', div_le_iff₀ w3]; linarith
        · simp only [V3.mul_y]; rw [mul_div_assoc', le_div_iff₀ w3]; linarith
        · simp only [V3.mul_y]; rw [mul_div_assoc', div_le_iff₀ w3]; linarith
        · have : p.z ≠ 0 := by linarith
          ext <;> simp only [V3.mul_x, V3.mul_y, V3.mul_z] <;> field_simp
      · rintro ⟨⟨w1, w2⟩, w, s, hs, hw, ⟨x1, x2⟩, ⟨y1, y2⟩, rfl⟩
        simp only [V3.mul_x, V3.mul_y, V3.mul_z] at w1 w2 ⊢
        rw [hw] at w1 w2 ⊢
        have q1 := mul_nonneg (mul_pos hs hn).le (sub_nonneg.2 x1)
        have q2 := mul_nonneg (mul_pos hs hn).le (sub_nonneg.2 x2)
        have q3 := mul_nonneg (mul_pos hs hn).le (sub_nonneg.2 y1)
        have q4 := mul_nonneg (mul_pos hs hn).le (sub_nonneg.2 y2)
        have q5 := mul_nonneg (sub_nonneg.2 w1) hn.le
        have q6 := mul_nonneg (sub_nonneg.2 w2) (hn.trans hz).le
        refine ⟨⟨?_, ?_⟩, ⟨?_, ?_⟩, ?_, ?_⟩ <;> nlinarith
  refine ⟨F, ?_, hpt, fun bx hb => box_visible F _ (fun p => (hpt p).1) bx hb, fun s hs => sphere_visible F ?_ _ (fun p => (hpt p).1) s hs⟩
  · unfold Perspective.toFrustum
    rw [hmat, Res.bind_ok, hF]; rfl
  · exact (c42_clip_space m F hF 0).2.2.2.2

/-- With the near window through the eye (`near = 0`) there is no far plane: the conversion panics. -/
theorem c97_near_zero (P : Perspective) (hx : P.left < P.right) (hy : P.bottom < P.top) (hn : P.near = 0) (hz : 0 < P.far) : P.toFrustum = .panic := by
  obtain ⟨l, r, b, t, n, f⟩ := P
  dsimp only at hx hy hn hz
  subst hn
  unfold Perspective.toFrustum Perspective.matrix
  dsimp only
  rw [if_pos ⟨hx.le, hy.le, hz.le⟩, Res.bind_ok]
  have : ∀ m : M4 ℝ, Frustum.fromMatrix4 m = none → Res.ofOption (Frustum.fromMatrix4 m) = .panic := by
    intro m h; rw [h]; rfl
  apply this
  rw [c42_none]
  refine ⟨_, List.mem_cons_of_mem _ (List.mem_cons_of_mem _ (List.mem_singleton.2 rfl)), Or.inr ⟨rfl, rfl, ?_⟩⟩
  simp only [add_zero, sub_zero]
  rw [neg_div, div_self hz.ne']

/-- **C97, `PerspectiveFov`.** Whenever the parameters meet the conditions cgmath asserts, the frustum exists (no panic) and is the visible pyramid; the two distances may come in either order
and the aspect may be negative. -/
theorem c97_fov (P : PerspectiveFov) (hf0 : 0 < P.fovy) (hf1 : P.fovy < Real.pi) (ha : P.aspect ≠ 0) (hn : 0 < P.near) (hf : 0 < P.far) (hz : P.far ≠ P.near) :
    ∃ f, P.toFrustum = .ok f ∧
      (∀ p, (f.contains p.relatePlane = .In ↔ P.Sees p) ∧ (f.contains p.relatePlane = .Out ↔ ¬ P.SeesRim p)) ∧
      (∀ b : Aabb3 ℝ, b.Valid → (f.contains b.relatePlane = .In ↔ ∀ p, b.Mem p → P.Sees p) ∧ (f.contains b.relatePlane = .Out → ∀ p, b.Mem p → ¬ P.Sees p)) ∧
      (∀ s : Sphere, 0 ≤ s.radius → (f.contains s.relatePlane = .In ↔ ∀ p, s.Mem p → P.Sees p) ∧ (f.contains s.relatePlane = .Out → ∀ p, s.Mem p → ¬ P.Sees p)) := by
  obtain ⟨th, a, n, f⟩ := P
  dsimp only at hf0 hf1 ha hn hf hz
  obtain ⟨T, hT⟩ : ∃ T, T = Real.tan (th / 2) := ⟨_, rfl⟩
  have hTp : 0 < T := by rw [hT]; exact Real.tan_pos_of_pos_of_lt_pi_div_two (by linarith) (by linarith)
  have hap : 0 < |a| := abs_pos.2 ha
  obtain ⟨m, hm⟩ : ∃ m : M4 ℝ, m = ⟨⟨1 / T / a, 0, 0, 0⟩, ⟨0, 1 / T, 0, 0⟩, ⟨0, 0, (f + n) / (n - f), 2 * f * n / (n - f)⟩, ⟨0, 0, -1, 0⟩⟩ := ⟨_, rfl⟩
  have hmat : PerspectiveFov.matrix ⟨th, a, n, f⟩ = .ok m := by
    unfold PerspectiveFov.matrix
    rw [if_pos ⟨hf0, hf1, ha, hn, hf, hz⟩, hm, hT]
  have hd : n - f ≠ 0 := fun h => hz (by linarith)
  obtain ⟨F, hF⟩ : ∃ F, Frustum.fromMatrix4 m = some F := by
    rw [← Option.ne_none_iff_exists', ne_eq, c42_none, hm]
    have a1 : 1 / T / a ≠ 0 := by positivity
    have a2 : 1 / T ≠ 0 := by positivity
    rintro ⟨v, hv, h⟩
    simp only [List.mem_cons, List.not_mem_nil, or_false] at hv
    rcases hv with rfl | rfl | rfl <;> simp only at h
    · rcases h with ⟨h, -⟩ | ⟨h, -⟩
      · exact a1 (by linarith)
      · exact a1 (by linarith)
    · rcases h with ⟨-, h, -⟩ | ⟨-, h, -⟩
      · exact a2 (by linarith)
      · exact a2 (by linarith)
    · rcases h with ⟨-, -, h⟩ | ⟨-, -, h⟩
      · field_simp at h; linarith
      · field_simp at h; linarith
  have hq : ∀ p : V3 ℝ, m.mulVec p.hom = ⟨p.x / (T * a), p.y / T, ((f + n) * p.z + 2 * f * n) / (n - f), -p.z⟩ := by
    intro p
    rw [hm]
    simp only [M4.mulVec, V4.dot, V3.hom, V4.mk.injEq]
    refine ⟨?_, ?_, ?_, ?_⟩
    · field_simp; ring
    · field_simp; ring
    · field_simp; ring
    · ring
  -- depth
  have hsq : 0 < (n - f) ^ 2 := by positivity
  have hdl : ∀ z : ℝ, |((f + n) * z + 2 * f * n) / (n - f)| < -z ↔ min n f < -z ∧ -z < max n f := by
    intro z
    rcases lt_or_gt_of_ne hz with h | h
    · have e3 : 0 < n - f := by linarith
      rw [abs_div_lt e3, abs_lt, min_eq_right h.le, max_eq_left h.le]
      constructor
      · rintro ⟨h1, h2⟩; constructor <;> nlinarith
      · rintro ⟨h1, h2⟩
        have q1 := mul_pos (sub_pos.2 h1) hn
        have q2 := mul_pos (sub_pos.2 h2) hf
        constructor <;> nlinarith
    · have e3 : 0 < f - n := by linarith
      have : ((f + n) * z + 2 * f * n) / (n - f) = -(((f + n) * z + 2 * f * n) / (f - n)) := by
        rw [← neg_sub f n, div_neg]
      rw [this, abs_neg, abs_div_lt e3, abs_lt, min_eq_left h.le, max_eq_right h.le]
      constructor
      · rintro ⟨h1, h2⟩; constructor <;> nlinarith
      · rintro ⟨h1, h2⟩
        have q1 := mul_pos (sub_pos.2 h1) hf
        have q2 := mul_pos (sub_pos.2 h2) hn
        constructor <;> nlinarith
  have hdg : ∀ z : ℝ, |((f + n) * z + 2 * f * n) / (n - f)| ≤ -z ↔ min n f ≤ -z ∧ -z ≤ max n f := by
    intro z
    rcases lt_or_gt_of_ne hz with h | h
    · have e3 : 0 < n - f := by linarith
      rw [abs_div, abs_of_pos e3, div_le_iff₀ e3, abs_le, min_eq_right h.le, max_eq_left h.le]
      constructor
      · rintro ⟨h1, h2⟩; constructor <;> nlinarith
      · rintro ⟨h1, h2⟩
        have q1 := mul_nonneg (sub_nonneg.2 h1) hn.le
        have q2 := mul_nonneg (sub_nonneg.2 h2) hf.le
        constructor <;> nlinarith
    · have e3 : 0 < f - n := by linarith
      have : ((f + n) * z + 2 * f * n) / (n - f) = -(((f + n) * z + 2 * f * n) / (f - n)) := by
        rw [← neg_sub f n, div_neg]
      rw [this, abs_neg, abs_div, abs_of_pos e3, div_le_iff₀ e3, abs_le, min_eq_left h.le, max_eq_right h.le]
      constructor
      · rintro ⟨h1, h2⟩; constructor <;> nlinarith
      · rintro ⟨h1, h2⟩
        have q1 := mul_nonneg (sub_nonneg.2 h1) hf.le
        have q2 := mul_nonneg (sub_nonneg.2 h2) hn.le
        constructor <;> nlinarith
  have hTa : 0 < T * |a| := by positivity
  have hpt : ∀ p : V3 ℝ, (F.contains p.relatePlane = .In ↔ PerspectiveFov.Sees ⟨th, a, n, f⟩ p) ∧ (F.contains p.relatePlane = .Out ↔ ¬ PerspectiveFov.SeesRim ⟨th, a, n, f⟩ p) := by
    intro p
    obtain ⟨hI, hO, -⟩ := c42_clip_space m F hF p
    rw [hq] at hI hO
    dsimp only at hI hO
    constructor
    · rw [hI, hdl, abs_div_lt hTp, abs_div, abs_mul, abs_of_pos hTp, div_lt_iff₀ hTa]
      unfold PerspectiveFov.Sees
      dsimp only
      rw [← hT]
      tauto
    · rw [hO, ← not_iff_not, not_not]
      simp only [gt_iff_lt, not_or, not_lt]
      rw [hdg, abs_div, abs_div, abs_mul, abs_of_pos hTp, div_le_iff₀ hTa, div_le_iff₀ hTp]
      unfold PerspectiveFov.SeesRim
      dsimp only
      rw [← hT]
      tauto
  refine ⟨F, ?_, hpt, fun bx hb => box_visible F _ (fun p => (hpt p).1) bx hb, fun s hs => sphere_visible F ?_ _ (fun p => (hpt p).1) s hs⟩
  · unfold PerspectiveFov.toFrustum
    rw [hmat, Res.bind_ok, hF]; rfl
  · exact (c42_clip_space m F hF 0).2.2.2.2

/-- A window of two by two at distance 1, seen up to distance 10: a small box in the middle is `In`. -/
example : ∃ f, (⟨-1, 1, -1, 1, 1, 10⟩ : Perspective).toFrustum = .ok f ∧ f.contains (⟨⟨-1, -1, -6⟩, ⟨1, 1, -5⟩⟩ : Aabb3 ℝ).relatePlane = .In := by
  obtain ⟨f, h1, -, h2, -⟩ := c97_perspective ⟨-1, 1, -1, 1, 1, 10⟩ (by norm_num) (by norm_num) (by norm_num) (by norm_num)
  refine ⟨f, h1, ((h2 _ ⟨by norm_num, by norm_num, by norm_num⟩).1).2 ?_⟩
  rintro ⟨x, y, z⟩ h
  simp only [Aabb3.Mem] at h
  obtain ⟨⟨x1, x2⟩, ⟨y1, y2⟩, z1, z2⟩ := h
  have hz : 0 < -z := by linarith
  refine ⟨⟨by simp only; linarith, by simp only; linarith⟩, ⟨x / -z, y / -z, -1⟩, -z, hz, rfl, ⟨?_, ?_⟩, ⟨?_, ?_⟩, ?_⟩
  · simp only; rw [lt_div_iff₀ hz]; linarith
  · simp only; rw [div_lt_iff₀ hz]; linarith
  · simp only; rw [lt_div_iff₀ hz]; linarith
  · simp only; rw [div_lt_iff₀ hz]; linarith
  · have : z ≠ 0 := by linarith
    ext <;> simp <;> field_simp
end
end Verif.Geom
