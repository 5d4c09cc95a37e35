import Verif.Scene.F64Culling
/-!
# Placed 3D shapes in rounded arithmetic

Points, support points and the points of the Minkowski difference of the 3D primitives with corners, with any coordinates: what the code computes over `Fl R` is right up to rounding errors. Used for the 3D
bounds (C113) and for the miss of the 3D GJK (C114).
-/
namespace Verif.Scene
open Verif Geom Primitive Minkowski
open Verif.Dbvt (Rounding F64 binary64 Rep64)
set_option linter.unusedSectionVars false
noncomputable section
open Classical
variable {F : Type} [LinearOrder F] {R : Rounding F} {u η Ω M N A B : ℝ} {a b c d v : V3 ℝ}

theorem Sz3.mono (h : Sz3 A a) (hAB : A ≤ B) : Sz3 B a := ⟨h.1.trans hAB, h.2.1.trans hAB, h.2.2.trans hAB⟩
theorem Sz3.neg (h : Sz3 A a) : Sz3 A (-a) := by
  refine ⟨?_, ?_, ?_⟩
  · show |-a.x| ≤ A
    rw [abs_neg]; exact h.1
  · show |-a.y| ≤ A
    rw [abs_neg]; exact h.2.1
  · show |-a.z| ≤ A
    rw [abs_neg]; exact h.2.2
theorem rep3_neg (h : Std R u η Ω) (hr : Rep3 R a) (hs : Sz3 A a) (hA : A ≤ Ω) : Rep3 R (-a) :=
  ⟨h.rep_neg (hs.1.trans hA) hr.1, h.rep_neg (hs.2.1.trans hA) hr.2.1, h.rep_neg (hs.2.2.trans hA) hr.2.2⟩
theorem dot3_abs_le (ha : Sz3 A a) (hb : Sz3 B b) : |a.dot b| ≤ 3 * (A * B) := by
  have h1 := mul_abs_le ha.1 hb.1
  have h2 := mul_abs_le ha.2.1 hb.2.1
  have h3 := mul_abs_le ha.2.2 hb.2.2
  show |a.x * b.x + a.y * b.y + a.z * b.z| ≤ _
  have := abs_add_le (a.x * b.x + a.y * b.y) (a.z * b.z)
  have := abs_add_le (a.x * b.x) (a.y * b.y)
  linarith
theorem dot3_sub_le {w w' : V3 ℝ} (hw : Sz3 A (w - w')) (hb : Sz3 B b) : |w.dot b - w'.dot b| ≤ 3 * (A * B) := by
  have := dot3_abs_le hw hb
  rwa [show (w - w').dot b = w.dot b - w'.dot b by simp [V3.dot]; ring] at this
theorem sz3_sub (h1 : Sz3 A (a - b)) (h2 : Sz3 B b) : Sz3 (A + B) a := by
  have k : ∀ {x y : ℝ}, |x - y| ≤ A → |y| ≤ B → |x| ≤ A + B := by
    intro x y hx hy
    have := abs_add_le (x - y) y
    rw [sub_add_cancel] at this
    exact this.trans (add_le_add hx hy)
  exact ⟨k h1.1 h2.1, k h1.2.1 h2.2.1, k h1.2.2 h2.2.2⟩
theorem sz3_diff (h1 : Sz3 A a) (h2 : Sz3 B b) : Sz3 (A + B) (a - b) :=
  ⟨(abs_sub _ _).trans (add_le_add h1.1 h2.1), (abs_sub _ _).trans (add_le_add h1.2.1 h2.2.1), (abs_sub _ _).trans (add_le_add h1.2.2 h2.2.2)⟩
theorem sz3_add (h1 : Sz3 A a) (h2 : Sz3 B b) : Sz3 (A + B) (a + b) :=
  ⟨(abs_add_le _ _).trans (add_le_add h1.1 h2.1), (abs_add_le _ _).trans (add_le_add h1.2.1 h2.2.1), (abs_add_le _ _).trans (add_le_add h1.2.2 h2.2.2)⟩

/-- The rounded sum. -/
theorem add3_err (h : Std R u η Ω) (ra : Rep3 R a) (rb : Rep3 R b) (sa : Sz3 A a) (sb : Sz3 B b) (hΩ : A + B ≤ Ω) :
    ∃ c, Rep3 R c ∧ toV3 R a + toV3 R b = toV3 R c ∧ Sz3 (u * (A + B) + η) (c - (a + b)) := by
  obtain ⟨s1, s2, s3⟩ := sz3_add sa sb
  obtain ⟨x1, rx1, e1, d1⟩ := h.fl s1 hΩ
  obtain ⟨x2, rx2, e2, d2⟩ := h.fl s2 hΩ
  obtain ⟨x3, rx3, e3, d3⟩ := h.fl s3 hΩ
  refine ⟨⟨x1, x2, x3⟩, ⟨rx1, rx2, rx3⟩, ?_, d1, d2, d3⟩
  ext
  · show toF R a.x + toF R b.x = _
    rw [toF_add ra.1 rb.1]; exact e1
  · show toF R a.y + toF R b.y = _
    rw [toF_add ra.2.1 rb.2.1]; exact e2
  · show toF R a.z + toF R b.z = _
    rw [toF_add ra.2.2 rb.2.2]; exact e3
/-- The rounded difference. -/
theorem sub3_err (h : Std R u η Ω) (ra : Rep3 R a) (rb : Rep3 R b) (sa : Sz3 A a) (sb : Sz3 B b) (hΩ : A + B ≤ Ω) :
    ∃ c, Rep3 R c ∧ toV3 R a - toV3 R b = toV3 R c ∧ Sz3 (u * (A + B) + η) (c - (a - b)) := by
  obtain ⟨s1, s2, s3⟩ := sz3_diff sa sb
  obtain ⟨x1, rx1, e1, d1⟩ := h.fl s1 hΩ
  obtain ⟨x2, rx2, e2, d2⟩ := h.fl s2 hΩ
  obtain ⟨x3, rx3, e3, d3⟩ := h.fl s3 hΩ
  refine ⟨⟨x1, x2, x3⟩, ⟨rx1, rx2, rx3⟩, ?_, d1, d2, d3⟩
  ext
  · show toF R a.x - toF R b.x = _
    rw [toF_sub ra.1 rb.1]; exact e1
  · show toF R a.y - toF R b.y = _
    rw [toF_sub ra.2.1 rb.2.1]; exact e2
  · show toF R a.z - toF R b.z = _
    rw [toF_sub ra.2.2 rb.2.2]; exact e3

/-- A matrix of representable entries of at most 1. -/
structure FitsM (R : Rounding F) (m : M3 ℝ) : Prop where
  r0 : Rep3 R m.c0
  r1 : Rep3 R m.c1
  r2 : Rep3 R m.c2
  s0 : Sz3 1 m.c0
  s1 : Sz3 1 m.c1
  s2 : Sz3 1 m.c2
theorem FitsM.transpose {m : M3 ℝ} (h : FitsM R m) : FitsM R m.transpose :=
  ⟨⟨h.r0.1, h.r1.1, h.r2.1⟩, ⟨h.r0.2.1, h.r1.2.1, h.r2.2.1⟩, ⟨h.r0.2.2, h.r1.2.2, h.r2.2.2⟩, ⟨h.s0.1, h.s1.1, h.s2.1⟩, ⟨h.s0.2.1, h.s1.2.1, h.s2.2.1⟩, ⟨h.s0.2.2, h.s1.2.2, h.s2.2.2⟩⟩
variable (R) in
/-- The matrix in rounded numbers. -/
def matF (m : M3 ℝ) : M3 (Fl R) := ⟨toV3 R m.c0, toV3 R m.c1, toV3 R m.c2⟩
/-- The rounded matrix times a vector. -/
theorem apply3_err (h : Std R u η Ω) {m : M3 ℝ} (hm : FitsM R m) (rv : Rep3 R v) (sv : Sz3 A v) (hΩ : 4 * A + 1 ≤ Ω) :
    ∃ w, Rep3 R w ∧ applyG3 (matF R m) (toV3 R v) = toV3 R w ∧ Sz3 (9 * (u * A) + 6 * η) (w - m.apply v) := by
  have t := hm.transpose
  obtain ⟨x, rx, e1, d1⟩ := dot3_err h t.r0 rv t.s0 sv (by rwa [one_mul])
  obtain ⟨y, ry, e2, d2⟩ := dot3_err h t.r1 rv t.s1 sv (by rwa [one_mul])
  obtain ⟨z, rz, e3, d3⟩ := dot3_err h t.r2 rv t.s2 sv (by rwa [one_mul])
  rw [one_mul] at d1 d2 d3
  refine ⟨⟨x, y, z⟩, ⟨rx, ry, rz⟩, ?_, d1, d2, d3⟩
  ext
  · exact e1
  · exact e2
  · exact e3
theorem apply3_sz {m : M3 ℝ} (hm : FitsM R m) (sv : Sz3 A v) : Sz3 (3 * A) (m.apply v) := by
  have t := hm.transpose
  have h1 := dot3_abs_le t.s0 sv
  have h2 := dot3_abs_le t.s1 sv
  have h3 := dot3_abs_le t.s2 sv
  rw [one_mul] at h1 h2 h3
  exact ⟨h1, h2, h3⟩

/-- The placement: unit scale, a matrix of representable entries of at most 1, a representable displacement of at most `M`. -/
structure Fits3 (R : Rounding F) (M : ℝ) (D : Dec3 ℝ) : Prop where
  scale : D.scale = 1
  rot : FitsM R D.rot
  rd : Rep3 R D.disp
  sd : Sz3 M D.disp

theorem scale_one3 (D : Dec3 ℝ) (hs : D.scale = 1) (rv : Rep3 R v) : toV3 R v * (decF3 R D).scale = toV3 R v ∧ toV3 R v / (decF3 R D).scale = toV3 R v ∧ (decF3 R D).scale ≠ 0 := by
  have e : (decF3 R D).scale = toF R 1 := by
    show toF R D.scale = _
    rw [hs]
  rw [e]
  have m : ∀ {x : ℝ}, Rep R x → toF R x * toF R 1 = toF R x := fun hx => by rw [toF_mul hx rep_one, mul_one]
  have q : ∀ {x : ℝ}, Rep R x → toF R x / toF R 1 = toF R x := fun hx => by rw [toF_div hx rep_one, div_one]
  refine ⟨?_, ?_, ?_⟩
  · ext
    · exact m rv.1
    · exact m rv.2.1
    · exact m rv.2.2
  · ext
    · exact q rv.1
    · exact q rv.2.1
    · exact q rv.2.2
  · rw [← toF_zero]
    exact fun h => one_ne_zero ((toF_inj rep_one rep_zero).1 h)

/-- The transform of a point in rounded arithmetic. -/
theorem point3_near (h : Std R u η Ω) {D : Dec3 ℝ} (hD : Fits3 R M D) (hM : 1 ≤ M) (rv : Rep3 R v) (sv : Sz3 M v) (hΩ : 5 * M ≤ Ω) :
    ∃ w, Rep3 R w ∧ Sz3 (6 * M) w ∧ pointG3 (decF3 R D) (toV3 R v) = toV3 R w ∧ Sz3 (14 * (u * M) + 7 * η) (w - D.tr.point v) := by
  have hu := h.u0
  have hu1 := h.u1
  have hη := h.η0
  have hη1 := h.η1
  have uM : u * M ≤ 1 / 16 * M := mul_le_mul_of_nonneg_right hu1 (by linarith)
  have uM0 : 0 ≤ u * M := mul_nonneg hu (by linarith)
  obtain ⟨w1, rw1, e1, d1⟩ := apply3_err h hD.rot rv sv (by linarith)
  have s1 : Sz3 (4 * M) w1 := (sz3_sub d1 (apply3_sz hD.rot sv)).mono (by linarith)
  obtain ⟨w, rw', e2, d2⟩ := add3_err h rw1 hD.rd s1 hD.sd (by linarith)
  have e : D.tr.point v = D.rot.apply v + D.disp := by
    show D.rot.apply (v * D.scale) + D.disp = _
    rw [hD.scale, show v * (1 : ℝ) = v by ext <;> simp]
  have dw : Sz3 (14 * (u * M) + 7 * η) (w - D.tr.point v) := by
    have k : ∀ {x y z t : ℝ}, |x - (y + t)| ≤ u * (4 * M + M) + η → |y - z| ≤ 9 * (u * M) + 6 * η → |x - (z + t)| ≤ 14 * (u * M) + 7 * η := by
      intro x y z t h1 h2
      rw [show u * (4 * M + M) = 5 * (u * M) by ring] at h1
      rw [abs_le] at h1 h2 ⊢
      constructor <;> linarith
    rw [e]
    exact ⟨k d2.1 d1.1, k d2.2.1 d1.2.1, k d2.2.2 d1.2.2⟩
  refine ⟨w, rw', ?_, ?_, dw⟩
  · refine (sz3_sub dw (B := 3 * M + M) ?_).mono (by linarith)
    rw [e]
    exact sz3_add (apply3_sz hD.rot sv) hD.sd
  · unfold pointG3
    rw [(scale_one3 D hD.scale rv).1]
    show applyG3 (matF R D.rot) (toV3 R v) + toV3 R D.disp = _
    rw [e1, e2]

variable (R) in
/-- The shape: representable coordinates of at most `M`, half of the sides too. -/
def FitsS (M : ℝ) : Minkowski.Box3 ℝ → Prop
  | .particle => True
  | .quad w h => (0 ≤ w ∧ 0 ≤ h) ∧ (Rep R w ∧ Rep R h) ∧ (Rep R (w / 2) ∧ Rep R (h / 2)) ∧ (w / 2 ≤ M ∧ h / 2 ≤ M)
  | .cuboid w h l => (0 ≤ w ∧ 0 ≤ h ∧ 0 ≤ l) ∧ (Rep R w ∧ Rep R h ∧ Rep R l) ∧ (Rep R (w / 2) ∧ Rep R (h / 2) ∧ Rep R (l / 2)) ∧ (w / 2 ≤ M ∧ h / 2 ≤ M ∧ l / 2 ≤ M)
  | .cube w => 0 ≤ w ∧ Rep R w ∧ Rep R (w / 2) ∧ w / 2 ≤ M
  | .polyhedron vs => vs ≠ [] ∧ ∀ v ∈ vs, Rep3 R v ∧ Sz3 M v

variable {s t : Minkowski.Box3 ℝ} {D E : Dec3 ℝ}
theorem prim3_ok (hs : FitsS R M s) : s.prim.Ok := by
  cases s with
  | particle => trivial
  | quad w h => exact ⟨w, h, hs.1.1, hs.1.2, rfl⟩
  | cuboid w h l => exact ⟨w, h, l, hs.1.1, hs.1.2.1, hs.1.2.2, rfl⟩
  | cube w => exact ⟨w, hs.1, rfl⟩
  | polyhedron vs => exact Or.inl ⟨vs, hs.1, rfl⟩

theorem two_F (h : Std R u η Ω) : (1 : Fl R) + 1 = toF R 2 := by
  rw [← toF_one, toF_add rep_one rep_one]
  norm_num
/-- The corners in rounded numbers are the corners. -/
theorem verts_near (h : Std R u η Ω) (hM : 1 ≤ M) (hMΩ : M ≤ Ω) (hs : FitsS R M s) :
    (s.toFl R).vertsG = s.vertsG.map (toV3 R) ∧ (∀ v ∈ s.vertsG, Rep3 R v ∧ Sz3 M v) ∧ s.vertsG ≠ [] := by
  have half : ∀ {x : ℝ}, Rep R x → Rep R (x / 2) → toF R x / ((1 : Fl R) + 1) = toF R (x / 2) ∧ -(toF R x / ((1 : Fl R) + 1)) = toF R (-(x / 2)) := by
    intro x hx hx2
    rw [two_F h, toF_div hx h.two, toF_neg hx2]
    exact ⟨rfl, rfl⟩
  have ab : ∀ {x : ℝ}, 0 ≤ x → x / 2 ≤ M → |x / 2| ≤ M ∧ |-(x / 2)| ≤ M := by
    intro x h0 h1
    rw [abs_neg, abs_of_nonneg (by linarith)]
    exact ⟨h1, h1⟩
  have ng : ∀ {x : ℝ}, 0 ≤ x → x / 2 ≤ M → Rep R (x / 2) → Rep R (-(x / 2)) := fun h0 h1 h2 => h.rep_neg ((ab h0 h1).1.trans hMΩ) h2
  have box : ∀ {w k l : ℝ}, 0 ≤ w → 0 ≤ k → 0 ≤ l → Rep R w → Rep R k → Rep R l → Rep R (w / 2) → Rep R (k / 2) → Rep R (l / 2) → w / 2 ≤ M → k / 2 ≤ M → l / 2 ≤ M →
      boxCornersG (⟨toF R w, toF R k, toF R l⟩ : V3 (Fl R)) = (boxCornersG (⟨w, k, l⟩ : V3 ℝ)).map (toV3 R) ∧ (∀ v ∈ boxCornersG (⟨w, k, l⟩ : V3 ℝ), Rep3 R v ∧ Sz3 M v) ∧
        boxCornersG (⟨w, k, l⟩ : V3 ℝ) ≠ [] := by
    intro w k l w0 k0 l0 rw' rk rl rw2 rk2 rl2 wM kM lM
    refine ⟨?_, ?_, by simp [boxCornersG]⟩
    · unfold boxCornersG
      dsimp only [V3.div_x, V3.div_y, V3.div_z]
      rw [(half rw' rw2).2, (half rk rk2).2, (half rl rl2).2, (half rw' rw2).1, (half rk rk2).1, (half rl rl2).1]
      norm_num [toV3]
    · obtain ⟨a1, a2⟩ := ab w0 wM
      obtain ⟨b1, b2⟩ := ab k0 kM
      obtain ⟨c1, c2⟩ := ab l0 lM
      have n1 := ng w0 wM rw2
      have n2 := ng k0 kM rk2
      have n3 := ng l0 lM rl2
      have ec : boxCornersG (⟨w, k, l⟩ : V3 ℝ) = [⟨w / 2, k / 2, l / 2⟩, ⟨-(w / 2), k / 2, l / 2⟩, ⟨-(w / 2), -(k / 2), l / 2⟩, ⟨w / 2, -(k / 2), l / 2⟩,
          ⟨w / 2, k / 2, -(l / 2)⟩, ⟨-(w / 2), k / 2, -(l / 2)⟩, ⟨-(w / 2), -(k / 2), -(l / 2)⟩, ⟨w / 2, -(k / 2), -(l / 2)⟩] := by
        simp [boxCornersG, one_add_one_eq_two]
      rw [ec]
      intro v hv
      simp only [List.mem_cons, List.not_mem_nil, or_false] at hv
      rcases hv with rfl | rfl | rfl | rfl | rfl | rfl | rfl | rfl
      · exact ⟨⟨rw2, rk2, rl2⟩, a1, b1, c1⟩
      · exact ⟨⟨n1, rk2, rl2⟩, a2, b1, c1⟩
      · exact ⟨⟨n1, n2, rl2⟩, a2, b2, c1⟩
      · exact ⟨⟨rw2, n2, rl2⟩, a1, b2, c1⟩
      · exact ⟨⟨rw2, rk2, n3⟩, a1, b1, c2⟩
      · exact ⟨⟨n1, rk2, n3⟩, a2, b1, c2⟩
      · exact ⟨⟨n1, n2, n3⟩, a2, b2, c2⟩
      · exact ⟨⟨rw2, n2, n3⟩, a1, b2, c2⟩
  have z0 : |(0 : ℝ)| ≤ M := by rw [abs_zero]; linarith
  cases s with
  | particle =>
    refine ⟨?_, ?_, by simp [Minkowski.Box3.vertsG]⟩
    · show [(0 : V3 (Fl R))] = [toV3 R 0]
      rw [toV3_zero]
    · intro v hv
      have : v = 0 := by simpa [Minkowski.Box3.vertsG] using hv
      subst this
      exact ⟨⟨rep_zero, rep_zero, rep_zero⟩, z0, z0, z0⟩
  | quad w k =>
    obtain ⟨⟨w0, k0⟩, ⟨rw', rk⟩, ⟨rw2, rk2⟩, wM, kM⟩ := hs
    refine ⟨?_, ?_, by simp [Minkowski.Box3.vertsG, quadCornersG]⟩
    · show quadCornersG (⟨toF R w, toF R k⟩ : V2 (Fl R)) = (quadCornersG (⟨w, k⟩ : V2 ℝ)).map (toV3 R)
      unfold quadCornersG
      dsimp only [V2.div_x, V2.div_y]
      rw [(half rw' rw2).2, (half rk rk2).2, (half rw' rw2).1, (half rk rk2).1]
      norm_num [toV3, toF_zero]
    · obtain ⟨a1, a2⟩ := ab w0 wM
      obtain ⟨b1, b2⟩ := ab k0 kM
      have n1 := ng w0 wM rw2
      have n2 := ng k0 kM rk2
      have ec : (Minkowski.Box3.quad w k : Minkowski.Box3 ℝ).vertsG = [⟨w / 2, k / 2, 0⟩, ⟨-(w / 2), k / 2, 0⟩, ⟨-(w / 2), -(k / 2), 0⟩, ⟨w / 2, -(k / 2), 0⟩] := by
        simp [Minkowski.Box3.vertsG, quadCornersG, one_add_one_eq_two]
      rw [ec]
      intro v hv
      simp only [List.mem_cons, List.not_mem_nil, or_false] at hv
      rcases hv with rfl | rfl | rfl | rfl
      · exact ⟨⟨rw2, rk2, rep_zero⟩, a1, b1, z0⟩
      · exact ⟨⟨n1, rk2, rep_zero⟩, a2, b1, z0⟩
      · exact ⟨⟨n1, n2, rep_zero⟩, a2, b2, z0⟩
      · exact ⟨⟨rw2, n2, rep_zero⟩, a1, b2, z0⟩
  | cuboid w k l =>
    obtain ⟨⟨w0, k0, l0⟩, ⟨rw', rk, rl⟩, ⟨rw2, rk2, rl2⟩, wM, kM, lM⟩ := hs
    exact box w0 k0 l0 rw' rk rl rw2 rk2 rl2 wM kM lM
  | cube w =>
    obtain ⟨w0, rw', rw2, wM⟩ := hs
    exact box w0 w0 w0 rw' rw' rw' rw2 rw2 rw2 wM wM wM
  | polyhedron vs => exact ⟨rfl, hs.2, hs.1⟩

/-- A bound on the corners bounds the shape. -/
theorem box_hull (hs : FitsS R M s) {c : V3 ℝ} {m : ℝ} (h : ∀ v ∈ s.vertsG, v.dot c ≤ m) {p : V3 ℝ} (hp : s.prim.Points p) : p.dot c ≤ m := by
  cases s with
  | particle =>
    have hp : p = 0 := hp
    rw [hp]
    exact h 0 (by simp [Minkowski.Box3.vertsG])
  | quad w k => exact ((quad_extreme w k hs.1.1 hs.1.2 c).2 p hp).trans (h _ (maxPoint3_spec (Quad.new w k).corners c (by simp [Quad.new, Quad.newImpl, Quad.generateCorners])).1)
  | cuboid w k l =>
    exact ((box_extreme w k l hs.1.1 hs.1.2.1 hs.1.2.2 c).2 p hp).trans (h _ (maxPoint3_spec (Cuboid.new w k l).corners c (by simp [Cuboid.new, Cuboid.newImpl, Cuboid.generateCorners])).1)
  | cube w => exact ((box_extreme w w w hs.1 hs.1 hs.1 c).2 p hp).trans (h _ (maxPoint3_spec (Cuboid.new w w w).corners c (by simp [Cuboid.new, Cuboid.newImpl, Cuboid.generateCorners])).1)
  | polyhedron vs => exact hull3_le h hp
/-- The corners are points of the shape. -/
theorem box_verts (hs : FitsS R M s) {v : V3 ℝ} (hv : v ∈ s.vertsG) : s.prim.Points v := by
  have box : ∀ {w k l : ℝ}, 0 ≤ w → 0 ≤ k → 0 ≤ l → v ∈ boxCornersG (⟨w, k, l⟩ : V3 ℝ) → InBox w k l v := by
    intro w k l w0 k0 l0 hv
    have ec : boxCornersG (⟨w, k, l⟩ : V3 ℝ) = [⟨w / 2, k / 2, l / 2⟩, ⟨-(w / 2), k / 2, l / 2⟩, ⟨-(w / 2), -(k / 2), l / 2⟩, ⟨w / 2, -(k / 2), l / 2⟩,
        ⟨w / 2, k / 2, -(l / 2)⟩, ⟨-(w / 2), k / 2, -(l / 2)⟩, ⟨-(w / 2), -(k / 2), -(l / 2)⟩, ⟨w / 2, -(k / 2), -(l / 2)⟩] := by
      simp [boxCornersG, one_add_one_eq_two]
    rw [ec] at hv
    simp only [List.mem_cons, List.not_mem_nil, or_false] at hv
    rcases hv with rfl | rfl | rfl | rfl | rfl | rfl | rfl | rfl <;> refine ⟨⟨?_, ?_⟩, ⟨?_, ?_⟩, ?_, ?_⟩ <;> simp <;> linarith
  cases s with
  | particle =>
    show v = 0
    simpa [Minkowski.Box3.vertsG] using hv
  | quad w k =>
    have ec : (Minkowski.Box3.quad w k : Minkowski.Box3 ℝ).vertsG = [⟨w / 2, k / 2, 0⟩, ⟨-(w / 2), k / 2, 0⟩, ⟨-(w / 2), -(k / 2), 0⟩, ⟨w / 2, -(k / 2), 0⟩] := by
      simp [Minkowski.Box3.vertsG, quadCornersG, one_add_one_eq_two]
    rw [ec] at hv
    have w0 := hs.1.1
    have k0 := hs.1.2
    show InQuad w k v
    simp only [List.mem_cons, List.not_mem_nil, or_false] at hv
    rcases hv with rfl | rfl | rfl | rfl <;> refine ⟨⟨?_, ?_⟩, ⟨?_, ?_⟩, rfl⟩ <;> simp <;> linarith
  | cuboid w k l => exact box hs.1.1 hs.1.2.1 hs.1.2.2 hv
  | cube w => exact box hs.1 hs.1 hs.1 hv
  | polyhedron vs => exact Hull3.vertex hv

/-- The point found by `get_max_point` in rounded arithmetic is the farthest up to the error of the dot product. -/
theorem maxPoint3_near {vs : List (V3 ℝ)} (hne : vs ≠ []) {e : V3 ℝ} {ε : ℝ} (h : ∀ v ∈ vs, ∃ r, Rep R r ∧ (toV3 R v).dot (toV3 R e) = toF R r ∧ |r - v.dot e| ≤ ε) :
    ∃ v ∈ vs, maxPointG3 (vs.map (toV3 R)) (toV3 R e) = toV3 R v ∧ ∀ w ∈ vs, w.dot e ≤ v.dot e + 2 * ε := by
  have H : ∀ (l seen : List (V3 ℝ)) (p : V3 ℝ) (r : ℝ), (∀ v ∈ l, ∃ r, Rep R r ∧ (toV3 R v).dot (toV3 R e) = toF R r ∧ |r - v.dot e| ≤ ε) → Rep R r → |r - p.dot e| ≤ ε → p ∈ seen →
      (∀ w ∈ seen, ∃ q, |q - w.dot e| ≤ ε ∧ q ≤ r) →
      ∃ v ∈ seen ++ l, (l.map (toV3 R)).foldl (maxStepG3 (toV3 R e)) (toV3 R p, some (toF R r)) = (toV3 R v, ((l.map (toV3 R)).foldl (maxStepG3 (toV3 R e)) (toV3 R p, some (toF R r))).2) ∧
        ∃ q, |q - v.dot e| ≤ ε ∧ ∀ w ∈ seen ++ l, ∃ q', |q' - w.dot e| ≤ ε ∧ q' ≤ q := by
    intro l
    induction l with
    | nil =>
      intro seen p r _ _ hp hps hs
      refine ⟨p, by simpa using hps, rfl, r, hp, ?_⟩
      simpa using hs
    | cons x l ih =>
      intro seen p r hl hr hp hps hs
      obtain ⟨q, hq, eq, dq⟩ := hl x (by simp)
      have hl' : ∀ v ∈ l, ∃ r, Rep R r ∧ (toV3 R v).dot (toV3 R e) = toF R r ∧ |r - v.dot e| ≤ ε := fun v hv => hl v (List.mem_cons_of_mem _ hv)
      rw [List.map_cons, List.foldl_cons, show seen ++ x :: l = (seen ++ [x]) ++ l by simp]
      by_cases hc : toF R q > toF R r
      · have hqr := (toF_lt hr hq).1 hc
        rw [show maxStepG3 (toV3 R e) (toV3 R p, some (toF R r)) (toV3 R x) = (toV3 R x, some (toF R q)) by
          show (if (toV3 R x).dot (toV3 R e) > toF R r then _ else _) = _
          rw [eq, if_pos hc]]
        refine ih (seen ++ [x]) x q hl' hq dq (by simp) ?_
        intro w hw
        rcases List.mem_append.1 hw with hw | hw
        · obtain ⟨q', h1, h2⟩ := hs w hw
          exact ⟨q', h1, h2.trans hqr.le⟩
        · rw [List.mem_singleton] at hw
          exact ⟨q, hw ▸ dq, le_rfl⟩
      · have hqr : q ≤ r := (toF_le hq hr).1 (not_lt.1 hc)
        rw [show maxStepG3 (toV3 R e) (toV3 R p, some (toF R r)) (toV3 R x) = (toV3 R p, some (toF R r)) by
          show (if (toV3 R x).dot (toV3 R e) > toF R r then _ else _) = _
          rw [eq, if_neg hc]]
        refine ih (seen ++ [x]) p r hl' hr hp (by simp [hps]) ?_
        intro w hw
        rcases List.mem_append.1 hw with hw | hw
        · exact hs w hw
        · rw [List.mem_singleton] at hw
          exact ⟨q, hw ▸ dq, hqr⟩
  cases vs with
  | nil => exact absurd rfl hne
  | cons x l =>
    obtain ⟨r, hr, er, dr⟩ := h x (by simp)
    obtain ⟨v, hv, e1, q, hq, h2⟩ := H l [x] x r (fun v hv => h v (List.mem_cons_of_mem _ hv)) hr dr (by simp) (by
      intro w hw
      rw [List.mem_singleton] at hw
      exact ⟨r, hw ▸ dr, le_rfl⟩)
    refine ⟨v, by simpa using hv, ?_, ?_⟩
    · unfold maxPointG3
      rw [List.map_cons, List.foldl_cons, show maxStepG3 (toV3 R e) (0, none) (toV3 R x) = (toV3 R x, some (toF R r)) by
        show (toV3 R x, some ((toV3 R x).dot (toV3 R e))) = _
        rw [er]]
      rw [e1]
    · intro w hw
      obtain ⟨q', h3, h4⟩ := h2 w (by simpa using hw)
      rw [abs_le] at hq h3
      linarith

/-- **The support point in rounded arithmetic**: it answers, and no point of the shape is farther by more than rounding errors. -/
theorem support3_near (h : Std R u η Ω) (hs : FitsS R M s) (hD : Fits3 R M D) (hM : 1 ≤ M) (rd : Rep3 R d) (sd : Sz3 N d) (hΩ : 64 * (M * (N + 1)) ≤ Ω) :
    ∃ w, Rep3 R w ∧ Sz3 (6 * M) w ∧ (s.toFl R).supportG (decF3 R D) (toV3 R d) = .ok (toV3 R w) ∧
      (∃ p, Image D.tr s.prim.Points p ∧ Sz3 (14 * (u * M) + 7 * η) (w - p)) ∧
      ∀ p, Image D.tr s.prim.Points p → p.dot d ≤ w.dot d + 256 * (u * (M * N) + η * (M + N)) := by
  have hu := h.u0
  have hu1 := h.u1
  have hη := h.η0
  have hη1 := h.η1
  have hN := sd.nonneg
  have hMN : 0 ≤ M * N := mul_nonneg (by linarith) hN
  have hNMN : N ≤ M * N := by nlinarith
  have uN : u * N ≤ 1 / 16 * N := mul_le_mul_of_nonneg_right hu1 hN
  have uN0 : 0 ≤ u * N := mul_nonneg hu hN
  obtain ⟨e, re, ee, de⟩ := apply3_err h hD.rot.transpose rd sd (by linarith)
  have sT : Sz3 (3 * N) (D.rot.transpose.apply d) := apply3_sz hD.rot.transpose sd
  have se : Sz3 (4 * N + 6 * η) e := (sz3_sub de sT).mono (by linarith)
  have i1 : invVectorG3 (decF3 R D) (toV3 R d) = some (toV3 R e) := by
    unfold invVectorG3
    rw [if_neg (scale_one3 D hD.scale rd).2.2, (scale_one3 D hD.scale rd).2.1]
    exact congrArg some ee
  have hηM : η * M ≤ 1 / 16 * M := mul_le_mul_of_nonneg_right hη1 (by linarith)
  have hbig : 4 * (M * (4 * N + 6 * η)) + 1 ≤ Ω := by nlinarith
  have h4 : 5 * M ≤ Ω := by nlinarith
  obtain ⟨ev, hv, hne⟩ := verts_near h hM (by linarith) hs
  obtain ⟨v, hv', el, hmax⟩ := maxPoint3_near (R := R) hne (e := e) (ε := 9 * (u * (M * (4 * N + 6 * η))) + 6 * η) (by
    intro v hv'
    exact dot3_err h (hv v hv').1 re (hv v hv').2 se hbig)
  obtain ⟨rv, sv⟩ := hv v hv'
  obtain ⟨w, rw', sw, ew, dw⟩ := point3_near h hD hM rv sv h4
  refine ⟨w, rw', sw, ?_, ⟨_, ⟨v, box_verts hs hv', rfl⟩, dw⟩, ?_⟩
  · rw [supportG3_eq _ _ i1, ev, el, ew]
  · rintro p ⟨p0, hp0, rfl⟩
    have key : p0.dot (D.rot.transpose.apply d) ≤ v.dot (D.rot.transpose.apply d) + (2 * (9 * (u * (M * (4 * N + 6 * η))) + 6 * η) + 6 * ((9 * (u * N) + 6 * η) * M)) := by
      refine box_hull hs (fun w hw => ?_) hp0
      have h1 := hmax w hw
      have h2 := dot3_sub_le de (hv w hw).2
      have h3 := dot3_sub_le de sv
      rw [abs_le] at h2 h3
      have comm : ∀ a b : V3 ℝ, a.dot b = b.dot a := fun a b => by simp [V3.dot]; ring
      rw [comm w e, comm v e] at h1
      rw [comm w, comm v]
      linarith
    have e1 : ∀ x : V3 ℝ, (D.tr.point x).dot d = x.dot (D.rot.transpose.apply d) + D.disp.dot d := by
      intro x
      show (D.rot.apply (x * D.scale) + D.disp).dot d = _
      rw [hD.scale]
      simp [M3.apply, M3.transpose, V3.dot]
      ring
    have h5 := dot3_sub_le dw sd
    rw [abs_le] at h5
    rw [e1]
    rw [e1] at h5
    have q1 : u * (M * η) ≤ 1 / 16 * (M * η) := mul_le_mul_of_nonneg_right hu1 (mul_nonneg (by linarith) hη)
    have q3 : η * 1 ≤ η * M := mul_le_mul_of_nonneg_left hM hη
    have q4 : 0 ≤ u * (M * N) := mul_nonneg hu hMN
    have q5 : 0 ≤ η * N := mul_nonneg hη hN
    have q6 : 0 ≤ η * M := mul_nonneg hη (by linarith)
    linarith

/-- The support point: the points of the two shapes and their difference, up to rounding. -/
def NearPoint3 (R : Rounding F) (δ : ℝ) (L Rr : V3 ℝ → Prop) (a : SP (V3 (Fl R))) : Prop :=
  ∃ v x y p q, L p ∧ Rr q ∧ a = ⟨toV3 R v, toV3 R x, toV3 R y⟩ ∧ (Rep3 R v ∧ Rep3 R x ∧ Rep3 R y) ∧ Sz3 δ (v - (p - q)) ∧ Sz3 δ (x - p) ∧ Sz3 δ (y - q)

/-- A point of the Minkowski difference in rounded arithmetic. -/
theorem mink3_near (h : Std R u η Ω) (hs : FitsS R M s) (ht : FitsS R M t) (hD : Fits3 R M D) (hF : Fits3 R M E) (hM : 1 ≤ M) (rd : Rep3 R d) (sd : Sz3 N d) (hΩ : 64 * (M * (N + 1)) ≤ Ω) :
    ∃ a a', SP.fromMinkowski ((s.toFl R).supportG (decF3 R D)) ((t.toFl R).supportG (decF3 R E)) (toV3 R d) = .ok a ∧ a.v = toV3 R a' ∧ Rep3 R a' ∧ Sz3 (13 * M) a' ∧
      NearPoint3 R (40 * (u * M) + 15 * η) (Image D.tr s.prim.Points) (Image E.tr t.prim.Points) a ∧
      (a.v.dot (toV3 R d) ≤ 0 → ∀ p q, Image D.tr s.prim.Points p → Image E.tr t.prim.Points q → (p - q).dot d ≤ 1024 * (u * (M * N) + η * (M + N))) := by
  have hu := h.u0
  have hu1 := h.u1
  have hη := h.η0
  have hη1 := h.η1
  have hN := sd.nonneg
  have hMN : 0 ≤ M * N := mul_nonneg (by linarith) hN
  have hNMN : N ≤ M * N := by nlinarith
  have hΩ' : 64 * (M * N) + 64 * M ≤ Ω := by linarith
  have uM0 : 0 ≤ u * M := mul_nonneg hu (by linarith)
  have rn := rep3_neg h rd sd (by linarith)
  obtain ⟨w, rw', sw, ew, ⟨p0, hp0, np⟩, dw⟩ := support3_near h hs hD hM rd sd hΩ
  obtain ⟨w2, rw2, sw2, ew2, ⟨q0, hq0, nq⟩, dw2⟩ := support3_near h ht hF hM rn sd.neg hΩ
  obtain ⟨a', ra, ea, da⟩ := sub3_err h rw' rw2 sw sw2 (by linarith)
  have sa : Sz3 (13 * M) a' := by
    have uM : u * (6 * M + 6 * M) ≤ 1 / 16 * (6 * M + 6 * M) := mul_le_mul_of_nonneg_right hu1 (by linarith)
    exact (sz3_sub da (sz3_diff sw sw2)).mono (by linarith)
  refine ⟨⟨toV3 R a', toV3 R w, toV3 R w2⟩, a', ?_, rfl, ra, sa, ⟨a', w, w2, p0, q0, hp0, hq0, rfl, ⟨ra, rw', rw2⟩, ?_, np.mono ?_, nq.mono ?_⟩, ?_⟩
  · unfold SP.fromMinkowski
    rw [ew, Res.bind_ok, show -toV3 R d = toV3 R (-d) from toV3_neg rd, ew2, Res.bind_ok, ea]
    rfl
  · have k : ∀ {α β γ δ ε : ℝ}, |α - (β - γ)| ≤ u * (6 * M + 6 * M) + η → |β - δ| ≤ 14 * (u * M) + 7 * η → |γ - ε| ≤ 14 * (u * M) + 7 * η → |α - (δ - ε)| ≤ 40 * (u * M) + 15 * η := by
      intro α β γ δ ε h1 h2 h3
      rw [show u * (6 * M + 6 * M) = 12 * (u * M) by ring] at h1
      rw [abs_le] at h1 h2 h3 ⊢
      constructor <;> linarith
    exact ⟨k da.1 np.1 nq.1, k da.2.1 np.2.1 nq.2.1, k da.2.2 np.2.2 nq.2.2⟩
  · linarith
  · linarith
  · intro hle p q hp hq
    obtain ⟨r, rr, er, dr⟩ := dot3_err h ra rd sa sd (by linarith)
    have hr : r ≤ 0 := by
      rw [show (⟨toV3 R a', toV3 R w, toV3 R w2⟩ : SP (V3 (Fl R))).v = toV3 R a' from rfl, er, ← toF_zero] at hle
      exact (toF_le rr rep_zero).1 hle
    have h1 := dw p hp
    have h2 := dw2 q hq
    have h3 := dot3_sub_le da sd
    rw [show (w - w2).dot d = w.dot d - w2.dot d by simp [V3.dot]; ring] at h3
    rw [dot_neg3, dot_neg3] at h2
    rw [show (p - q).dot d = p.dot d - q.dot d by simp [V3.dot]; ring]
    rw [abs_le] at h3 dr
    have q3 : η * 1 ≤ η * M := mul_le_mul_of_nonneg_left hM hη
    have q4 : 0 ≤ u * (M * N) := mul_nonneg hu hMN
    have q5 : 0 ≤ η * N := mul_nonneg hη hN
    linarith
end
end Verif.Scene
