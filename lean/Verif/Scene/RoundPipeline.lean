import Verif.Scene.RoundFormats
/-!
# The pipelines in `f32` and `f64`, for all primitives (C118)

C116 with round primitives too: bounds in a format, the broad phases on them, and GJK (C117) on the pairs.
-/
namespace Verif.Scene
open Verif Geom Primitive Minkowski BroadPhase Dbvt
open Verif.Dbvt (Rounding F64 binary64 Rep64)
open Verif.Dbvt.B32 (F32 binary32 Rep32)
set_option linter.unusedSectionVars false
noncomputable section
open Classical
variable {F : Type} [LinearOrder F] {R : Rounding F} {u η Ω τ M : ℝ} {eps tenth : Fl R}

/-! ## Bounds -/

/-- The transform of a box with representable corners, in rounded arithmetic. -/
theorem transform_near2 (h : Std R u η Ω) (hM : 1 ≤ M) (hΩ : 4 * M ≤ Ω) {b : Aabb2 ℝ} {D : Dec2 ℝ} (hb : RpBox R M b) (hD : Fits2 R M D) :
    ∃ B : Aabb2 ℝ, (boxR R b).transform (pointG2 (decF R D)) = boxR R B ∧ RpBox R (5 * M) B ∧ BoxNear (9 * (u * M) + 5 * η) B (b.transform D.tr.point) := by
  have hc := corners_rp hb
  have hp : ∀ v : V2 ℝ, ∃ w : V2 ℝ, Rp R v ∧ Sz M v → Rp R w ∧ Sz (5 * M) w ∧ pointG2 (decF R D) (toV2 R v) = toV2 R w ∧ Sz (9 * (u * M) + 5 * η) (w - D.tr.point v) := by
    intro v
    by_cases hv : Rp R v ∧ Sz M v
    · obtain ⟨w, hw⟩ := point_near h hD hM hv.1 hv.2 hΩ
      exact ⟨w, fun _ => hw⟩
    · exact ⟨0, fun h => absurd h hv⟩
  choose w hw using hp
  have cm : ∀ c ∈ b.toCorners, Rp R (w c) ∧ Sz (5 * M) (w c) ∧ pointG2 (decF R D) (toV2 R c) = toV2 R (w c) ∧ Sz (9 * (u * M) + 5 * η) (w c - D.tr.point c) := fun c h => hw c (hc c h)
  have key : ∀ (l : List (V2 ℝ)) (A B : Aabb2 ℝ), (∀ c ∈ l, c ∈ b.toCorners) → RpBox R (5 * M) A → BoxNear (9 * (u * M) + 5 * η) A B →
      (l.map (toV2 R)).foldl (fun u c => u.grow (pointG2 (decF R D) c)) (boxR R A) = boxR R (l.foldl (fun u c => u.grow (w c)) A) ∧
      RpBox R (5 * M) (l.foldl (fun u c => u.grow (w c)) A) ∧
      BoxNear (9 * (u * M) + 5 * η) (l.foldl (fun u c => u.grow (w c)) A) (l.foldl (fun u c => u.grow (D.tr.point c)) B) := by
    intro l
    induction l with
    | nil => exact fun A B _ h1 h2 => ⟨rfl, h1, h2⟩
    | cons c l ih =>
      intro A B hl h1 h2
      obtain ⟨c1, c2, c3, c4⟩ := cm c (hl c (by simp))
      simp only [List.map_cons, List.foldl_cons]
      rw [c3, boxR_grow]
      exact ih _ _ (fun d hd => hl d (by simp [hd])) (h1.grow ⟨c1, c2⟩) (h2.grow c4)
  obtain ⟨m1, m2, m3, m4⟩ := cm b.min (by simp [Aabb2.toCorners])
  obtain ⟨k1, k2, k3⟩ := key b.toCorners.tail _ _ (fun c hc => List.mem_of_mem_tail hc) (RpBox.new ⟨m1, m2⟩ ⟨m1, m2⟩) (BoxNear.point m4)
  refine ⟨_, ?_, k2, ?_⟩
  · rw [← k1, ← boxR_new, ← m3]
    rfl
  · exact k3

/-- The transform of a box with representable corners, in rounded arithmetic, 3D. -/
theorem transform_near3 (h : Std R u η Ω) (hM : 1 ≤ M) (hΩ : 5 * M ≤ Ω) {b : Aabb3 ℝ} {D : Dec3 ℝ} (hb : RpSolid R M b) (hD : Fits3 R M D) :
    ∃ B : Aabb3 ℝ, (solidR R b).transform (pointG3 (decF3 R D)) = solidR R B ∧ RpSolid R (6 * M) B ∧ SolidNear (14 * (u * M) + 7 * η) B (b.transform D.tr.point) := by
  have hc := corners_rep hb
  have hp : ∀ v : V3 ℝ, ∃ w : V3 ℝ, Rep3 R v ∧ Sz3 M v → Rep3 R w ∧ Sz3 (6 * M) w ∧ pointG3 (decF3 R D) (toV3 R v) = toV3 R w ∧ Sz3 (14 * (u * M) + 7 * η) (w - D.tr.point v) := by
    intro v
    by_cases hv : Rep3 R v ∧ Sz3 M v
    · obtain ⟨w, hw⟩ := point3_near h hD hM hv.1 hv.2 hΩ
      exact ⟨w, fun _ => hw⟩
    · exact ⟨0, fun h => absurd h hv⟩
  choose w hw using hp
  have cm : ∀ c ∈ b.toCorners, Rep3 R (w c) ∧ Sz3 (6 * M) (w c) ∧ pointG3 (decF3 R D) (toV3 R c) = toV3 R (w c) ∧ Sz3 (14 * (u * M) + 7 * η) (w c - D.tr.point c) := fun c h => hw c (hc c h)
  have key : ∀ (l : List (V3 ℝ)) (A B : Aabb3 ℝ), (∀ c ∈ l, c ∈ b.toCorners) → RpSolid R (6 * M) A → SolidNear (14 * (u * M) + 7 * η) A B →
      (l.map (toV3 R)).foldl (fun u c => u.grow (pointG3 (decF3 R D) c)) (solidR R A) = solidR R (l.foldl (fun u c => u.grow (w c)) A) ∧
      RpSolid R (6 * M) (l.foldl (fun u c => u.grow (w c)) A) ∧
      SolidNear (14 * (u * M) + 7 * η) (l.foldl (fun u c => u.grow (w c)) A) (l.foldl (fun u c => u.grow (D.tr.point c)) B) := by
    intro l
    induction l with
    | nil => exact fun A B _ h1 h2 => ⟨rfl, h1, h2⟩
    | cons c l ih =>
      intro A B hl h1 h2
      obtain ⟨c1, c2, c3, c4⟩ := cm c (hl c (by simp))
      simp only [List.map_cons, List.foldl_cons]
      rw [c3, solidR_grow]
      exact ih _ _ (fun d hd => hl d (by simp [hd])) (h1.grow ⟨c1, c2⟩) (h2.grow c4)
  obtain ⟨m1, m2, m3, m4⟩ := cm b.min (by simp [Aabb3.toCorners])
  obtain ⟨k1, k2, k3⟩ := key b.toCorners.tail _ _ (fun c hc => List.mem_of_mem_tail hc) (RpSolid.new ⟨m1, m2⟩ ⟨m1, m2⟩) (SolidNear.point m4)
  refine ⟨_, ?_, k2, ?_⟩
  · rw [← k1, ← solidR_new, ← m3]
    rfl
  · exact k3

/-- The exact transform of boxes that are close. -/
theorem transform_close3 {A B : Aabb3 ℝ} {D : Dec3 ℝ} {δ : ℝ} (hD : Fits3 R M D) (h : SolidNear δ A B) : SolidNear (3 * δ) (A.transform D.tr.point) (B.transform D.tr.point) := by
  have key : ∀ p q : V3 ℝ, Sz3 δ (p - q) → Sz3 (3 * δ) (D.tr.point p - D.tr.point q) := by
    intro p q hpq
    have e : D.tr.point p - D.tr.point q = ⟨(⟨D.rot.c0.x, D.rot.c1.x, D.rot.c2.x⟩ : V3 ℝ).dot (p - q), (⟨D.rot.c0.y, D.rot.c1.y, D.rot.c2.y⟩ : V3 ℝ).dot (p - q), (⟨D.rot.c0.z, D.rot.c1.z, D.rot.c2.z⟩ : V3 ℝ).dot (p - q)⟩ := by
      have hs := hD.scale
      simp only [Dec3.tr, M3.apply, hs]
      ext <;> simp [V3.dot] <;> ring
    rw [e]
    obtain ⟨t0, t1, t2⟩ := (⟨hD.rot.transpose.s0, hD.rot.transpose.s1, hD.rot.transpose.s2⟩ : _ ∧ _ ∧ _)
    have b0 := dot3_abs_le t0 hpq
    have b1 := dot3_abs_le t1 hpq
    have b2 := dot3_abs_le t2 hpq
    rw [one_mul] at b0 b1 b2
    exact ⟨b0, b1, b2⟩
  obtain ⟨⟨h1, h2, h3⟩, h4, h5, h6⟩ := h
  unfold Aabb3.transform Aabb3.toCorners
  simp only [List.tail_cons, List.foldl_cons, List.foldl_nil]
  refine SolidNear.grow (SolidNear.grow (SolidNear.grow (SolidNear.grow (SolidNear.grow (SolidNear.grow (SolidNear.grow (SolidNear.point (key _ _ ?_)) (key _ _ ?_)) (key _ _ ?_)) (key _ _ ?_)) (key _ _ ?_)) (key _ _ ?_)) (key _ _ ?_)) (key _ _ ?_) <;>
    exact ⟨by assumption, by assumption, by assumption⟩

variable (R) in
/-- `compute_bound` in the format: `src/primitive/primitive2.rs:46-63`, `circle.rs:47-52` -/
def boundA2 : Any2 → Aabb2 (Fl R)
  | .flat s => boundG (s.toFl R)
  | .circle r => Aabb2.new ⟨-toF R r, -toF R r⟩ ⟨toF R r, toF R r⟩
variable (R) in
/-- `compute_bound` in the format: `src/primitive/primitive3.rs:92-112`, `sphere.rs:45-50`, `capsule.rs:67-72`, `cylinder.rs:84-89` -/
def boundA3 : Any3 → Aabb3 (Fl R)
  | .box s => boundG3 (s.toFl R)
  | .sphere r => Aabb3.new ⟨-toF R r, -toF R r, -toF R r⟩ ⟨toF R r, toF R r, toF R r⟩
  | .capsule k r => Aabb3.new ⟨-toF R r, -toF R k - toF R r, -toF R r⟩ ⟨toF R r, toF R k + toF R r, toF R r⟩
  | .cylinder k r => Aabb3.new ⟨-toF R r, -toF R k, -toF R r⟩ ⟨toF R r, toF R k, toF R r⟩
variable (R) in
/-- The bound of an item as the format computes it: `compute_bound`, then `transform_volume`. -/
def boxA2 (a : Any2 × Dec2 ℝ) : Aabb2 (Fl R) := (boundA2 R a.1).transform (pointG2 (decF R a.2))
variable (R) in
def boxA3 (a : Any3 × Dec3 ℝ) : Aabb3 (Fl R) := (boundA3 R a.1).transform (pointG3 (decF3 R a.2))
/-- The exact bound. -/
def worldA2 (a : Any2 × Dec2 ℝ) : Aabb2 ℝ := worldBox2 (a.1.prim, a.2)
def worldA3 (a : Any3 × Dec3 ℝ) : Aabb3 ℝ := worldBox3 (a.1.prim, a.2)

theorem prim_okA2 {a : Any2 × Dec2 ℝ} (ha : OkA2 R M a) : a.1.prim.Ok := by
  obtain ⟨s, D⟩ := a
  obtain ⟨hs, -⟩ := ha
  cases s with
  | flat s => exact prim_okF hs
  | circle r => exact hs.1
theorem prim_okA3 {a : Any3 × Dec3 ℝ} (ha : OkA3 R M a) : a.1.prim.Ok := by
  obtain ⟨s, D⟩ := a
  obtain ⟨hs, -⟩ := ha
  cases s with
  | box s => exact prim3_ok hs
  | sphere r => exact hs.1
  | capsule k r => exact hs.1
  | cylinder k r => exact hs.1

theorem RoundStd.under (h : RoundStd R u η Ω τ M) : 16 * η ≤ u * M ∧ 8 * M ≤ Ω := by
  have hu := h.std.u0
  have h1 : u * τ ≤ u * 1 := mul_le_mul_of_nonneg_left h.τ1 hu
  have h2 : u * 1 ≤ u * M := mul_le_mul_of_nonneg_left h.M1 hu
  have h3 := h.small.2
  have h4 := h.m3
  have h5 := h.big4
  exact ⟨by linarith, by linarith [h.M1]⟩

/-- The local bound of a 2D primitive is exact. -/
theorem boundA2_exact (h : RoundStd R u η Ω τ M) {a : Any2 × Dec2 ℝ} (ha : OkA2 R M a) : boundA2 R a.1 = boxR R a.1.prim.bound ∧ RpBox R M a.1.prim.bound := by
  obtain ⟨s, D⟩ := a
  obtain ⟨hs, -⟩ := ha
  have hM := h.M1
  have hΩ := h.under.2
  cases s with
  | flat s =>
    have := bound_exact h.std (by linarith) (by linarith) hs
    rw [boundG_real] at this
    exact this
  | circle r =>
    obtain ⟨r0, rr, rM, -⟩ := hs
    have ab : |r| ≤ M := by rw [abs_of_nonneg r0]; linarith
    have rn := h.std.rep_neg (ab.trans (by linarith)) rr
    have abn : |-r| ≤ M := by rwa [abs_neg]
    refine ⟨?_, RpBox.new ⟨⟨rn, rn⟩, abn, abn⟩ ⟨⟨rr, rr⟩, ab, ab⟩⟩
    show Aabb2.new ⟨-toF R r, -toF R r⟩ ⟨toF R r, toF R r⟩ = boxR R (Aabb2.new _ _)
    rw [← boxR_new, toF_neg rr]
    rfl
/-- The local bound of a 3D primitive is exact, but for the height of a capsule, which is a sum. -/
theorem boundA3_near (h : RoundStd R u η Ω τ M) {a : Any3 × Dec3 ℝ} (ha : OkA3 R M a) : ∃ b : Aabb3 ℝ, boundA3 R a.1 = solidR R b ∧ RpSolid R M b ∧ SolidNear (u * M) b a.1.prim.bound := by
  obtain ⟨s, D⟩ := a
  obtain ⟨hs, -⟩ := ha
  have hM := h.M1
  have hu := h.std.u0
  obtain ⟨hη, hΩ⟩ := h.under
  have hη0 := h.std.η0
  have uM : 0 ≤ u * M := mul_nonneg hu (by linarith)
  have self : ∀ b : Aabb3 ℝ, SolidNear (u * M) b b := by
    intro b
    refine ⟨⟨?_, ?_, ?_⟩, ?_, ?_, ?_⟩ <;> simpa using uM
  have num : ∀ {x : ℝ}, 0 ≤ x → Rep R x → x ≤ M → (Rep R x ∧ |x| ≤ M) ∧ Rep R (-x) ∧ |-x| ≤ M := by
    intro x x0 rx xM
    have ab : |x| ≤ M := by rwa [abs_of_nonneg x0]
    exact ⟨⟨rx, ab⟩, h.std.rep_neg (ab.trans (by linarith)) rx, by rwa [abs_neg]⟩
  cases s with
  | box s =>
    have := bound3_exact h.std (by linarith) (by linarith) hs
    rw [boundG3_real] at this
    exact ⟨_, this.1, this.2, self _⟩
  | sphere r =>
    obtain ⟨r0, rr, rM, -⟩ := hs
    obtain ⟨⟨a1, a2⟩, a3, a4⟩ := num r0 rr (by linarith)
    refine ⟨_, ?_, RpSolid.new ⟨⟨a3, a3, a3⟩, a4, a4, a4⟩ ⟨⟨a1, a1, a1⟩, a2, a2, a2⟩, self _⟩
    show Aabb3.new ⟨-toF R r, -toF R r, -toF R r⟩ ⟨toF R r, toF R r, toF R r⟩ = _
    rw [← solidR_new, toF_neg rr]
    rfl
  | cylinder k r =>
    obtain ⟨⟨k0, r0⟩, ⟨rk, rr⟩, kM, rM⟩ := hs
    obtain ⟨⟨a1, a2⟩, a3, a4⟩ := num r0 rr (by linarith)
    obtain ⟨⟨b1, b2⟩, b3, b4⟩ := num k0 rk (by linarith)
    refine ⟨_, ?_, RpSolid.new ⟨⟨a3, b3, a3⟩, a4, b4, a4⟩ ⟨⟨a1, b1, a1⟩, a2, b2, a2⟩, self _⟩
    show Aabb3.new ⟨-toF R r, -toF R k, -toF R r⟩ ⟨toF R r, toF R k, toF R r⟩ = _
    rw [← solidR_new, toF_neg rr, toF_neg rk]
    rfl
  | capsule k r =>
    obtain ⟨⟨k0, r0⟩, ⟨rk, rr⟩, krM, -⟩ := hs
    obtain ⟨⟨a1, a2⟩, a3, a4⟩ := num r0 rr (by linarith)
    obtain ⟨⟨b1, b2⟩, b3, b4⟩ := num k0 rk (by linarith)
    have akr : |k + r| ≤ M / 2 := by rw [abs_of_nonneg (by linarith)]; linarith
    obtain ⟨y, ry, ey, dy⟩ := h.std.fl akr (by linarith)
    obtain ⟨ry', ey'⟩ := h.std.odd (k + r) y (akr.trans (by linarith)) ry ey
    have u' := h.u'
    have uM2 : u * M ≤ 1 / 1024 * M := mul_le_mul_of_nonneg_right u' (by linarith)
    rw [show u * (M / 2) = u * M / 2 by ring] at dy
    have ay : |y| ≤ M := by
      rw [abs_le] at dy akr ⊢
      constructor <;> linarith
    have ay' : |-y| ≤ M := by rwa [abs_neg]
    refine ⟨Aabb3.new ⟨-r, -y, -r⟩ ⟨r, y, r⟩, ?_, RpSolid.new ⟨⟨a3, ry', a3⟩, a4, ay', a4⟩ ⟨⟨a1, ry, a1⟩, a2, ay, a2⟩, ?_⟩
    · show Aabb3.new ⟨-toF R r, -toF R k - toF R r, -toF R r⟩ ⟨toF R r, toF R k + toF R r, toF R r⟩ = _
      rw [← solidR_new, toF_neg rr, toF_neg rk, toF_add rk rr, toF_sub b3 rr, ey, show -k - r = -(k + r) by ring, ey']
      rfl
    · have z : |(0 : ℝ)| ≤ u * M := by rwa [abs_zero]
      have d1 : |y - (k + r)| ≤ u * M := dy.trans (by linarith)
      have d2 : |-y - (-k - r)| ≤ u * M := by rw [show -y - (-k - r) = -(y - (k + r)) by ring, abs_neg]; exact d1
      show SolidNear (u * M) (Aabb3.new ⟨-r, -y, -r⟩ ⟨r, y, r⟩) (Aabb3.new ⟨-r, -k - r, -r⟩ ⟨r, k + r, r⟩)
      unfold SolidNear Sz3 Aabb3.new
      simp only [pmin_eq, pmax_eq, V3.sub_x, V3.sub_y, V3.sub_z, sub_self]
      exact ⟨⟨z, near_min d2 d1, z⟩, z, near_max d2 d1, z⟩

/-- **C118, the bound in a format, 2D**: every coordinate is within `10 u M` of the exact bound; so every point of the item is in the bound enlarged by that much. -/
theorem c118_box2 (h : RoundStd R u η Ω τ M) {a : Any2 × Dec2 ℝ} (ha : OkA2 R M a) :
    ∃ B : Aabb2 ℝ, boxA2 R a = boxR R B ∧ RpBox R (5 * M) B ∧ BoxNear (10 * (u * M)) B (worldA2 a) ∧
      ∀ p, atA2 a p → (B.min.x - 10 * (u * M) ≤ p.x ∧ p.x ≤ B.max.x + 10 * (u * M)) ∧ (B.min.y - 10 * (u * M) ≤ p.y ∧ p.y ≤ B.max.y + 10 * (u * M)) := by
  obtain ⟨e, hb⟩ := boundA2_exact h ha
  obtain ⟨hη, hΩ⟩ := h.under
  have hM := h.M1
  have hη0 := h.std.η0
  obtain ⟨B, h1, h2, h3⟩ := transform_near2 h.std hM (by linarith) hb ha.place
  have h4 : BoxNear (10 * (u * M)) B (worldA2 a) := ⟨h3.1.mono (by linarith), h3.2.mono (by linarith)⟩
  refine ⟨B, by unfold boxA2; rw [e, h1], h2, h4, fun p hp => ?_⟩
  obtain ⟨⟨m1, m2⟩, m3, m4⟩ := worldBox2_mem (a := (a.1.prim, a.2)) (prim_okA2 ha) hp
  obtain ⟨⟨n1, n2⟩, n3, n4⟩ := h4
  simp only [V2.sub_x, V2.sub_y, abs_le, worldA2] at n1 n2 n3 n4
  exact ⟨⟨by linarith, by linarith⟩, by linarith, by linarith⟩
/-- **C118, the bound in a format, 3D**: within `18 u M`. -/
theorem c118_box3 (h : RoundStd R u η Ω τ M) {a : Any3 × Dec3 ℝ} (ha : OkA3 R M a) :
    ∃ B : Aabb3 ℝ, boxA3 R a = solidR R B ∧ RpSolid R (6 * M) B ∧ SolidNear (18 * (u * M)) B (worldA3 a) ∧
      ∀ p, atA3 a p → (B.min.x - 18 * (u * M) ≤ p.x ∧ p.x ≤ B.max.x + 18 * (u * M)) ∧ (B.min.y - 18 * (u * M) ≤ p.y ∧ p.y ≤ B.max.y + 18 * (u * M)) ∧
        (B.min.z - 18 * (u * M) ≤ p.z ∧ p.z ≤ B.max.z + 18 * (u * M)) := by
  obtain ⟨b, e, hb, hbn⟩ := boundA3_near h ha
  obtain ⟨hη, hΩ⟩ := h.under
  have hM := h.M1
  have hη0 := h.std.η0
  obtain ⟨B, h1, h2, h3⟩ := transform_near3 h.std hM (by linarith) hb ha.place
  have hc := transform_close3 ha.place hbn
  have h4 : SolidNear (18 * (u * M)) B (worldA3 a) := ⟨(sz3_chain h3.1 hc.1).mono (by linarith), (sz3_chain h3.2 hc.2).mono (by linarith)⟩
  refine ⟨B, by unfold boxA3; rw [e, h1], h2, h4, fun p hp => ?_⟩
  obtain ⟨⟨m1, m2⟩, ⟨m3, m4⟩, m5, m6⟩ := worldBox3_mem (a := (a.1.prim, a.2)) (prim_okA3 ha) hp
  obtain ⟨⟨n1, n2, n3⟩, n4, n5, n6⟩ := h4
  simp only [V3.sub_x, V3.sub_y, V3.sub_z, abs_le, worldA3] at n1 n2 n3 n4 n5 n6
  exact ⟨⟨by linarith, by linarith⟩, ⟨by linarith, by linarith⟩, by linarith, by linarith⟩

/-- Specification: the exact bounds overlap, or are apart by at most `δ`, along both axes. -/
def MeetA2 (δ : ℝ) (a b : Any2 × Dec2 ℝ) : Prop :=
  let A := worldA2 a
  let B := worldA2 b
  B.min.x < A.max.x + δ ∧ A.min.x < B.max.x + δ ∧ B.min.y < A.max.y + δ ∧ A.min.y < B.max.y + δ
def MeetA3 (δ : ℝ) (a b : Any3 × Dec3 ℝ) : Prop :=
  let A := worldA3 a
  let B := worldA3 b
  (B.min.x < A.max.x + δ ∧ A.min.x < B.max.x + δ) ∧ (B.min.y < A.max.y + δ ∧ A.min.y < B.max.y + δ) ∧ B.min.z < A.max.z + δ ∧ A.min.z < B.max.z + δ

/-- **C118, pairs of bounds in a format**: the bounds of items that overlap by more than rounding intersect; bounds that intersect belong to items with exact bounds that meet up to rounding. -/
theorem c118_test2 (h : RoundStd R u η Ω τ M) {a b : Any2 × Dec2 ℝ} (ha : OkA2 R M a) (hb : OkA2 R M b) :
    (∀ r, 20 * (u * M) < r → Deep2 (atA2 a) (atA2 b) r → (boxA2 R a).intersects (boxA2 R b) = true) ∧ ((boxA2 R a).intersects (boxA2 R b) = true → MeetA2 (20 * (u * M)) a b) := by
  obtain ⟨A, a1, a2, a3, a4⟩ := c118_box2 h ha
  obtain ⟨B, b1, b2, b3, b4⟩ := c118_box2 h hb
  have s0 : 0 ≤ u * M := mul_nonneg h.std.u0 (by linarith [h.M1])
  rw [a1, b1, boxR_intersects a2 b2]
  constructor
  · intro r hr hd
    obtain ⟨e1, e2, e3, e4⟩ := axis_norm (r := r) (by linarith)
    simp only [Aabb2.intersects, Bool.and_eq_true, decide_eq_true_eq]
    refine ⟨⟨⟨?_, ?_⟩, ?_⟩, ?_⟩
    · obtain ⟨x, y, hx, hy, e⟩ := hd _ e1
      have := congrArg V2.x e
      simp only [V2.sub_x] at this
      linarith [(a4 x hx).1.2, (b4 y hy).1.1]
    · obtain ⟨x, y, hx, hy, e⟩ := hd _ e2
      have := congrArg V2.x e
      simp only [V2.sub_x] at this
      linarith [(a4 x hx).1.1, (b4 y hy).1.2]
    · obtain ⟨x, y, hx, hy, e⟩ := hd _ e3
      have := congrArg V2.y e
      simp only [V2.sub_y] at this
      linarith [(a4 x hx).2.2, (b4 y hy).2.1]
    · obtain ⟨x, y, hx, hy, e⟩ := hd _ e4
      have := congrArg V2.y e
      simp only [V2.sub_y] at this
      linarith [(a4 x hx).2.1, (b4 y hy).2.2]
  · intro h
    simp only [Aabb2.intersects, Bool.and_eq_true, decide_eq_true_eq] at h
    obtain ⟨⟨⟨h1, h2⟩, h3⟩, h4⟩ := h
    obtain ⟨⟨n1, n2⟩, n3, n4⟩ := a3
    obtain ⟨⟨m1, m2⟩, m3, m4⟩ := b3
    simp only [V2.sub_x, V2.sub_y, abs_le] at n1 n2 n3 n4 m1 m2 m3 m4
    exact ⟨by linarith, by linarith, by linarith, by linarith⟩

theorem c118_test3 (h : RoundStd R u η Ω τ M) {a b : Any3 × Dec3 ℝ} (ha : OkA3 R M a) (hb : OkA3 R M b) :
    (∀ r, 36 * (u * M) < r → Deep3 (atA3 a) (atA3 b) r → (boxA3 R a).intersects (boxA3 R b) = true) ∧ ((boxA3 R a).intersects (boxA3 R b) = true → MeetA3 (36 * (u * M)) a b) := by
  obtain ⟨A, a1, a2, a3, a4⟩ := c118_box3 h ha
  obtain ⟨B, b1, b2, b3, b4⟩ := c118_box3 h hb
  have s0 : 0 ≤ u * M := mul_nonneg h.std.u0 (by linarith [h.M1])
  rw [a1, b1, solidR_intersects a2 b2]
  constructor
  · intro r hr hd
    obtain ⟨⟨e1, e2⟩, ⟨e3, e4⟩, e5, e6⟩ := axis_norm3 (r := r) (by linarith)
    simp only [Aabb3.intersects, Bool.and_eq_true, decide_eq_true_eq]
    refine ⟨⟨⟨⟨⟨?_, ?_⟩, ?_⟩, ?_⟩, ?_⟩, ?_⟩
    · obtain ⟨x, y, hx, hy, e⟩ := hd _ e1
      have := congrArg V3.x e
      simp only [V3.sub_x] at this
      linarith [(a4 x hx).1.2, (b4 y hy).1.1]
    · obtain ⟨x, y, hx, hy, e⟩ := hd _ e2
      have := congrArg V3.x e
      simp only [V3.sub_x] at this
      linarith [(a4 x hx).1.1, (b4 y hy).1.2]
    · obtain ⟨x, y, hx, hy, e⟩ := hd _ e3
      have := congrArg V3.y e
      simp only [V3.sub_y] at this
      linarith [(a4 x hx).2.1.2, (b4 y hy).2.1.1]
    · obtain ⟨x, y, hx, hy, e⟩ := hd _ e4
      have := congrArg V3.y e
      simp only [V3.sub_y] at this
      linarith [(a4 x hx).2.1.1, (b4 y hy).2.1.2]
    · obtain ⟨x, y, hx, hy, e⟩ := hd _ e5
      have := congrArg V3.z e
      simp only [V3.sub_z] at this
      linarith [(a4 x hx).2.2.2, (b4 y hy).2.2.1]
    · obtain ⟨x, y, hx, hy, e⟩ := hd _ e6
      have := congrArg V3.z e
      simp only [V3.sub_z] at this
      linarith [(a4 x hx).2.2.1, (b4 y hy).2.2.2]
  · intro h
    simp only [Aabb3.intersects, Bool.and_eq_true, decide_eq_true_eq] at h
    obtain ⟨⟨⟨⟨⟨h1, h2⟩, h3⟩, h4⟩, h5⟩, h6⟩ := h
    obtain ⟨⟨n1, n2, n3⟩, n4, n5, n6⟩ := a3
    obtain ⟨⟨m1, m2, m3⟩, m4, m5, m6⟩ := b3
    simp only [V3.sub_x, V3.sub_y, V3.sub_z, abs_le] at n1 n2 n3 n4 n5 n6 m1 m2 m3 m4 m5 m6
    exact ⟨⟨by linarith, by linarith⟩, ⟨by linarith, by linarith⟩, by linarith, by linarith⟩


/-! ## Pipelines -/

/-- Is there a simplex, with the 100 iterations of `GJK::new`? -/
def narrowA2 (eps : Fl R) (a b : Any2 × Dec2 ℝ) : Res Bool := do
  let o ← gjkA2 eps 100 a b
  return o.toOption.isSome
def narrowA3 (eps tenth : Fl R) (nz : Any3 × Dec3 ℝ → V3 (Fl R) → Bool) (a b : Any3 × Dec3 ℝ) : Res Bool := do
  let o ← gjkA3 eps tenth nz 100 a b
  return o.toOption.isSome
/-- Specification: `narrow` is GJK in the format; where GJK asks for a direction that rounding spoils (the model has no NaN, which the code then computes with) `narrow` may answer anything. -/
def IsGjk2 (τ : ℝ) (eps : Fl R) (scene : List (Any2 × Dec2 ℝ)) (narrow : Any2 × Dec2 ℝ → Any2 × Dec2 ℝ → Res Bool) : Prop :=
  ∀ a ∈ scene, ∀ b ∈ scene, ∃ r, narrow a b = .ok r ∧ (AskedSpoil2 τ eps 100 a b ∨ narrowA2 eps a b = .ok r)
def IsGjk3 (τ : ℝ) (eps tenth : Fl R) (nz : Any3 × Dec3 ℝ → V3 (Fl R) → Bool) (scene : List (Any3 × Dec3 ℝ)) (narrow : Any3 × Dec3 ℝ → Any3 × Dec3 ℝ → Res Bool) : Prop :=
  ∀ a ∈ scene, ∀ b ∈ scene, ∃ r, narrow a b = .ok r ∧ (AskedSpoil3 τ eps tenth nz 100 a b ∨ narrowA3 eps tenth nz a b = .ok r)
/-- Overlap by more than `δ` in every direction. -/
def OverA2 (δ : ℝ) (a b : Any2 × Dec2 ℝ) : Prop := ∃ r, δ < r ∧ Deep2 (atA2 a) (atA2 b) r
def OverA3 (δ : ℝ) (a b : Any3 × Dec3 ℝ) : Prop := ∃ r, δ < r ∧ Deep3 (atA3 a) (atA3 b) r
/-- GJK used all its iterations, or asked for a direction that rounding spoils. -/
def LostA2 (τ : ℝ) (eps : Fl R) (a b : Any2 × Dec2 ℝ) : Prop := gjkA2 eps 100 a b = .ok .exhausted ∨ AskedSpoil2 τ eps 100 a b
def LostA3 (τ : ℝ) (eps tenth : Fl R) (nz : Any3 × Dec3 ℝ → V3 (Fl R) → Bool) (a b : Any3 × Dec3 ℝ) : Prop := gjkA3 eps tenth nz 100 a b = .ok .exhausted ∨ AskedSpoil3 τ eps tenth nz 100 a b
/-- What the broad phase hands on (`pairs`) and the narrow phase keeps (`found`). -/
def GoodA2 (u M τ : ℝ) (eps : Fl R) (scene : List (Any2 × Dec2 ℝ)) (pairs found : List (Nat × Nat)) : Prop :=
  FoundBy (MeetA2 (20 * (u * M))) (OverA2 (20 * (u * M))) (fun _ _ => False) scene pairs ∧ found.Sublist pairs ∧
    FoundBy (MeetA2 (20 * (u * M))) (OverA2 (1024 * (u * M))) (LostA2 τ eps) scene found
def GoodA3 (u M τ : ℝ) (eps tenth : Fl R) (nz : Any3 × Dec3 ℝ → V3 (Fl R) → Bool) (scene : List (Any3 × Dec3 ℝ)) (pairs found : List (Nat × Nat)) : Prop :=
  FoundBy (MeetA3 (36 * (u * M))) (OverA3 (36 * (u * M))) (fun _ _ => False) scene pairs ∧ found.Sublist pairs ∧
    FoundBy (MeetA3 (36 * (u * M))) (OverA3 (2048 * (u * M))) (LostA3 τ eps tenth nz) scene found

/-- GJK of the model meets the specification when no pair is spoiled, and also when a spoiled pair is called a miss. -/
theorem isGjk2_self (f : FmtR R u η Ω τ M eps tenth) {scene : List (Any2 × Dec2 ℝ)} (hok : ∀ a ∈ scene, OkA2 R M a) :
    IsGjk2 τ eps scene (fun a b => if AskedSpoil2 τ eps 100 a b then .ok false else narrowA2 eps a b) := by
  intro a ha b hb
  by_cases hs : AskedSpoil2 τ eps 100 a b
  · exact ⟨false, if_pos hs, Or.inl hs⟩
  · obtain ⟨o, ho, -⟩ := (c117_fmt2 f (hok a ha) (hok b hb) 100).resolve_left hs
    have e : narrowA2 eps a b = .ok o.toOption.isSome := by unfold narrowA2; rw [ho, Res.bind_ok]; rfl
    exact ⟨_, (if_neg hs).trans e, Or.inr e⟩
theorem isGjk3_self (f : FmtR R u η Ω τ M eps tenth) (nz : Any3 × Dec3 ℝ → V3 (Fl R) → Bool) {scene : List (Any3 × Dec3 ℝ)} (hok : ∀ a ∈ scene, OkA3 R M a) :
    IsGjk3 τ eps tenth nz scene (fun a b => if AskedSpoil3 τ eps tenth nz 100 a b then .ok false else narrowA3 eps tenth nz a b) := by
  intro a ha b hb
  by_cases hs : AskedSpoil3 τ eps tenth nz 100 a b
  · exact ⟨false, if_pos hs, Or.inl hs⟩
  · obtain ⟨o, ho, -⟩ := (c117_fmt3 f nz (hok a ha) (hok b hb) 100).resolve_left hs
    have e : narrowA3 eps tenth nz a b = .ok o.toOption.isSome := by unfold narrowA3; rw [ho, Res.bind_ok]; rfl
    exact ⟨_, (if_neg hs).trans e, Or.inr e⟩

theorem goodA2 (f : FmtR R u η Ω τ M eps tenth) {scene : List (Any2 × Dec2 ℝ)} (hok : ∀ a ∈ scene, OkA2 R M a) {narrow : Any2 × Dec2 ℝ → Any2 × Dec2 ℝ → Res Bool} (hgjk : IsGjk2 τ eps scene narrow)
    {pairs : List (Nat × Nat)} (nd : pairs.Nodup)
    (hp : ∀ i j, (i, j) ∈ pairs ↔ i < j ∧ Hit (boxA2 R) Aabb2.intersects scene i j) : ∃ found, confirm narrow scene pairs = .ok found ∧ GoodA2 u M τ eps scene pairs found := by
  have hM := f.std.M1
  have s0 : 0 ≤ u * M := mul_nonneg f.std.std.u0 (by linarith)
  obtain ⟨found, h1, h2, h3, h5⟩ := confirm_found (narrow := narrow) (Meet := MeetA2 (20 * (u * M))) (Must := OverA2 (1024 * (u * M))) (Touch := OverA2 (20 * (u * M))) (Lost := LostA2 τ eps)
    (by rintro a b ⟨r, hr, hd⟩; exact ⟨r, by linarith, hd⟩) (by
      intro a ha b hb
      obtain ⟨r, e, hr⟩ := hgjk a ha b hb
      refine ⟨r, e, ?_⟩
      rintro ⟨δ, hδ, hd⟩
      rcases hr with hr | hr
      · exact Or.inr (Or.inr hr)
      rcases c117_fmt2 f (hok a ha) (hok b hb) 100 with hs | ⟨o, ho, hmiss, -⟩
      · exact Or.inr (Or.inr hs)
      have e2 : narrowA2 eps a b = .ok o.toOption.isSome := by unfold narrowA2; rw [ho, Res.bind_ok]; rfl
      rw [e2] at hr
      cases hr
      cases o with
      | miss => exact absurd (hmiss rfl) (deep_not_nearly hδ (mul_nonneg (by norm_num) s0) hd)
      | exhausted => exact Or.inr (Or.inl ho)
      | hit x => exact Or.inl rfl)
    (by rintro a ha b hb ⟨r, hr, hd⟩; exact (c118_test2 f.std (hok a ha) (hok b hb)).1 r hr hd) (fun a ha b hb => (c118_test2 f.std (hok a ha) (hok b hb)).2) nd hp
  exact ⟨found, h1, h3, h2, h5⟩
theorem goodA3 (f : FmtR R u η Ω τ M eps tenth) (nz : Any3 × Dec3 ℝ → V3 (Fl R) → Bool) {scene : List (Any3 × Dec3 ℝ)} (hok : ∀ a ∈ scene, OkA3 R M a) {narrow : Any3 × Dec3 ℝ → Any3 × Dec3 ℝ → Res Bool}
    (hgjk : IsGjk3 τ eps tenth nz scene narrow) {pairs : List (Nat × Nat)} (nd : pairs.Nodup)
    (hp : ∀ i j, (i, j) ∈ pairs ↔ i < j ∧ Hit (boxA3 R) Aabb3.intersects scene i j) : ∃ found, confirm narrow scene pairs = .ok found ∧ GoodA3 u M τ eps tenth nz scene pairs found := by
  have hM := f.std.M1
  have s0 : 0 ≤ u * M := mul_nonneg f.std.std.u0 (by linarith)
  obtain ⟨found, h1, h2, h3, h5⟩ := confirm_found (narrow := narrow) (Meet := MeetA3 (36 * (u * M))) (Must := OverA3 (2048 * (u * M))) (Touch := OverA3 (36 * (u * M))) (Lost := LostA3 τ eps tenth nz)
    (by rintro a b ⟨r, hr, hd⟩; exact ⟨r, by linarith, hd⟩) (by
      intro a ha b hb
      obtain ⟨r, e, hr⟩ := hgjk a ha b hb
      refine ⟨r, e, ?_⟩
      rintro ⟨δ, hδ, hd⟩
      rcases hr with hr | hr
      · exact Or.inr (Or.inr hr)
      rcases c117_fmt3 f nz (hok a ha) (hok b hb) 100 with hs | ⟨o, ho, hmiss, -⟩
      · exact Or.inr (Or.inr hs)
      have e2 : narrowA3 eps tenth nz a b = .ok o.toOption.isSome := by unfold narrowA3; rw [ho, Res.bind_ok]; rfl
      rw [e2] at hr
      cases hr
      cases o with
      | miss => exact absurd (hmiss rfl) (deep3_not_nearly hδ (mul_nonneg (by norm_num) s0) hd)
      | exhausted => exact Or.inr (Or.inl ho)
      | hit x => exact Or.inl rfl)
    (by rintro a ha b hb ⟨r, hr, hd⟩; exact (c118_test3 f.std (hok a ha) (hok b hb)).1 r hr hd) (fun a ha b hb => (c118_test3 f.std (hok a ha) (hok b hb)).2) nd hp
  exact ⟨found, h1, h3, h2, h5⟩

/-- **C118 with brute force, 2D.** -/
theorem c118_brute2 (f : FmtR R u η Ω τ M eps tenth) (scene : List (Any2 × Dec2 ℝ)) (hok : ∀ a ∈ scene, OkA2 R M a) {narrow : Any2 × Dec2 ℝ → Any2 × Dec2 ℝ → Res Bool} (hgjk : IsGjk2 τ eps scene narrow) :
    ∃ pairs found, bruteForce (boxA2 R) Aabb2.intersects scene = .ok pairs ∧ confirm narrow scene pairs = .ok found ∧ GoodA2 u M τ eps scene pairs found := by
  obtain ⟨l, h1, h2, h3⟩ := c19_brute_force (boxA2 R) Aabb2.intersects scene
  obtain ⟨found, k1, k2⟩ := goodA2 f hok hgjk h2.nodup h3
  exact ⟨l, found, h1, k1, k2⟩
/-- **C118 with sweep and prune, 2D**, any axis and any variance (its numbers may be NaN): the positions are those in the list as the algorithm leaves it. -/
theorem c118_sweep2 {σ : Type} (f : FmtR R u η Ω τ M eps tenth) (v : VarOps σ (Aabb2 (Fl R))) (s : Sap σ) (hax : s.sweep_axis < 2) (scene : List (Any2 × Dec2 ℝ))
    (hok : ∀ a ∈ scene, OkA2 R M a) {narrow : Any2 × Dec2 ℝ → Any2 × Dec2 ℝ → Res Bool} (hgjk : IsGjk2 τ eps scene narrow) :
    ∃ pairs scene' s' found, s.findColliderPairs sapAabb2 v (boxA2 R) scene = .ok (pairs, scene', s') ∧ scene'.Perm scene ∧ confirm narrow scene' pairs = .ok found ∧
      GoodA2 u M τ eps scene' pairs found := by
  obtain ⟨l, scene', s', h1, h2, h3, h4⟩ := c20_boxes2 v (boxA2 R) s scene hax
  obtain ⟨found, k1, k2⟩ := goodA2 f (fun a ha => hok a (h2.mem_iff.1 ha)) (fun a ha b hb => hgjk a (h2.mem_iff.1 ha) b (h2.mem_iff.1 hb)) h3 h4
  exact ⟨l, scene', s', found, h1, h2, k1, k2⟩
/-- **C118 with a tree built from the scene, 2D** (at most 256 items, every item dirty; the margin is added with rounding; surface areas may be NaN): the list found is that of brute force. -/
theorem c118_tree2 {S : Type} (f : FmtR R u η Ω τ M eps tenth) (margin : V2 F) (hx : R.zero ≤ margin.x) (hy : R.zero ≤ margin.y) (area : Aabb2 F → S)
    (lt : S → S → Bool) (sub div : S → S → S) (im : S) (scene : List (Any2 × Dec2 ℝ)) (hok : ∀ a ∈ scene, OkA2 R M a) {narrow : Any2 × Dec2 ℝ → Any2 × Dec2 ℝ → Res Bool} (hgjk : IsGjk2 τ eps scene narrow) (hlen : scene.length ≤ 256) (rng : Nat → Nat) :
    ∃ h s pairs found, Exec (roundOps2 (V := Any2 × Dec2 ℝ) (K := F) (boxA2 R) (fun a => addMarginF2 R (boxA2 R a) margin) area lt sub div im) h s ∧ s.values.map Prod.snd = scene ∧
      dbvtPairs (roundOps2 (V := Any2 × Dec2 ℝ) (K := F) (boxA2 R) (fun a => addMarginF2 R (boxA2 R a) margin) area lt sub div im) Aabb2.intersects s (List.replicate scene.length true) = .ok pairs ∧
      bruteForce (boxA2 R) Aabb2.intersects scene = .ok pairs ∧ confirm narrow scene pairs = .ok found ∧ GoodA2 u M τ eps scene pairs found := by
  obtain ⟨h, s, he, hd, hu, hr, hv⟩ := build_tree (roundOps2 (V := Any2 × Dec2 ℝ) (K := F) (boxA2 R) (fun a => addMarginF2 R (boxA2 R a) margin) area lt sub div im) scene rng
  have hl : s.values.length = scene.length := by rw [← hv, List.length_map]
  obtain ⟨n, hh, -, -, hn, -⟩ := c04_height _ he hr
  obtain ⟨pairs, found, b1, b2, b3⟩ := c118_brute2 f scene hok hgjk
  rcases (c81_pairs2 _ _ area lt sub div im (fun v => (c99_margin2 R (boxA2 R v) margin hx hy).2) he hd hu hr hh).2 with ⟨l, h1, h2⟩ | ⟨h1, -⟩
  · refine ⟨h, s, pairs, found, he, hv, ?_, b1, b2, b3⟩
    rw [hl] at h1
    rw [h1]
    have : bruteForce (fun e : Nat × (Any2 × Dec2 ℝ) => boxA2 R e.2) Aabb2.intersects s.values = bruteForce (boxA2 R) Aabb2.intersects (s.values.map Prod.snd) := by
      unfold bruteForce
      simp only [List.length_map, List.getElem?_map, ofOption_map, mapOk_bind]
    have h2' : bruteForce (fun e : Nat × (Any2 × Dec2 ℝ) => boxA2 R e.2) Aabb2.intersects s.values = .ok l := h2
    rw [this, hv, b1] at h2'
    cases h2'
    rfl
  · omega

/-- **C118 with brute force, 3D.** -/
theorem c118_brute3 (f : FmtR R u η Ω τ M eps tenth) (nz : Any3 × Dec3 ℝ → V3 (Fl R) → Bool) (scene : List (Any3 × Dec3 ℝ)) (hok : ∀ a ∈ scene, OkA3 R M a) {narrow : Any3 × Dec3 ℝ → Any3 × Dec3 ℝ → Res Bool} (hgjk : IsGjk3 τ eps tenth nz scene narrow) :
    ∃ pairs found, bruteForce (boxA3 R) Aabb3.intersects scene = .ok pairs ∧ confirm narrow scene pairs = .ok found ∧ GoodA3 u M τ eps tenth nz scene pairs found := by
  obtain ⟨l, h1, h2, h3⟩ := c19_brute_force (boxA3 R) Aabb3.intersects scene
  obtain ⟨found, k1, k2⟩ := goodA3 f nz hok hgjk h2.nodup h3
  exact ⟨l, found, h1, k1, k2⟩
/-- **C118 with sweep and prune, 3D**, any axis and any variance (its numbers may be NaN): the positions are those in the list as the algorithm leaves it. -/
theorem c118_sweep3 {σ : Type} (f : FmtR R u η Ω τ M eps tenth) (nz : Any3 × Dec3 ℝ → V3 (Fl R) → Bool) (v : VarOps σ (Aabb3 (Fl R))) (s : Sap σ) (hax : s.sweep_axis < 3) (scene : List (Any3 × Dec3 ℝ))
    (hok : ∀ a ∈ scene, OkA3 R M a) {narrow : Any3 × Dec3 ℝ → Any3 × Dec3 ℝ → Res Bool} (hgjk : IsGjk3 τ eps tenth nz scene narrow) :
    ∃ pairs scene' s' found, s.findColliderPairs sapAabb3 v (boxA3 R) scene = .ok (pairs, scene', s') ∧ scene'.Perm scene ∧ confirm narrow scene' pairs = .ok found ∧
      GoodA3 u M τ eps tenth nz scene' pairs found := by
  obtain ⟨l, scene', s', h1, h2, h3, h4⟩ := c20_boxes3 v (boxA3 R) s scene hax
  obtain ⟨found, k1, k2⟩ := goodA3 f nz (fun a ha => hok a (h2.mem_iff.1 ha)) (fun a ha b hb => hgjk a (h2.mem_iff.1 ha) b (h2.mem_iff.1 hb)) h3 h4
  exact ⟨l, scene', s', found, h1, h2, k1, k2⟩
/-- **C118 with a tree built from the scene, 3D** (at most 256 items, every item dirty; the margin is added with rounding; surface areas may be NaN): the list found is that of brute force. -/
theorem c118_tree3 {S : Type} (f : FmtR R u η Ω τ M eps tenth) (nz : Any3 × Dec3 ℝ → V3 (Fl R) → Bool) (margin : V3 F) (hx : R.zero ≤ margin.x) (hy : R.zero ≤ margin.y) (hz : R.zero ≤ margin.z) (area : Aabb3 F → S)
    (lt : S → S → Bool) (sub div : S → S → S) (im : S) (scene : List (Any3 × Dec3 ℝ)) (hok : ∀ a ∈ scene, OkA3 R M a) {narrow : Any3 × Dec3 ℝ → Any3 × Dec3 ℝ → Res Bool} (hgjk : IsGjk3 τ eps tenth nz scene narrow) (hlen : scene.length ≤ 256) (rng : Nat → Nat) :
    ∃ h s pairs found, Exec (roundOps3 (V := Any3 × Dec3 ℝ) (K := F) (boxA3 R) (fun a => addMarginF3 R (boxA3 R a) margin) area lt sub div im) h s ∧ s.values.map Prod.snd = scene ∧
      dbvtPairs (roundOps3 (V := Any3 × Dec3 ℝ) (K := F) (boxA3 R) (fun a => addMarginF3 R (boxA3 R a) margin) area lt sub div im) Aabb3.intersects s (List.replicate scene.length true) = .ok pairs ∧
      bruteForce (boxA3 R) Aabb3.intersects scene = .ok pairs ∧ confirm narrow scene pairs = .ok found ∧ GoodA3 u M τ eps tenth nz scene pairs found := by
  obtain ⟨h, s, he, hd, hu, hr, hv⟩ := build_tree (roundOps3 (V := Any3 × Dec3 ℝ) (K := F) (boxA3 R) (fun a => addMarginF3 R (boxA3 R a) margin) area lt sub div im) scene rng
  have hl : s.values.length = scene.length := by rw [← hv, List.length_map]
  obtain ⟨n, hh, -, -, hn, -⟩ := c04_height _ he hr
  obtain ⟨pairs, found, b1, b2, b3⟩ := c118_brute3 f nz scene hok hgjk
  rcases (c81_pairs3 _ _ area lt sub div im (fun v => (c99_margin3 R (boxA3 R v) margin hx hy hz).2) he hd hu hr hh).2 with ⟨l, h1, h2⟩ | ⟨h1, -⟩
  · refine ⟨h, s, pairs, found, he, hv, ?_, b1, b2, b3⟩
    rw [hl] at h1
    rw [h1]
    have : bruteForce (fun e : Nat × (Any3 × Dec3 ℝ) => boxA3 R e.2) Aabb3.intersects s.values = bruteForce (boxA3 R) Aabb3.intersects (s.values.map Prod.snd) := by
      unfold bruteForce
      simp only [List.length_map, List.getElem?_map, ofOption_map, mapOk_bind]
    have h2' : bruteForce (fun e : Nat × (Any3 × Dec3 ℝ) => boxA3 R e.2) Aabb3.intersects s.values = .ok l := h2
    rw [this, hv, b1] at h2'
    cases h2'
    rfl
  · omega

/-! ## `f32` and `f64` -/

/-- **C118 in `f32` with brute force, 2D**: coordinates and diameters of at most `M ≤ 2^12`. -/
theorem c118_f32_brute2 (hM : 1 ≤ M) (hM' : M ≤ 2 ^ 12) (scene : List (Any2 × Dec2 ℝ)) (hok : ∀ a ∈ scene, OkA2 binary32 M a) {narrow : Any2 × Dec2 ℝ → Any2 × Dec2 ℝ → Res Bool} (hgjk : IsGjk2 ((2 : ℝ) ^ (-61 : ℤ)) (toF binary32 eps32) scene narrow) :
    ∃ pairs found, bruteForce (boxA2 binary32) Aabb2.intersects scene = .ok pairs ∧ confirm narrow scene pairs = .ok found ∧ GoodA2 ((2 : ℝ) ^ (-24 : ℤ)) M ((2 : ℝ) ^ (-61 : ℤ)) (toF binary32 eps32) scene pairs found :=
  c118_brute2 (fmtR32 hM hM') scene hok hgjk
/-- **C118 in `f32` with sweep and prune, 2D.** -/
theorem c118_f32_sweep2 {σ : Type} (hM : 1 ≤ M) (hM' : M ≤ 2 ^ 12) (v : VarOps σ (Aabb2 (Fl binary32))) (s : Sap σ) (hax : s.sweep_axis < 2) (scene : List (Any2 × Dec2 ℝ)) (hok : ∀ a ∈ scene, OkA2 binary32 M a) {narrow : Any2 × Dec2 ℝ → Any2 × Dec2 ℝ → Res Bool} (hgjk : IsGjk2 ((2 : ℝ) ^ (-61 : ℤ)) (toF binary32 eps32) scene narrow) :
    ∃ pairs scene' s' found, s.findColliderPairs sapAabb2 v (boxA2 binary32) scene = .ok (pairs, scene', s') ∧ scene'.Perm scene ∧ confirm narrow scene' pairs = .ok found ∧ GoodA2 ((2 : ℝ) ^ (-24 : ℤ)) M ((2 : ℝ) ^ (-61 : ℤ)) (toF binary32 eps32) scene' pairs found :=
  c118_sweep2 (fmtR32 hM hM') v s hax scene hok hgjk
/-- **C118 in `f32` with a tree built from the scene, 2D.** -/
theorem c118_f32_tree2 {S : Type} (hM : 1 ≤ M) (hM' : M ≤ 2 ^ 12) (margin : V2 F32) (hx : binary32.zero ≤ margin.x) (hy : binary32.zero ≤ margin.y) (area : Aabb2 F32 → S) (lt : S → S → Bool) (sub div : S → S → S) (im : S)
    (scene : List (Any2 × Dec2 ℝ)) (hok : ∀ a ∈ scene, OkA2 binary32 M a) {narrow : Any2 × Dec2 ℝ → Any2 × Dec2 ℝ → Res Bool} (hgjk : IsGjk2 ((2 : ℝ) ^ (-61 : ℤ)) (toF binary32 eps32) scene narrow) (hlen : scene.length ≤ 256) (rng : Nat → Nat) :
    ∃ h s pairs found, Exec (roundOps2 (V := Any2 × Dec2 ℝ) (K := F32) (boxA2 binary32) (fun a => addMarginF2 binary32 (boxA2 binary32 a) margin) area lt sub div im) h s ∧ s.values.map Prod.snd = scene ∧
      dbvtPairs (roundOps2 (V := Any2 × Dec2 ℝ) (K := F32) (boxA2 binary32) (fun a => addMarginF2 binary32 (boxA2 binary32 a) margin) area lt sub div im) Aabb2.intersects s (List.replicate scene.length true) = .ok pairs ∧
      bruteForce (boxA2 binary32) Aabb2.intersects scene = .ok pairs ∧ confirm narrow scene pairs = .ok found ∧ GoodA2 ((2 : ℝ) ^ (-24 : ℤ)) M ((2 : ℝ) ^ (-61 : ℤ)) (toF binary32 eps32) scene pairs found :=
  c118_tree2 (fmtR32 hM hM') margin hx hy area lt sub div im scene hok hgjk hlen rng
/-- **C118 in `f32` with brute force, 3D**: coordinates and diameters of at most `M ≤ 2^12`. -/
theorem c118_f32_brute3 (hM : 1 ≤ M) (hM' : M ≤ 2 ^ 12) (nz : Any3 × Dec3 ℝ → V3 (Fl binary32) → Bool) (scene : List (Any3 × Dec3 ℝ)) (hok : ∀ a ∈ scene, OkA3 binary32 M a) {narrow : Any3 × Dec3 ℝ → Any3 × Dec3 ℝ → Res Bool} (hgjk : IsGjk3 ((2 : ℝ) ^ (-61 : ℤ)) (toF binary32 eps32) (toF binary32 (1 / 10)) nz scene narrow) :
    ∃ pairs found, bruteForce (boxA3 binary32) Aabb3.intersects scene = .ok pairs ∧ confirm narrow scene pairs = .ok found ∧ GoodA3 ((2 : ℝ) ^ (-24 : ℤ)) M ((2 : ℝ) ^ (-61 : ℤ)) (toF binary32 eps32) (toF binary32 (1 / 10)) nz scene pairs found :=
  c118_brute3 (fmtR32 hM hM') nz scene hok hgjk
/-- **C118 in `f32` with sweep and prune, 3D.** -/
theorem c118_f32_sweep3 {σ : Type} (hM : 1 ≤ M) (hM' : M ≤ 2 ^ 12) (nz : Any3 × Dec3 ℝ → V3 (Fl binary32) → Bool) (v : VarOps σ (Aabb3 (Fl binary32))) (s : Sap σ) (hax : s.sweep_axis < 3) (scene : List (Any3 × Dec3 ℝ)) (hok : ∀ a ∈ scene, OkA3 binary32 M a) {narrow : Any3 × Dec3 ℝ → Any3 × Dec3 ℝ → Res Bool} (hgjk : IsGjk3 ((2 : ℝ) ^ (-61 : ℤ)) (toF binary32 eps32) (toF binary32 (1 / 10)) nz scene narrow) :
    ∃ pairs scene' s' found, s.findColliderPairs sapAabb3 v (boxA3 binary32) scene = .ok (pairs, scene', s') ∧ scene'.Perm scene ∧ confirm narrow scene' pairs = .ok found ∧ GoodA3 ((2 : ℝ) ^ (-24 : ℤ)) M ((2 : ℝ) ^ (-61 : ℤ)) (toF binary32 eps32) (toF binary32 (1 / 10)) nz scene' pairs found :=
  c118_sweep3 (fmtR32 hM hM') nz v s hax scene hok hgjk
/-- **C118 in `f32` with a tree built from the scene, 3D.** -/
theorem c118_f32_tree3 {S : Type} (hM : 1 ≤ M) (hM' : M ≤ 2 ^ 12) (nz : Any3 × Dec3 ℝ → V3 (Fl binary32) → Bool) (margin : V3 F32) (hx : binary32.zero ≤ margin.x) (hy : binary32.zero ≤ margin.y) (hz : binary32.zero ≤ margin.z) (area : Aabb3 F32 → S) (lt : S → S → Bool) (sub div : S → S → S) (im : S)
    (scene : List (Any3 × Dec3 ℝ)) (hok : ∀ a ∈ scene, OkA3 binary32 M a) {narrow : Any3 × Dec3 ℝ → Any3 × Dec3 ℝ → Res Bool} (hgjk : IsGjk3 ((2 : ℝ) ^ (-61 : ℤ)) (toF binary32 eps32) (toF binary32 (1 / 10)) nz scene narrow) (hlen : scene.length ≤ 256) (rng : Nat → Nat) :
    ∃ h s pairs found, Exec (roundOps3 (V := Any3 × Dec3 ℝ) (K := F32) (boxA3 binary32) (fun a => addMarginF3 binary32 (boxA3 binary32 a) margin) area lt sub div im) h s ∧ s.values.map Prod.snd = scene ∧
      dbvtPairs (roundOps3 (V := Any3 × Dec3 ℝ) (K := F32) (boxA3 binary32) (fun a => addMarginF3 binary32 (boxA3 binary32 a) margin) area lt sub div im) Aabb3.intersects s (List.replicate scene.length true) = .ok pairs ∧
      bruteForce (boxA3 binary32) Aabb3.intersects scene = .ok pairs ∧ confirm narrow scene pairs = .ok found ∧ GoodA3 ((2 : ℝ) ^ (-24 : ℤ)) M ((2 : ℝ) ^ (-61 : ℤ)) (toF binary32 eps32) (toF binary32 (1 / 10)) nz scene pairs found :=
  c118_tree3 (fmtR32 hM hM') nz margin hx hy hz area lt sub div im scene hok hgjk hlen rng
/-- **C118 in `f64` with brute force, 2D**: coordinates and diameters of at most `M ≤ 2^161`. -/
theorem c118_f64_brute2 (hM : 1 ≤ M) (hM' : M ≤ 2 ^ 161) (scene : List (Any2 × Dec2 ℝ)) (hok : ∀ a ∈ scene, OkA2 binary64 M a) {narrow : Any2 × Dec2 ℝ → Any2 × Dec2 ℝ → Res Bool} (hgjk : IsGjk2 ((2 : ℝ) ^ (-509 : ℤ)) (toF binary64 eps64) scene narrow) :
    ∃ pairs found, bruteForce (boxA2 binary64) Aabb2.intersects scene = .ok pairs ∧ confirm narrow scene pairs = .ok found ∧ GoodA2 ((2 : ℝ) ^ (-53 : ℤ)) M ((2 : ℝ) ^ (-509 : ℤ)) (toF binary64 eps64) scene pairs found :=
  c118_brute2 (fmtR64 hM hM') scene hok hgjk
/-- **C118 in `f64` with sweep and prune, 2D.** -/
theorem c118_f64_sweep2 {σ : Type} (hM : 1 ≤ M) (hM' : M ≤ 2 ^ 161) (v : VarOps σ (Aabb2 (Fl binary64))) (s : Sap σ) (hax : s.sweep_axis < 2) (scene : List (Any2 × Dec2 ℝ)) (hok : ∀ a ∈ scene, OkA2 binary64 M a) {narrow : Any2 × Dec2 ℝ → Any2 × Dec2 ℝ → Res Bool} (hgjk : IsGjk2 ((2 : ℝ) ^ (-509 : ℤ)) (toF binary64 eps64) scene narrow) :
    ∃ pairs scene' s' found, s.findColliderPairs sapAabb2 v (boxA2 binary64) scene = .ok (pairs, scene', s') ∧ scene'.Perm scene ∧ confirm narrow scene' pairs = .ok found ∧ GoodA2 ((2 : ℝ) ^ (-53 : ℤ)) M ((2 : ℝ) ^ (-509 : ℤ)) (toF binary64 eps64) scene' pairs found :=
  c118_sweep2 (fmtR64 hM hM') v s hax scene hok hgjk
/-- **C118 in `f64` with a tree built from the scene, 2D.** -/
theorem c118_f64_tree2 {S : Type} (hM : 1 ≤ M) (hM' : M ≤ 2 ^ 161) (margin : V2 F64) (hx : binary64.zero ≤ margin.x) (hy : binary64.zero ≤ margin.y) (area : Aabb2 F64 → S) (lt : S → S → Bool) (sub div : S → S → S) (im : S)
    (scene : List (Any2 × Dec2 ℝ)) (hok : ∀ a ∈ scene, OkA2 binary64 M a) {narrow : Any2 × Dec2 ℝ → Any2 × Dec2 ℝ → Res Bool} (hgjk : IsGjk2 ((2 : ℝ) ^ (-509 : ℤ)) (toF binary64 eps64) scene narrow) (hlen : scene.length ≤ 256) (rng : Nat → Nat) :
    ∃ h s pairs found, Exec (roundOps2 (V := Any2 × Dec2 ℝ) (K := F64) (boxA2 binary64) (fun a => addMarginF2 binary64 (boxA2 binary64 a) margin) area lt sub div im) h s ∧ s.values.map Prod.snd = scene ∧
      dbvtPairs (roundOps2 (V := Any2 × Dec2 ℝ) (K := F64) (boxA2 binary64) (fun a => addMarginF2 binary64 (boxA2 binary64 a) margin) area lt sub div im) Aabb2.intersects s (List.replicate scene.length true) = .ok pairs ∧
      bruteForce (boxA2 binary64) Aabb2.intersects scene = .ok pairs ∧ confirm narrow scene pairs = .ok found ∧ GoodA2 ((2 : ℝ) ^ (-53 : ℤ)) M ((2 : ℝ) ^ (-509 : ℤ)) (toF binary64 eps64) scene pairs found :=
  c118_tree2 (fmtR64 hM hM') margin hx hy area lt sub div im scene hok hgjk hlen rng
/-- **C118 in `f64` with brute force, 3D**: coordinates and diameters of at most `M ≤ 2^161`. -/
theorem c118_f64_brute3 (hM : 1 ≤ M) (hM' : M ≤ 2 ^ 161) (nz : Any3 × Dec3 ℝ → V3 (Fl binary64) → Bool) (scene : List (Any3 × Dec3 ℝ)) (hok : ∀ a ∈ scene, OkA3 binary64 M a) {narrow : Any3 × Dec3 ℝ → Any3 × Dec3 ℝ → Res Bool} (hgjk : IsGjk3 ((2 : ℝ) ^ (-509 : ℤ)) (toF binary64 eps64) (toF binary64 (1 / 10)) nz scene narrow) :
    ∃ pairs found, bruteForce (boxA3 binary64) Aabb3.intersects scene = .ok pairs ∧ confirm narrow scene pairs = .ok found ∧ GoodA3 ((2 : ℝ) ^ (-53 : ℤ)) M ((2 : ℝ) ^ (-509 : ℤ)) (toF binary64 eps64) (toF binary64 (1 / 10)) nz scene pairs found :=
  c118_brute3 (fmtR64 hM hM') nz scene hok hgjk
/-- **C118 in `f64` with sweep and prune, 3D.** -/
theorem c118_f64_sweep3 {σ : Type} (hM : 1 ≤ M) (hM' : M ≤ 2 ^ 161) (nz : Any3 × Dec3 ℝ → V3 (Fl binary64) → Bool) (v : VarOps σ (Aabb3 (Fl binary64))) (s : Sap σ) (hax : s.sweep_axis < 3) (scene : List (Any3 × Dec3 ℝ)) (hok : ∀ a ∈ scene, OkA3 binary64 M a) {narrow : Any3 × Dec3 ℝ → Any3 × Dec3 ℝ → Res Bool} (hgjk : IsGjk3 ((2 : ℝ) ^ (-509 : ℤ)) (toF binary64 eps64) (toF binary64 (1 / 10)) nz scene narrow) :
    ∃ pairs scene' s' found, s.findColliderPairs sapAabb3 v (boxA3 binary64) scene = .ok (pairs, scene', s') ∧ scene'.Perm scene ∧ confirm narrow scene' pairs = .ok found ∧ GoodA3 ((2 : ℝ) ^ (-53 : ℤ)) M ((2 : ℝ) ^ (-509 : ℤ)) (toF binary64 eps64) (toF binary64 (1 / 10)) nz scene' pairs found :=
  c118_sweep3 (fmtR64 hM hM') nz v s hax scene hok hgjk
/-- **C118 in `f64` with a tree built from the scene, 3D.** -/
theorem c118_f64_tree3 {S : Type} (hM : 1 ≤ M) (hM' : M ≤ 2 ^ 161) (nz : Any3 × Dec3 ℝ → V3 (Fl binary64) → Bool) (margin : V3 F64) (hx : binary64.zero ≤ margin.x) (hy : binary64.zero ≤ margin.y) (hz : binary64.zero ≤ margin.z) (area : Aabb3 F64 → S) (lt : S → S → Bool) (sub div : S → S → S) (im : S)
    (scene : List (Any3 × Dec3 ℝ)) (hok : ∀ a ∈ scene, OkA3 binary64 M a) {narrow : Any3 × Dec3 ℝ → Any3 × Dec3 ℝ → Res Bool} (hgjk : IsGjk3 ((2 : ℝ) ^ (-509 : ℤ)) (toF binary64 eps64) (toF binary64 (1 / 10)) nz scene narrow) (hlen : scene.length ≤ 256) (rng : Nat → Nat) :
    ∃ h s pairs found, Exec (roundOps3 (V := Any3 × Dec3 ℝ) (K := F64) (boxA3 binary64) (fun a => addMarginF3 binary64 (boxA3 binary64 a) margin) area lt sub div im) h s ∧ s.values.map Prod.snd = scene ∧
      dbvtPairs (roundOps3 (V := Any3 × Dec3 ℝ) (K := F64) (boxA3 binary64) (fun a => addMarginF3 binary64 (boxA3 binary64 a) margin) area lt sub div im) Aabb3.intersects s (List.replicate scene.length true) = .ok pairs ∧
      bruteForce (boxA3 binary64) Aabb3.intersects scene = .ok pairs ∧ confirm narrow scene pairs = .ok found ∧ GoodA3 ((2 : ℝ) ^ (-53 : ℤ)) M ((2 : ℝ) ^ (-509 : ℤ)) (toF binary64 eps64) (toF binary64 (1 / 10)) nz scene pairs found :=
  c118_tree3 (fmtR64 hM hM') nz margin hx hy hz area lt sub div im scene hok hgjk hlen rng

/-- A case: the cylinder and the capsule of C117. Brute force hands the pair on, and the narrow phase keeps it unless GJK runs out of iterations or rounding spoils a direction. -/
theorem c118_example (nz : Any3 × Dec3 ℝ → V3 (Fl binary32) → Bool) :
    ∃ narrow pairs found, IsGjk3 ((2 : ℝ) ^ (-61 : ℤ)) (toF binary32 eps32) (toF binary32 (1 / 10)) nz [canA, pillB] narrow ∧ bruteForce (boxA3 binary32) Aabb3.intersects [canA, pillB] = .ok pairs ∧ (0, 1) ∈ pairs ∧
      confirm narrow [canA, pillB] pairs = .ok found ∧ ((0, 1) ∈ found ∨ LostA3 ((2 : ℝ) ^ (-61 : ℤ)) (toF binary32 eps32) (toF binary32 (1 / 10)) nz canA pillB) := by
  obtain ⟨ha, hb, hd⟩ := c117_case3
  have hok : ∀ a ∈ [canA, pillB], OkA3 binary32 2 a := by
    intro a h
    simp only [List.mem_cons, List.not_mem_nil, or_false] at h
    rcases h with rfl | rfl
    · exact ha
    · exact hb
  have hg := isGjk3_self (fmtR32 (M := 2) (by norm_num) (by norm_num)) nz hok
  obtain ⟨pairs, found, h1, h2, ⟨-, -, h3⟩, -, -, -, h5⟩ := c118_f32_brute3 (M := 2) (by norm_num) (by norm_num) nz [canA, pillB] hok hg
  refine ⟨_, pairs, found, hg, h1, ?_, h2, h5 0 1 canA pillB (by norm_num) rfl rfl ⟨1 / 4, by norm_num, hd⟩⟩
  exact (h3 0 1 canA pillB (by norm_num) rfl rfl ⟨1 / 4, by norm_num, hd⟩).resolve_right id
end
end Verif.Scene
