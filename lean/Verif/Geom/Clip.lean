import Verif.Geom.Frustum
/-!
# C77: classifying a bound against a projection matrix

`PlaneBound::relate_clip_space` (`src/bound.rs:30-51`, `69-85`) for points, boxes and spheres, for every matrix.
-/
set_option linter.unusedSectionVars false
namespace Verif.Geom

/-- The clip coordinates of `p`. -/
noncomputable def clip (m : M4 ℝ) (p : V3 ℝ) : V4 ℝ := m.mulVec p.hom

/-- `p` is strictly inside the clip volume. -/
def InClip (m : M4 ℝ) (p : V3 ℝ) : Prop :=
  (-(clip m p).w < (clip m p).x ∧ (clip m p).x < (clip m p).w) ∧ (-(clip m p).w < (clip m p).y ∧ (clip m p).y < (clip m p).w) ∧
    (-(clip m p).w < (clip m p).z ∧ (clip m p).z < (clip m p).w)

/-- All of `S` is strictly beyond one and the same of the six sides of the clip volume. -/
def BeyondOneSide (m : M4 ℝ) (S : V3 ℝ → Prop) : Prop :=
  (∀ p, S p → (clip m p).x < -(clip m p).w) ∨ (∀ p, S p → (clip m p).w < (clip m p).x) ∨
  (∀ p, S p → (clip m p).y < -(clip m p).w) ∨ (∀ p, S p → (clip m p).w < (clip m p).y) ∨
  (∀ p, S p → (clip m p).z < -(clip m p).w) ∨ (∀ p, S p → (clip m p).w < (clip m p).z)

/-- C77 for any bound that is classified correctly against single planes with unit normals. -/
theorem c77_bound (m : M4 ℝ) (relate : Plane ℝ → Relation) (S : V3 ℝ → Prop)
    (hS : ∀ P : Plane ℝ, P.n.norm = 1 → Classifies relate S P) :
    (Frustum.fromMatrix4 m = none → relateClipSpace relate m = .Cross) ∧
    (Frustum.fromMatrix4 m ≠ none →
      (relateClipSpace relate m = .In ↔ ∀ p, S p → InClip m p) ∧ (relateClipSpace relate m = .Out ↔ BeyondOneSide m S)) := by
  refine ⟨fun h => by unfold relateClipSpace; rw [h], fun h => ?_⟩
  obtain ⟨f, hf⟩ := Option.ne_none_iff_exists'.1 h
  have hc : relateClipSpace relate m = f.contains relate := by unfold relateClipSpace; rw [hf]; rfl
  have hn : ∀ P, f.HasPlane P → P.n.norm = 1 := (c42_clip_space m f hf 0).2.2.2.2
  obtain ⟨hO, hI⟩ := c41_frustum f relate S fun P hP => hS P (hn P hP)
  obtain ⟨h1, h2, h3, h4, h5, h6⟩ := fromMatrix4_some m f hf
  have hadd : ∀ (a b : V4 ℝ) (p : V3 ℝ), (a.add b).dot p.hom = a.dot p.hom + b.dot p.hom := by
    intro a b p; simp [V4.add, V4.dot]; ring
  have hsub : ∀ (a b : V4 ℝ) (p : V3 ℝ), (a.sub b).dot p.hom = a.dot p.hom - b.dot p.hom := by
    intro a b p; simp [V4.sub, V4.dot]; ring
  have r0 : ∀ p, (clip m p).x = m.r0.dot p.hom := fun _ => rfl
  have r1 : ∀ p, (clip m p).y = m.r1.dot p.hom := fun _ => rfl
  have r2 : ∀ p, (clip m p).z = m.r2.dot p.hom := fun _ => rfl
  have r3 : ∀ p, (clip m p).w = m.r3.dot p.hom := fun _ => rfl
  rw [hc, hO, hI]
  constructor
  · refine forall_congr' fun p => imp_congr_right fun _ => ?_
    simp only [Frustum.HasPlane, forall_eq_or_imp, forall_eq, (normalize_relate _ _ h1 p).1, (normalize_relate _ _ h2 p).1,
      (normalize_relate _ _ h3 p).1, (normalize_relate _ _ h4 p).1, (normalize_relate _ _ h5 p).1, (normalize_relate _ _ h6 p).1,
      hadd, hsub, InClip, r0, r1, r2, r3]
    constructor
    · rintro ⟨x1, x2, x3, x4, x5, x6⟩
      refine ⟨⟨?_, ?_⟩, ⟨?_, ?_⟩, ?_, ?_⟩ <;> linarith
    · rintro ⟨⟨x1, x2⟩, ⟨x3, x4⟩, x5, x6⟩
      refine ⟨?_, ?_, ?_, ?_, ?_, ?_⟩ <;> linarith
  · simp only [Frustum.HasPlane, or_and_right, exists_or, exists_eq_left, BeyondOneSide]
    refine or_congr ?_ (or_congr ?_ (or_congr ?_ (or_congr ?_ (or_congr ?_ ?_))))
    · exact forall_congr' fun p => imp_congr_right fun _ => by rw [(normalize_relate _ _ h1 p).2, hadd, r0, r3]; constructor <;> intro <;> linarith
    · exact forall_congr' fun p => imp_congr_right fun _ => by rw [(normalize_relate _ _ h2 p).2, hsub, r0, r3]; constructor <;> intro <;> linarith
    · exact forall_congr' fun p => imp_congr_right fun _ => by rw [(normalize_relate _ _ h3 p).2, hadd, r1, r3]; constructor <;> intro <;> linarith
    · exact forall_congr' fun p => imp_congr_right fun _ => by rw [(normalize_relate _ _ h4 p).2, hsub, r1, r3]; constructor <;> intro <;> linarith
    · exact forall_congr' fun p => imp_congr_right fun _ => by rw [(normalize_relate _ _ h5 p).2, hadd, r2, r3]; constructor <;> intro <;> linarith
    · exact forall_congr' fun p => imp_congr_right fun _ => by rw [(normalize_relate _ _ h6 p).2, hsub, r2, r3]; constructor <;> intro <;> linarith

/-- C77, boxes: for every matrix, `In` and `Out` are correct; for a matrix from which no frustum can be extracted the answer is `Cross`, for every other it is exact. -/
theorem c77_box (m : M4 ℝ) (b : Aabb3 ℝ) (hb : b.Valid) :
    (relateClipSpace b.relatePlane m = .In → ∀ p, b.Mem p → InClip m p) ∧
    (relateClipSpace b.relatePlane m = .Out → BeyondOneSide m b.Mem) ∧
    (Frustum.fromMatrix4 m = none → relateClipSpace b.relatePlane m = .Cross) ∧
    (Frustum.fromMatrix4 m ≠ none → (∀ p, b.Mem p → InClip m p) → relateClipSpace b.relatePlane m = .In) ∧
    (Frustum.fromMatrix4 m ≠ none → BeyondOneSide m b.Mem → relateClipSpace b.relatePlane m = .Out) := by
  obtain ⟨h1, h2⟩ := c77_bound m b.relatePlane b.Mem fun P _ => c41_box b hb P
  by_cases hm : Frustum.fromMatrix4 m = none
  · have := h1 hm
    refine ⟨fun h => ?_, fun h => ?_, fun _ => this, fun h => absurd hm h, fun h => absurd hm h⟩
    · rw [this] at h; cases h
    · rw [this] at h; cases h
  · obtain ⟨a, b⟩ := h2 hm
    exact ⟨a.1, b.1, fun h => absurd h hm, fun _ => a.2, fun _ => b.2⟩

/-- C77, spheres. -/
theorem c77_sphere (m : M4 ℝ) (s : Sphere) (hr : 0 ≤ s.radius) :
    (relateClipSpace s.relatePlane m = .In → ∀ p, s.Mem p → InClip m p) ∧
    (relateClipSpace s.relatePlane m = .Out → BeyondOneSide m s.Mem) ∧
    (Frustum.fromMatrix4 m = none → relateClipSpace s.relatePlane m = .Cross) ∧
    (Frustum.fromMatrix4 m ≠ none → (∀ p, s.Mem p → InClip m p) → relateClipSpace s.relatePlane m = .In) ∧
    (Frustum.fromMatrix4 m ≠ none → BeyondOneSide m s.Mem → relateClipSpace s.relatePlane m = .Out) := by
  obtain ⟨h1, h2⟩ := c77_bound m s.relatePlane s.Mem fun P hP => c41_sphere s hr P hP
  by_cases hm : Frustum.fromMatrix4 m = none
  · have := h1 hm
    refine ⟨fun h => ?_, fun h => ?_, fun _ => this, fun h => absurd hm h, fun h => absurd hm h⟩
    · rw [this] at h; cases h
    · rw [this] at h; cases h
  · obtain ⟨a, b⟩ := h2 hm
    exact ⟨a.1, b.1, fun h => absurd h hm, fun _ => a.2, fun _ => b.2⟩

/-- C77, points: exact for every matrix, even where no frustum can be extracted. -/
theorem c77_point (m : M4 ℝ) (p : V3 ℝ) :
    (p.relateClipSpace m = .In ↔ InClip m p) ∧
    (p.relateClipSpace m = .Out ↔ BeyondOneSide m (fun q => q = p)) := by
  have e : m.mulVec p.hom = clip m p := rfl
  have hin : InClip m p ↔ (|(clip m p).x| < (clip m p).w ∧ |(clip m p).y| < (clip m p).w ∧ |(clip m p).z| < (clip m p).w) := by
    simp only [InClip, abs_lt]
  have hout : BeyondOneSide m (fun q => q = p) ↔ (|(clip m p).x| > (clip m p).w ∨ |(clip m p).y| > (clip m p).w ∨ |(clip m p).z| > (clip m p).w) := by
    simp only [BeyondOneSide, forall_eq, gt_iff_lt, lt_abs, lt_neg (a := (clip m p).w)]
    tauto
  rw [hin, hout]
  unfold V3.relateClipSpace
  simp only [e]
  split
  · rename_i h
    refine ⟨by simp [h], by simp; exact ⟨h.1.le, h.2.1.le, h.2.2.le⟩⟩
  · rename_i h
    split
    · rename_i h'; exact ⟨by simp [h], by simp; exact h'⟩
    · rename_i h'; exact ⟨by simp [h], by simp [h']⟩

/-- For the identity matrix (from which a frustum can be extracted, `c42_none`) the clip volume is the cube; a box in it, and a box beyond its right side. -/
example : Frustum.fromMatrix4 ⟨⟨1, 0, 0, 0⟩, ⟨0, 1, 0, 0⟩, ⟨0, 0, 1, 0⟩, ⟨0, 0, 0, 1⟩⟩ ≠ none ∧
    (∀ p, (⟨⟨0, 0, 0⟩, ⟨1 / 2, 1 / 2, 1 / 2⟩⟩ : Aabb3 ℝ).Mem p → InClip ⟨⟨1, 0, 0, 0⟩, ⟨0, 1, 0, 0⟩, ⟨0, 0, 1, 0⟩, ⟨0, 0, 0, 1⟩⟩ p) ∧
    BeyondOneSide ⟨⟨1, 0, 0, 0⟩, ⟨0, 1, 0, 0⟩, ⟨0, 0, 1, 0⟩, ⟨0, 0, 0, 1⟩⟩ (⟨⟨2, 0, 0⟩, ⟨3, 1, 1⟩⟩ : Aabb3 ℝ).Mem := by
  refine ⟨by rw [ne_eq, c42_none]; simp, ?_, Or.inr (Or.inl ?_)⟩
  · rintro p ⟨⟨a, b⟩, ⟨c, d⟩, e, f⟩
    simp only [InClip, clip, M4.mulVec, V4.dot, V3.hom] at *
    refine ⟨⟨?_, ?_⟩, ⟨?_, ?_⟩, ?_, ?_⟩ <;> linarith
  · rintro p ⟨⟨a, b⟩, -⟩
    simp only [clip, M4.mulVec, V4.dot, V3.hom] at *
    linarith
/-- The zero matrix has no frustum, and a box is `Cross` for it. -/
example : relateClipSpace (⟨⟨0, 0, 0⟩, ⟨1, 1, 1⟩⟩ : Aabb3 ℝ).relatePlane ⟨⟨0, 0, 0, 0⟩, ⟨0, 0, 0, 0⟩, ⟨0, 0, 0, 0⟩, ⟨0, 0, 0, 0⟩⟩ = .Cross :=
  (c77_box _ _ ⟨by norm_num, by norm_num, by norm_num⟩).2.2.1 (by rw [c42_none]; simp)
end Verif.Geom
