import Verif.Geom.AabbProps
import Verif.Geom.Sphere
/-!
# C78: the "empty" volume

`Bound::empty` (`src/traits.rs:66`, "Create empty volume"; `src/volume/aabb/mod.rs:175-177`, `src/volume/sphere.rs:55-60`) is the box or sphere
that consists of the origin.
-/
set_option linter.unusedSectionVars false
namespace Verif.Geom

section
variable {K : Type} [Field K] [LinearOrder K] [IsStrictOrderedRing K]

/-- C78, 2D boxes: the empty box holds the origin only; adding it to a box leaves the box as it is exactly if the box has the origin in it. -/
theorem c78_box2_partial (b : Aabb2 K) (hb : b.Valid) :
    (∀ p : V2 K, (Aabb2.zero : Aabb2 K).Mem p ↔ p = 0) ∧ (b.union Aabb2.zero = b ↔ b.Mem 0) ∧ ((Aabb2.zero : Aabb2 K).union b = b ↔ b.Mem 0) := by
  obtain ⟨⟨a, b⟩, ⟨c, d⟩⟩ := b
  obtain ⟨h1, h2⟩ := hb
  dsimp only at h1 h2
  refine ⟨fun p => ?_, ?_, ?_⟩
  · simp only [Aabb2.zero, Aabb2.new, V2.pmin, V2.pmax, Aabb2.Mem, V2.zero_x, V2.zero_y, pmin_eq, pmax_eq, min_self, max_self, V2.ext_iff]
    constructor
    · rintro ⟨⟨a, b⟩, c, d⟩; exact ⟨le_antisymm b a, le_antisymm d c⟩
    · rintro ⟨a, b⟩; simp [a, b]
  all_goals
    simp only [Aabb2.zero, Aabb2.new, Aabb2.union, Aabb2.grow, V2.pmin, V2.pmax, Aabb2.Mem, V2.zero_x, V2.zero_y, pmin_eq, pmax_eq, min_self, max_self, Aabb2.mk.injEq, V2.mk.injEq]
    constructor
    · rintro ⟨⟨a1, a2⟩, a3, a4⟩
      refine ⟨⟨?_, ?_⟩, ?_, ?_⟩
      · rw [← a1]; simp
      · rw [← a3]; simp
      · rw [← a2]; simp
      · rw [← a4]; simp
    · rintro ⟨⟨a1, a2⟩, a3, a4⟩
      simp [a1, a2, a3, a4, h1, h2]

/-- C78, 3D boxes. -/
theorem c78_box3_partial (b : Aabb3 K) (hb : b.Valid) :
    (∀ p : V3 K, (Aabb3.zero : Aabb3 K).Mem p ↔ p = 0) ∧ (b.union Aabb3.zero = b ↔ b.Mem 0) ∧ ((Aabb3.zero : Aabb3 K).union b = b ↔ b.Mem 0) := by
  obtain ⟨⟨a, b, b'⟩, ⟨c, d, d'⟩⟩ := b
  obtain ⟨h1, h2, h3⟩ := hb
  dsimp only at h1 h2 h3
  refine ⟨fun p => ?_, ?_, ?_⟩
  · simp only [Aabb3.zero, Aabb3.new, V3.pmin, V3.pmax, Aabb3.Mem, V3.zero_x, V3.zero_y, V3.zero_z, pmin_eq, pmax_eq, min_self, max_self, V3.ext_iff]
    constructor
    · rintro ⟨⟨a, b⟩, ⟨c, d⟩, e, f⟩; exact ⟨le_antisymm b a, le_antisymm d c, le_antisymm f e⟩
    · rintro ⟨a, b, c⟩; simp [a, b, c]
  all_goals
    simp only [Aabb3.zero, Aabb3.new, Aabb3.union, Aabb3.grow, V3.pmin, V3.pmax, Aabb3.Mem, V3.zero_x, V3.zero_y, V3.zero_z, pmin_eq, pmax_eq, min_self, max_self, Aabb3.mk.injEq,
      V3.mk.injEq]
    constructor
    · rintro ⟨⟨a1, a2, a3⟩, a4, a5, a6⟩
      refine ⟨⟨?_, ?_⟩, ⟨?_, ?_⟩, ?_, ?_⟩
      · rw [← a1]; simp
      · rw [← a4]; simp
      · rw [← a2]; simp
      · rw [← a5]; simp
      · rw [← a3]; simp
      · rw [← a6]; simp
    · rintro ⟨⟨a1, a2⟩, ⟨a3, a4⟩, a5, a6⟩
      simp [a1, a2, a3, a4, a5, a6, h1, h2, h3]
end

/-- C78, spheres. -/
theorem c78_sphere_partial (s : Sphere) (hs : 0 ≤ s.radius) :
    (∀ p, Sphere.empty.Mem p ↔ p = 0) ∧ (s.union Sphere.empty = s ↔ s.Mem 0) ∧ (Sphere.empty.union s = s ↔ s.Mem 0) := by
  have h0 : ∀ p, Sphere.empty.Mem p ↔ p = 0 := by
    intro p
    simp only [Sphere.Mem, Sphere.empty]
    constructor
    · intro h
      have h' := (V3.norm_eq_zero _).1 (le_antisymm h (V3.norm_nonneg _))
      rw [V3.ext_iff] at h' ⊢
      simpa using h'
    · rintro rfl
      have : ((0 : V3 ℝ) - 0).norm = 0 := (V3.norm_eq_zero _).2 (by ext <;> simp)
      exact this.le
  have he : (0 : ℝ) ≤ Sphere.empty.radius := le_refl _
  have hc : s.contains Sphere.empty = true ↔ s.Mem 0 := by
    rw [c33_sphere _ _ he]
    simp only [h0, forall_eq]
  have hc' : Sphere.empty.contains s = true → s = Sphere.empty := by
    intro h
    have h1 := (c33_sphere _ _ hs).1 h
    have hcen : s.Mem s.center := by
      have : (s.center - s.center).norm = 0 := (V3.norm_eq_zero _).2 (by ext <;> simp)
      simp only [Sphere.Mem, this]; exact hs
    have h2 := (h0 _).1 (h1 _ hcen)
    simp only [Sphere.contains, decide_eq_true_eq] at h
    have h3 := V3.norm_nonneg (s.center - Sphere.empty.center)
    have h4 : Sphere.empty.radius = 0 := rfl
    have h5 : s.radius = 0 := by linarith
    cases s
    simp only at h2 h5
    rw [h2, h5]; rfl
  refine ⟨h0, ?_, ?_⟩
  · constructor
    · intro h
      have := (c34_union s Sphere.empty hs he).2.1 0 ((h0 _).2 rfl)
      rwa [h] at this
    · intro h
      unfold Sphere.union
      rw [if_pos (hc.2 h)]
  · constructor
    · intro h
      have := (c34_union Sphere.empty s he hs).1 0 ((h0 _).2 rfl)
      rwa [h] at this
    · intro h
      unfold Sphere.union
      split
      · rename_i h'; exact (hc' h').symm
      · rw [if_pos (hc.2 h)]

/-- C78 is false as stated: adding the empty box to a box that does not contain the origin makes it larger. -/
theorem c78_false : (⟨⟨1, 1⟩, ⟨2, 2⟩⟩ : Aabb2 ℚ).Valid ∧ (⟨⟨1, 1⟩, ⟨2, 2⟩⟩ : Aabb2 ℚ).union Aabb2.zero = ⟨⟨0, 0⟩, ⟨2, 2⟩⟩ := by
  refine ⟨⟨by norm_num, by norm_num⟩, ?_⟩
  decide +kernel

/-- Both cases occur: a box with the origin in it, and one without. -/
example : (⟨⟨-1, -1⟩, ⟨2, 2⟩⟩ : Aabb2 ℚ).Mem 0 ∧ ¬ (⟨⟨1, 1⟩, ⟨2, 2⟩⟩ : Aabb2 ℚ).Mem 0 := by
  constructor
  · exact ⟨⟨by norm_num, by norm_num⟩, by norm_num, by norm_num⟩
  · rintro ⟨⟨h, _⟩, _⟩
    simp at h
    linarith
end Verif.Geom
