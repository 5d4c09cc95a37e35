import Verif.Primitive.Enum
/-!
# Moving particles against shapes: model of `src/primitive/particle.rs`; C57
-/
namespace Verif.Primitive
open Verif Geom
set_option linter.unusedSectionVars false
noncomputable section

/-- `Ray::new(range.start, direction.normalize())`, `src/primitive/particle.rs:51-52, 102-103, 123-124, 152-153`; movements of length zero (NaN direction) are excluded. -/
def moveRay2 (a b : V2 ℝ) : Ray2 ℝ := ⟨a, (b - a).normalize⟩
/-- 3D, `src/primitive/particle.rs:51-52, 102-103, 123-124, 152-153` -/
def moveRay3 (a b : V3 ℝ) : Ray3 ℝ := ⟨a, (b - a).normalize⟩

/-- The test shared by the four impls: keep the hit `p` if `|p - start|² ≤ |end - start|²`, `src/primitive/particle.rs:55, 106, 126-130, 156-160` -/
def keep2 (a b : V2 ℝ) (p : V2 ℝ) : Prop := (p - a).dot (p - a) ≤ (b - a).dot (b - a)
/-- 3D, `src/primitive/particle.rs:55, 106, 126-130, 156-160` -/
def keep3 (a b : V3 ℝ) (p : V3 ℝ) : Prop := (p - a).dot (p - a) ≤ (b - a).dot (b - a)

open Classical in
/-- `Discrete<(Particle, Range)>::intersects`, `src/primitive/particle.rs:50-57`; `test` is the shape's `Continuous<Ray2>`. -/
def particleIntersects2 (test : Ray2 ℝ → Option (V2 ℝ)) (a b : V2 ℝ) : Bool :=
  match test (moveRay2 a b) with
  | none => false
  | some p => decide (keep2 a b p)
open Classical in
/-- `Continuous<(Particle, Range)>::intersection`, `src/primitive/particle.rs:122-132` -/
def particleIntersection2 (test : Ray2 ℝ → Option (V2 ℝ)) (a b : V2 ℝ) : Option (V2 ℝ) :=
  (test (moveRay2 a b)).bind fun p => if keep2 a b p then some p else none
open Classical in
/-- `DiscreteTransformed<(Particle, Range)>::intersects_transformed`, `src/primitive/particle.rs:94-108`; `test` is `intersection_transformed(ray, transform)`. -/
def particleIntersectsT2 (test : Ray2 ℝ → Res (Option (V2 ℝ))) (a b : V2 ℝ) : Res Bool := do
  let o ← test (moveRay2 a b)
  match o with
  | none => return false
  | some p => return decide (keep2 a b p)
open Classical in
/-- `ContinuousTransformed<(Particle, Range)>::intersection_transformed`, `src/primitive/particle.rs:144-162` -/
def particleIntersectionT2 (test : Ray2 ℝ → Res (Option (V2 ℝ))) (a b : V2 ℝ) : Res (Option (V2 ℝ)) := do
  let o ← test (moveRay2 a b)
  return o.bind fun p => if keep2 a b p then some p else none

open Classical in
/-- `intersects` (3D), `src/primitive/particle.rs:50-57` -/
def particleIntersects3 (test : Ray3 ℝ → Option (V3 ℝ)) (a b : V3 ℝ) : Bool :=
  match test (moveRay3 a b) with
  | none => false
  | some p => decide (keep3 a b p)
open Classical in
/-- `intersection` (3D), `src/primitive/particle.rs:122-132` -/
def particleIntersection3 (test : Ray3 ℝ → Option (V3 ℝ)) (a b : V3 ℝ) : Option (V3 ℝ) :=
  (test (moveRay3 a b)).bind fun p => if keep3 a b p then some p else none
open Classical in
/-- `intersects_transformed` (3D), `src/primitive/particle.rs:94-108` -/
def particleIntersectsT3 (test : Ray3 ℝ → Res (Option (V3 ℝ))) (a b : V3 ℝ) : Res Bool := do
  let o ← test (moveRay3 a b)
  match o with
  | none => return false
  | some p => return decide (keep3 a b p)
open Classical in
/-- `intersection_transformed` (3D), `src/primitive/particle.rs:144-162` -/
def particleIntersectionT3 (test : Ray3 ℝ → Res (Option (V3 ℝ))) (a b : V3 ℝ) : Res (Option (V3 ℝ)) := do
  let o ← test (moveRay3 a b)
  return o.bind fun p => if keep3 a b p then some p else none

/-- `Discrete<Ray> for Particle`, `src/primitive/particle.rs:67-69`: the origin of the object space (2D) -/
def particleHitByRay2 (r : Ray2 ℝ) : Bool := (0 : V2 ℝ).intersectsRay r
/-- `Continuous<Ray> for Particle`, `src/primitive/particle.rs:81-83` (2D) -/
def particleRay2 (r : Ray2 ℝ) : Option (V2 ℝ) := (0 : V2 ℝ).intersectionRay r
/-- `Discrete<Ray> for Particle`, `src/primitive/particle.rs:67-69` (3D) -/
def particleHitByRay3 (r : Ray3 ℝ) : Bool := (0 : V3 ℝ).intersectsRay r
/-- `Continuous<Ray> for Particle`, `src/primitive/particle.rs:81-83` (3D) -/
def particleRay3 (r : Ray3 ℝ) : Option (V3 ℝ) := (0 : V3 ℝ).intersectionRay r

/-- Specification: the point of the movement from `a` to `b` at the fraction `u`. -/
def along2 (a b : V2 ℝ) (u : ℝ) : V2 ℝ := a + (b - a) * u
/-- Specification: the point of the movement from `a` to `b` at the fraction `u`. -/
def along3 (a b : V3 ℝ) (u : ℝ) : V3 ℝ := a + (b - a) * u

theorem sub_ne2 {a b : V2 ℝ} (h : a ≠ b) : b - a ≠ 0 := by
  intro e
  apply h
  have e1 := congrArg V2.x e
  have e2 := congrArg V2.y e
  simp at e1 e2
  ext <;> linarith
theorem sub_ne3 {a b : V3 ℝ} (h : a ≠ b) : b - a ≠ 0 := by
  intro e
  apply h
  have e1 := congrArg V3.x e
  have e2 := congrArg V3.y e
  have e3 := congrArg V3.z e
  simp at e1 e2 e3
  ext <;> linarith

theorem moveRay2_at {a b : V2 ℝ} (h : a ≠ b) (t : ℝ) : (moveRay2 a b).at t = along2 a b (t / (b - a).norm) := by
  have := (V2.norm_pos (sub_ne2 h)).ne'
  ext <;> simp [moveRay2, Ray2.at, along2, V2.normalize] <;> ring
theorem moveRay3_at {a b : V3 ℝ} (h : a ≠ b) (t : ℝ) : (moveRay3 a b).at t = along3 a b (t / (b - a).norm) := by
  have := (V3.norm_pos (sub_ne3 h)).ne'
  ext <;> simp [moveRay3, Ray3.at, along3, V3.normalize] <;> ring
theorem moveRay2_unit {a b : V2 ℝ} (h : a ≠ b) : (moveRay2 a b).direction.norm = 1 := V2.norm_normalize (sub_ne2 h)
theorem moveRay3_unit {a b : V3 ℝ} (h : a ≠ b) : (moveRay3 a b).direction.norm = 1 := V3.norm_normalize (sub_ne3 h)

theorem keep2_at {a b : V2 ℝ} (h : a ≠ b) {t : ℝ} (ht : 0 ≤ t) : keep2 a b ((moveRay2 a b).at t) ↔ t / (b - a).norm ≤ 1 := by
  have hp := V2.norm_pos (sub_ne2 h)
  rw [moveRay2_at h]
  have hd : 0 < (b - a).dot (b - a) := by rw [← V2.norm_sq]; positivity
  have e : (along2 a b (t / (b - a).norm) - a).dot (along2 a b (t / (b - a).norm) - a) = (t / (b - a).norm) ^ 2 * (b - a).dot (b - a) := by
    simp only [along2, V2.dot, V2.add_x, V2.add_y, V2.sub_x, V2.sub_y, V2.mul_x, V2.mul_y]; ring
  have hu : 0 ≤ t / (b - a).norm := by positivity
  unfold keep2
  rw [e]
  constructor
  · intro h; by_contra hc; push Not at hc
    have : 1 < (t / (b - a).norm) ^ 2 := by nlinarith
    nlinarith
  · intro h
    have : (t / (b - a).norm) ^ 2 ≤ 1 := by nlinarith
    nlinarith
theorem keep3_at {a b : V3 ℝ} (h : a ≠ b) {t : ℝ} (ht : 0 ≤ t) : keep3 a b ((moveRay3 a b).at t) ↔ t / (b - a).norm ≤ 1 := by
  have hp := V3.norm_pos (sub_ne3 h)
  rw [moveRay3_at h]
  have hd : 0 < (b - a).dot (b - a) := by rw [← V3.norm_sq]; positivity
  have e : (along3 a b (t / (b - a).norm) - a).dot (along3 a b (t / (b - a).norm) - a) = (t / (b - a).norm) ^ 2 * (b - a).dot (b - a) := by
    simp only [along3, V3.dot, V3.add_x, V3.add_y, V3.add_z, V3.sub_x, V3.sub_y, V3.sub_z, V3.mul_x, V3.mul_y, V3.mul_z]; ring
  have hu : 0 ≤ t / (b - a).norm := by positivity
  unfold keep3
  rw [e]
  constructor
  · intro h; by_contra hc; push Not at hc
    have : 1 < (t / (b - a).norm) ^ 2 := by nlinarith
    nlinarith
  · intro h
    have : (t / (b - a).norm) ^ 2 ≤ 1 := by nlinarith
    nlinarith

/-- C57 (2D), any ray test: the two particle tests agree; the movement meets the shape exactly if the ray from `a` towards `b` is reported to hit at a distance of at most `|b - a|`, and the
reported point is that hit. -/
theorem c57_clip2 (test : Ray2 ℝ → Option (V2 ℝ)) (a b : V2 ℝ) :
    particleIntersects2 test a b = (particleIntersection2 test a b).isSome ∧
    ∀ p, particleIntersection2 test a b = some p ↔ test ⟨a, (b - a).normalize⟩ = some p ∧ (p - a).norm ≤ (b - a).norm := by
  have key : ∀ p, keep2 a b p ↔ (p - a).norm ≤ (b - a).norm := fun p => by
    unfold keep2
    rw [V2.norm_le_iff _ (V2.norm_nonneg _), V2.norm_sq]
  unfold particleIntersects2 particleIntersection2
  change _ ∧ ∀ p, _ ↔ test (moveRay2 a b) = some p ∧ _
  cases test (moveRay2 a b) with
  | none => simp
  | some q =>
    simp only [Option.bind_some, Option.some.injEq]
    by_cases hk : keep2 a b q
    · rw [if_pos hk]
      refine ⟨by simp [hk], fun p => ?_⟩
      rw [Option.some.injEq]
      constructor
      · rintro rfl; exact ⟨rfl, (key q).mp hk⟩
      · exact fun h => h.1
    · rw [if_neg hk]
      refine ⟨by simp [hk], fun p => ?_⟩
      constructor
      · nofun
      · rintro ⟨rfl, h⟩; exact absurd ((key q).mpr h) hk

/-- C57 (3D), any ray test. -/
theorem c57_clip3 (test : Ray3 ℝ → Option (V3 ℝ)) (a b : V3 ℝ) :
    particleIntersects3 test a b = (particleIntersection3 test a b).isSome ∧
    ∀ p, particleIntersection3 test a b = some p ↔ test ⟨a, (b - a).normalize⟩ = some p ∧ (p - a).norm ≤ (b - a).norm := by
  have key : ∀ p, keep3 a b p ↔ (p - a).norm ≤ (b - a).norm := fun p => by
    unfold keep3
    rw [V3.norm_le_iff _ (V3.norm_nonneg _), V3.norm_sq]
  unfold particleIntersects3 particleIntersection3
  change _ ∧ ∀ p, _ ↔ test (moveRay3 a b) = some p ∧ _
  cases test (moveRay3 a b) with
  | none => simp
  | some q =>
    simp only [Option.bind_some, Option.some.injEq]
    by_cases hk : keep3 a b q
    · rw [if_pos hk]
      refine ⟨by simp [hk], fun p => ?_⟩
      rw [Option.some.injEq]
      constructor
      · rintro rfl; exact ⟨rfl, (key q).mp hk⟩
      · exact fun h => h.1
    · rw [if_neg hk]
      refine ⟨by simp [hk], fun p => ?_⟩
      constructor
      · nofun
      · rintro ⟨rfl, h⟩; exact absurd ((key q).mpr h) hk

/-- Specification: on the closed segment from `a` to `b`, the answer `o` is the first point of `S`. -/
def FirstAlong2 (S : V2 ℝ → Prop) (a b : V2 ℝ) (o : Option (V2 ℝ)) : Prop :=
  (o = none ↔ ¬ ∃ u, 0 ≤ u ∧ u ≤ 1 ∧ S (along2 a b u)) ∧
  ∀ p, o = some p → ∃ u, 0 ≤ u ∧ u ≤ 1 ∧ p = along2 a b u ∧ S p ∧ ∀ v, 0 ≤ v → v ≤ 1 → S (along2 a b v) → u ≤ v
/-- Specification: on the closed segment from `a` to `b`, the answer `o` is the first point of `S`. -/
def FirstAlong3 (S : V3 ℝ → Prop) (a b : V3 ℝ) (o : Option (V3 ℝ)) : Prop :=
  (o = none ↔ ¬ ∃ u, 0 ≤ u ∧ u ≤ 1 ∧ S (along3 a b u)) ∧
  ∀ p, o = some p → ∃ u, 0 ≤ u ∧ u ≤ 1 ∧ p = along3 a b u ∧ S p ∧ ∀ v, 0 ≤ v → v ≤ 1 → S (along3 a b v) → u ≤ v

theorem firstAlong2 {S : V2 ℝ → Prop} {a b : V2 ℝ} (h : a ≠ b) {o : Option (V2 ℝ)} (h1 : o = none ↔ ¬ ∃ t, 0 ≤ t ∧ S ((moveRay2 a b).at t))
    (h2 : ∀ p, o = some p → ∃ t, (moveRay2 a b).First S t ∧ p = (moveRay2 a b).at t) :
    FirstAlong2 S a b (o.bind fun p => open Classical in if keep2 a b p then some p else none) := by
  have hp := V2.norm_pos (sub_ne2 h)
  have hat : ∀ u, along2 a b u = (moveRay2 a b).at (u * (b - a).norm) := by
    intro u; rw [moveRay2_at h, mul_div_assoc, div_self hp.ne', mul_one]
  cases o with
  | none =>
    have hn := h1.mp rfl
    refine ⟨⟨fun _ => ?_, fun _ => rfl⟩, nofun⟩
    rintro ⟨u, u0, u1, hu⟩
    rw [hat] at hu
    exact hn ⟨_, by positivity, hu⟩
  | some q =>
    obtain ⟨t, ⟨t0, ts, tm⟩, rfl⟩ := h2 q rfl
    simp only [Option.bind_some]
    by_cases hk : keep2 a b ((moveRay2 a b).at t)
    · rw [if_pos hk]
      have ht1 := (keep2_at h t0).mp hk
      have hu0 : 0 ≤ t / (b - a).norm := by positivity
      refine ⟨⟨nofun, fun hn => ?_⟩, fun p e => ?_⟩
      · exact absurd ⟨_, hu0, ht1, by rw [← moveRay2_at h]; exact ts⟩ hn
      · cases e
        refine ⟨_, hu0, ht1, moveRay2_at h t, ts, fun v v0 _ hv => ?_⟩
        rw [hat] at hv
        have := tm _ (by positivity) hv
        rw [div_le_iff₀ hp]; exact this
    · rw [if_neg hk]
      refine ⟨⟨fun _ => ?_, fun _ => rfl⟩, nofun⟩
      rintro ⟨u, u0, u1, hu⟩
      rw [hat] at hu
      have := tm _ (by positivity) hu
      apply hk
      rw [keep2_at h t0, div_le_iff₀ hp]
      nlinarith

theorem firstAlong3 {S : V3 ℝ → Prop} {a b : V3 ℝ} (h : a ≠ b) {o : Option (V3 ℝ)} (h1 : o = none ↔ ¬ ∃ t, 0 ≤ t ∧ S ((moveRay3 a b).at t))
    (h2 : ∀ p, o = some p → ∃ t, (moveRay3 a b).First S t ∧ p = (moveRay3 a b).at t) :
    FirstAlong3 S a b (o.bind fun p => open Classical in if keep3 a b p then some p else none) := by
  have hp := V3.norm_pos (sub_ne3 h)
  have hat : ∀ u, along3 a b u = (moveRay3 a b).at (u * (b - a).norm) := by
    intro u; rw [moveRay3_at h, mul_div_assoc, div_self hp.ne', mul_one]
  cases o with
  | none =>
    have hn := h1.mp rfl
    refine ⟨⟨fun _ => ?_, fun _ => rfl⟩, nofun⟩
    rintro ⟨u, u0, u1, hu⟩
    rw [hat] at hu
    exact hn ⟨_, by positivity, hu⟩
  | some q =>
    obtain ⟨t, ⟨t0, ts, tm⟩, rfl⟩ := h2 q rfl
    simp only [Option.bind_some]
    by_cases hk : keep3 a b ((moveRay3 a b).at t)
    · rw [if_pos hk]
      have ht1 := (keep3_at h t0).mp hk
      have hu0 : 0 ≤ t / (b - a).norm := by positivity
      refine ⟨⟨nofun, fun hn => ?_⟩, fun p e => ?_⟩
      · exact absurd ⟨_, hu0, ht1, by rw [← moveRay3_at h]; exact ts⟩ hn
      · cases e
        refine ⟨_, hu0, ht1, moveRay3_at h t, ts, fun v v0 _ hv => ?_⟩
        rw [hat] at hv
        have := tm _ (by positivity) hv
        rw [div_le_iff₀ hp]; exact this
    · rw [if_neg hk]
      refine ⟨⟨fun _ => ?_, fun _ => rfl⟩, nofun⟩
      rintro ⟨u, u0, u1, hu⟩
      rw [hat] at hu
      have := tm _ (by positivity) hu
      apply hk
      rw [keep3_at h t0, div_le_iff₀ hp]
      nlinarith

/-- C57 (2D), a shape whose ray test is exact: the movement test answers for the closed segment: none if no point of the segment is in the shape, else the first one. -/
theorem c57_exact2 (test : Ray2 ℝ → Option (V2 ℝ)) (S : V2 ℝ → Prop) (a b : V2 ℝ) (h : a ≠ b) (hex : Exact2 test S (moveRay2 a b)) :
    FirstAlong2 S a b (particleIntersection2 test a b) ∧ (particleIntersects2 test a b = true ↔ ∃ u, 0 ≤ u ∧ u ≤ 1 ∧ S (along2 a b u)) := by
  have hf : FirstAlong2 S a b (particleIntersection2 test a b) := firstAlong2 h hex.1 hex.2
  refine ⟨hf, ?_⟩
  rw [(c57_clip2 test a b).1]
  have := hf.1
  cases ho : particleIntersection2 test a b with
  | none => rw [ho] at this; simpa using this.mp rfl
  | some p =>
    obtain ⟨u, u0, u1, e, hs, -⟩ := hf.2 p ho
    simp only [Option.isSome_some, true_iff]
    exact ⟨u, u0, u1, e ▸ hs⟩

/-- C57 (3D), a shape whose ray test is exact. -/
theorem c57_exact3 (test : Ray3 ℝ → Option (V3 ℝ)) (S : V3 ℝ → Prop) (a b : V3 ℝ) (h : a ≠ b) (hex : Exact3 test S (moveRay3 a b)) :
    FirstAlong3 S a b (particleIntersection3 test a b) ∧ (particleIntersects3 test a b = true ↔ ∃ u, 0 ≤ u ∧ u ≤ 1 ∧ S (along3 a b u)) := by
  have hf : FirstAlong3 S a b (particleIntersection3 test a b) := firstAlong3 h hex.1 hex.2
  refine ⟨hf, ?_⟩
  rw [(c57_clip3 test a b).1]
  have := hf.1
  cases ho : particleIntersection3 test a b with
  | none => rw [ho] at this; simpa using this.mp rfl
  | some p =>
    obtain ⟨u, u0, u1, e, hs, -⟩ := hf.2 p ho
    simp only [Option.isSome_some, true_iff]
    exact ⟨u, u0, u1, e ▸ hs⟩

/-- The transformed discrete test answers as the transformed continuous one (2D). -/
theorem particleT2_agree (test : Ray2 ℝ → Res (Option (V2 ℝ))) (a b : V2 ℝ) :
    particleIntersectsT2 test a b = (particleIntersectionT2 test a b >>= fun o => pure o.isSome) := by
  unfold particleIntersectsT2 particleIntersectionT2
  cases test (moveRay2 a b) with
  | panic => rfl
  | timeout => rfl
  | ok o =>
    cases o with
    | none => rfl
    | some p =>
      simp only [Res.bind_ok, Option.bind_some, Res.pure_eq]
      by_cases hk : keep2 a b p <;> simp [hk]
/-- The transformed discrete test answers as the transformed continuous one (3D). -/
theorem particleT3_agree (test : Ray3 ℝ → Res (Option (V3 ℝ))) (a b : V3 ℝ) :
    particleIntersectsT3 test a b = (particleIntersectionT3 test a b >>= fun o => pure o.isSome) := by
  unfold particleIntersectsT3 particleIntersectionT3
  cases test (moveRay3 a b) with
  | panic => rfl
  | timeout => rfl
  | ok o =>
    cases o with
    | none => rfl
    | some p =>
      simp only [Res.bind_ok, Option.bind_some, Res.pure_eq]
      by_cases hk : keep3 a b p <;> simp [hk]

/-- C57 (2D), transformed: with an invertible transform the answer is for the transformed shape and the movement in world space. -/
theorem c57_transformed2 (test : Ray2 ℝ → Option (V2 ℝ)) (S : V2 ℝ → Prop) (a b : V2 ℝ) (h : a ≠ b) {T : Tr (V2 ℝ)} {ip iv : V2 ℝ → V2 ℝ}
    (hT : Invertible2 T ip iv) (hex : Exact2 test S ((moveRay2 a b).transform ip iv)) :
    ∃ o, particleIntersectionT2 (fun r => intersectionTransformed2 test r T) a b = .ok o ∧ FirstAlong2 (Image T S) a b o ∧
      particleIntersectsT2 (fun r => intersectionTransformed2 test r T) a b = .ok o.isSome := by
  obtain ⟨o, ho, h1, h2⟩ := c60_intersection2 test S (moveRay2 a b) hT hex
  have e : particleIntersectionT2 (fun r => intersectionTransformed2 test r T) a b =
      .ok (o.bind fun p => open Classical in if keep2 a b p then some p else none) := by
    unfold particleIntersectionT2
    dsimp only
    rw [ho, Res.bind_ok]
    rfl
  refine ⟨_, e, firstAlong2 h h1 h2, ?_⟩
  rw [particleT2_agree, e]
  rfl

/-- C57 (3D), transformed. -/
theorem c57_transformed3 (test : Ray3 ℝ → Option (V3 ℝ)) (S : V3 ℝ → Prop) (a b : V3 ℝ) (h : a ≠ b) {T : Tr (V3 ℝ)} {ip iv : V3 ℝ → V3 ℝ}
    (hT : Invertible3 T ip iv) (hex : Exact3 test S ((moveRay3 a b).transform ip iv)) :
    ∃ o, particleIntersectionT3 (fun r => intersectionTransformed3 test r T) a b = .ok o ∧ FirstAlong3 (Image T S) a b o ∧
      particleIntersectsT3 (fun r => intersectionTransformed3 test r T) a b = .ok o.isSome := by
  obtain ⟨o, ho, h1, h2⟩ := c60_intersection3 test S (moveRay3 a b) hT hex
  have e : particleIntersectionT3 (fun r => intersectionTransformed3 test r T) a b =
      .ok (o.bind fun p => open Classical in if keep3 a b p then some p else none) := by
    unfold particleIntersectionT3
    dsimp only
    rw [ho, Res.bind_ok]
    rfl
  refine ⟨_, e, firstAlong3 h h1 h2, ?_⟩
  rw [particleT3_agree, e]
  rfl

/-- C57 for segments: a moving particle against a `Line2`, every movement of positive length. -/
theorem c57_segment (l : Line2 ℝ) (a b : V2 ℝ) (h : a ≠ b) :
    FirstAlong2 l.Mem a b (particleIntersection2 l.intersectionRay a b) ∧
      (particleIntersects2 l.intersectionRay a b = true ↔ ∃ u, 0 ≤ u ∧ u ≤ 1 ∧ l.Mem (along2 a b u)) :=
  c57_exact2 _ _ a b h (segment_exact l _ (by
    intro e
    have := moveRay2_unit h
    rw [e, (V2.norm_eq_zero 0).mpr rfl] at this
    norm_num at this))

/-- C57 for spheres: a movement that starts outside. -/
theorem c57_sphere_partial (s : Sphere) (hr : 0 ≤ s.radius) (a b : V3 ℝ) (h : a ≠ b) (hout : ¬ s.Mem a) :
    FirstAlong3 s.Mem a b (particleIntersection3 s.intersectionRay a b) ∧
      (particleIntersects3 s.intersectionRay a b = true ↔ ∃ u, 0 ≤ u ∧ u ≤ 1 ∧ s.Mem (along3 a b u)) := by
  apply c57_exact3 _ _ a b h
  obtain ⟨h1, h2⟩ := c37_first_hit_partial s hr (moveRay3 a b) (moveRay3_unit h) hout
  refine ⟨h1, ?_⟩
  intro p hp
  obtain ⟨t, t0, rfl, hs, hf⟩ := h2 p hp
  exact ⟨t, ⟨t0, le_of_eq hs, hf⟩, rfl⟩

/-- A movement that starts inside a sphere may be reported to hit at a point behind its start (the ray test reports a point behind the ray origin, `c37_false`): the
particle goes from (1, 0, 0) to (-2, 0, 0) in the sphere of radius 2 about the origin; the reported point is (2, 0, 0). -/
theorem c57_sphere_inside_false : ∃ (s : Sphere) (a b p : V3 ℝ), 0 < s.radius ∧ a ≠ b ∧ particleIntersection3 s.intersectionRay a b = some p ∧
    ∀ u, 0 ≤ u → p ≠ along3 a b u := by
  refine ⟨⟨⟨0, 0, 0⟩, 2⟩, ⟨1, 0, 0⟩, ⟨-2, 0, 0⟩, ⟨2, 0, 0⟩, by norm_num, ?_, ?_, ?_⟩
  · intro e; have := congrArg V3.x e; norm_num at this
  · rw [(c57_clip3 _ _ _).2]
    have en : ((⟨-2, 0, 0⟩ - ⟨1, 0, 0⟩ : V3 ℝ)).norm = 3 := by
      rw [V3.norm, show ((⟨-2, 0, 0⟩ - ⟨1, 0, 0⟩ : V3 ℝ)).dot (⟨-2, 0, 0⟩ - ⟨1, 0, 0⟩) = 3 ^ 2 by norm_num [V3.dot]]
      exact Real.sqrt_sq (by norm_num)
    have e : ((⟨-2, 0, 0⟩ - ⟨1, 0, 0⟩ : V3 ℝ)).normalize = ⟨-1, 0, 0⟩ := by
      rw [V3.normalize, en]; ext <;> norm_num
    rw [e, en]
    refine ⟨?_, ?_⟩
    · have : Real.sqrt (4 : ℝ) = 2 := by rw [show (4 : ℝ) = 2 * 2 by norm_num]; exact Real.sqrt_mul_self (by norm_num)
      simp only [Sphere.intersectionRay, V3.dot, V3.sub_x, V3.sub_y, V3.sub_z]
      norm_num [this, V3.ext_iff]
    · rw [V3.norm_le_iff _ (by norm_num)]; norm_num [V3.dot]
  · intro u hu e
    have := congrArg V3.x e
    simp [along3] at this
    linarith

/-- C45 for a particle tested with a ray: for a unit direction it is hit iff the origin of its space is on the ray ahead of the ray's origin. -/
theorem c57_particle_ray2 (r : Ray2 ℝ) (hd : r.direction.dot r.direction = 1) :
    (particleHitByRay2 r = true ↔ ∃ t, 0 < t ∧ (0 : V2 ℝ) = r.at t) ∧ particleRay2 r = if particleHitByRay2 r then some 0 else none :=
  ⟨(c45_point_ray2 0 r hd).1, rfl⟩
/-- C45 for a particle tested with a ray (3D). -/
theorem c57_particle_ray3 (r : Ray3 ℝ) (hd : r.direction.dot r.direction = 1) :
    (particleHitByRay3 r = true ↔ ∃ t, 0 < t ∧ (0 : V3 ℝ) = r.at t) ∧ particleRay3 r = if particleHitByRay3 r then some 0 else none :=
  ⟨(c45_point_ray3 0 r hd).1, rfl⟩
end
end Verif.Primitive
