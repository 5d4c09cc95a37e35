import Verif.Minkowski.Toi2Total
import Verif.Minkowski.Epa3Shapes
/-!
# Time of impact of shapes at relative rest (C93)

A world steps every pair of bodies through `intersection_time_of_impact`; most pairs do not move relative to each other in a given step.
-/
namespace Verif.Minkowski
open Verif Verif.Geom Verif.Primitive
set_option linter.unusedSectionVars false
noncomputable section

/-- C93 for any two 2D primitives other than circles whose movements are the same: the function answers, `None` only if the shapes have no point in common, and a contact has time 0 and two
points of the shapes at most the square root of the tolerance apart. -/
theorem c93_prim2_partial (s q : Prim2) (hs : s.Ok) (hq : q.Ok) (hsc : ∀ c, s ≠ .circle c) (hqc : ∀ c, q ≠ .circle c) (D D' E E' : Dec2 ℝ) (hD : D.rot.Orthogonal)
    (hE : E.rot.Orthogonal) (hDs : D.scale ≠ 0) (hEs : E.scale ≠ 0) (hrest : E'.disp - E.disp = D'.disp - D.disp) {tolerance : ℝ} (htol : 0 ≤ tolerance) (fuel : Nat)
    (hfuel : ((Prim2.verts s).length * (Prim2.verts q).length) ^ 4 + 3 * ((Prim2.verts s).length * (Prim2.verts q).length) ^ 2 + 2 ≤ fuel) :
    ∃ r, gjkToi closest2 V2.normalize tolerance fuel (s.supportPoint D.tr) (q.supportPoint E.tr) (D.tr.point 0) (D'.tr.point 0) (E.tr.point 0) (E'.tr.point 0)
        (fun t p => (Dec2.translationInterpolate E E' t).tr.point p) = .ok r ∧
      (r = none → ¬ ∃ z, Image D.tr s.Points z ∧ Image E.tr q.Points z) ∧
      ∀ c, r = some c → c.toi = 0 ∧ ∃ x y, Image D.tr s.Points x ∧ Image E.tr q.Points y ∧ (x - y).norm = c.depth ∧ c.depth * c.depth ≤ tolerance := by
  obtain ⟨r, hr⟩ := c85_prim2_partial s q hs hq hsc hqc D D' E E' hD hE hDs hEs htol fuel hfuel
  refine ⟨r, hr, ?_⟩
  have g : ∀ D D' : Dec2 ℝ, Dec2.glide D D' 0 = D := by
    intro D D'
    cases D
    simp only [Dec2.glide]
    congr 1
    ext <;> simp
  obtain ⟨h1, h2⟩ := c66_prim2 s q hs hq D D' E E' hD hE hDs hEs htol fuel hr
  constructor
  · intro h0 hz
    have := h1 h0 0 le_rfl zero_le_one
    rw [g, g] at this
    exact this hz
  · intro c hc
    obtain ⟨k1, -, -, k4, k5, k6⟩ := h2 c hc
    have h0 : c.toi = 0 := by
      rcases k1.eq_or_lt with h | h
      · exact h.symm
      · have := (k6 h).2.1
        rw [hrest] at this
        simp [V2.dot] at this
    rw [h0, g, g] at k5
    obtain ⟨x, y, hx, hy, e⟩ := k5
    exact ⟨h0, x, y, hx, hy, e, k4⟩

/-- C93 is false for circles: whatever the other shape and the tolerance, the first support request of a circle at relative rest is in direction zero, and the point is NaN. (In the code the
loop ends at once, the last comparison with the tolerance fails, and the answer is `None`, also for circles that overlap.) -/
theorem c93_false (c : Circle) (q : Prim2) (D D' E E' : Dec2 ℝ) (hDs : D.scale ≠ 0) (hrest : E'.disp - E.disp = D'.disp - D.disp) (tolerance : ℝ) (fuel : Nat) :
    gjkToi closest2 V2.normalize tolerance fuel (c.supportPoint D.tr) (q.supportPoint E.tr) (D.tr.point 0) (D'.tr.point 0) (E.tr.point 0) (E'.tr.point 0)
        (fun t p => (Dec2.translationInterpolate E E' t).tr.point p) = nanPoint := by
  have hz : D.tr.invVector 0 = some 0 := by simp [Dec2.tr, hDs, M2.apply, M2.transpose, V2.ext_iff]
  have hp : c.supportPoint D.tr 0 = nanPoint := by
    unfold Circle.supportPoint supportRound
    rw [hz]
    simp
  have e : -((E'.tr.point 0 - E.tr.point 0) - (D'.tr.point 0 - D.tr.point 0)) = (0 : V2 ℝ) := by
    rw [tr_zero2, tr_zero2, tr_zero2, tr_zero2, hrest]
    ext <;> simp
  unfold gjkToi
  dsimp only
  rw [e]
  unfold SP.fromMinkowski
  rw [hp]
  rfl

/-- C93 for any two 3D primitives whose movements are the same, for every run that answers (some do not, C85; round shapes do not, see `c93_round3_false`): `None` only if the shapes have no
point in common, and a contact has time 0 and two points of the shapes at most the square root of the tolerance apart. -/
theorem c93_prim3_partial (s q : Prim3) (hs : s.Ok) (hq : q.Ok) (nz nz' : V3 ℝ → Bool) (D D' E E' : Dec3 ℝ) (hD : D.rot.Orthogonal) (hE : E.rot.Orthogonal) (hDs : D.scale ≠ 0)
    (hEs : E.scale ≠ 0) (hrest : E'.disp - E.disp = D'.disp - D.disp) {tolerance : ℝ} (htol : 0 ≤ tolerance) (fuel : Nat) {r : Option (Contact (V3 ℝ) ℝ)}
    (h : gjkToi closest3 V3.normalize tolerance fuel (s.supportPoint nz D.tr) (q.supportPoint nz' E.tr) (D.tr.point 0) (D'.tr.point 0) (E.tr.point 0) (E'.tr.point 0)
        (fun t => (Dec3.translationInterpolate E E' t).tr.point) = .ok r) :
    (r = none → ¬ ∃ z, Image D.tr s.Points z ∧ Image E.tr q.Points z) ∧
    ∀ c, r = some c → c.toi = 0 ∧ ∃ x y, Image D.tr s.Points x ∧ Image E.tr q.Points y ∧ (x - y).norm = c.depth ∧ c.depth * c.depth ≤ tolerance := by
  have g : ∀ D D' : Dec3 ℝ, Dec3.glide D D' 0 = D := by
    intro D D'
    cases D
    simp only [Dec3.glide]
    congr 1
    ext <;> simp
  obtain ⟨h1, h2⟩ := c66_prim3 s q hs hq nz nz' D D' E E' hD hE hDs hEs htol fuel h
  constructor
  · intro h0 hz
    have := h1 h0 0 le_rfl zero_le_one
    rw [g, g] at this
    exact this hz
  · intro c hc
    obtain ⟨k1, -, -, k4, k5, k6⟩ := h2 c hc
    have h0 : c.toi = 0 := by
      rcases k1.eq_or_lt with h | h
      · exact h.symm
      · have := (k6 h).2.1
        rw [hrest] at this
        simp [V3.dot] at this
    rw [h0, g, g] at k5
    obtain ⟨x, y, hx, hy, e⟩ := k5
    exact ⟨h0, x, y, hx, hy, e, k4⟩

/-- C93 is false for spheres and capsules, as for circles: the first support point is NaN, whatever the other shape. -/
theorem c93_round3_false (s q : Prim3) (hs : (∃ b, s = .sphere b) ∨ ∃ c, s = .capsule c) (nz nz' : V3 ℝ → Bool) (D D' E E' : Dec3 ℝ) (hDs : D.scale ≠ 0)
    (hrest : E'.disp - E.disp = D'.disp - D.disp) (tolerance : ℝ) (fuel : Nat) :
    gjkToi closest3 V3.normalize tolerance fuel (s.supportPoint nz D.tr) (q.supportPoint nz' E.tr) (D.tr.point 0) (D'.tr.point 0) (E.tr.point 0) (E'.tr.point 0)
        (fun t => (Dec3.translationInterpolate E E' t).tr.point) = nanPoint := by
  have hz : D.tr.invVector 0 = some 0 := by simp [Dec3.tr, hDs, M3.apply, M3.transpose, V3.ext_iff]
  have hp : s.supportPoint nz D.tr 0 = nanPoint := by
    rcases hs with ⟨b, rfl⟩ | ⟨c, rfl⟩
    · simp only [Prim3.supportPoint]
      unfold Ball.supportPoint supportRound
      rw [hz]
      simp
    · simp only [Prim3.supportPoint]
      unfold Capsule.supportPoint supportRound
      rw [hz]
      simp
  have e : -((E'.tr.point 0 - E.tr.point 0) - (D'.tr.point 0 - D.tr.point 0)) = (0 : V3 ℝ) := by
    rw [tr_zero3, tr_zero3, tr_zero3, tr_zero3, hrest]
    ext <;> simp
  unfold gjkToi
  dsimp only
  rw [e]
  unfold SP.fromMinkowski
  rw [hp]
  rfl

/-- Two particles at the same place that move together: the run answers with a contact of depth 0 at time 0. -/
theorem rest_example3 (fuel : Nat) : ∃ c, gjkToi closest3 V3.normalize 0 fuel (Prim3.particle.supportPoint (fun _ => false) (shift3 1 2 3).tr) (Prim3.particle.supportPoint (fun _ => false) (shift3 1 2 3).tr)
    ((shift3 1 2 3).tr.point 0) ((shift3 4 4 4).tr.point 0) ((shift3 1 2 3).tr.point 0) ((shift3 4 4 4).tr.point 0) (fun t => (Dec3.translationInterpolate (shift3 1 2 3) (shift3 4 4 4) t).tr.point) =
      .ok (some c) ∧ c.toi = 0 ∧ c.depth = 0 := by
  have hp : ∀ d : V3 ℝ, Prim3.particle.supportPoint (fun _ => false) (shift3 1 2 3).tr d = .ok ⟨1, 2, 3⟩ := by
    intro d
    simp only [Prim3.supportPoint, tr_zero3, shift3]
  unfold gjkToi
  simp only [SP.fromMinkowski, hp, Res.bind_ok, Res.pure_eq, tr_zero3]
  unfold toiLoop
  rw [if_neg (by simp [Inner.dot, V3.dot])]
  refine ⟨_, rfl, rfl, ?_⟩
  simp [Contact.newWithPoint, mag, Inner.dot, V3.dot]

/-- Two unit circles at the origin and at `(1, 0)`, which overlap, and which both move by `(3, 0)`. -/
example : (∃ z, Image (at2 0).tr (InDisc 1) z ∧ Image (at2 ⟨1, 0⟩).tr (InDisc 1) z) ∧ (at2 ⟨4, 0⟩).disp - (at2 ⟨1, 0⟩).disp = (at2 ⟨3, 0⟩).disp - (at2 0).disp := by
  refine ⟨⟨⟨1, 0⟩, ⟨⟨1, 0⟩, ?_, ?_⟩, ⟨0, ?_, ?_⟩⟩, ?_⟩
  · simp [InDisc, V2.norm, V2.dot]
  · simp [at2, Dec2.tr, M2.apply, V2.ext_iff]
  · simp [InDisc, V2.norm, V2.dot]
  · simp [at2, Dec2.tr, M2.apply, V2.ext_iff]
  · simp only [at2]; ext <;> norm_num

/-- Two overlapping squares that move together. -/
example : ∃ c, gjkToi closest2 V2.normalize 0 100000 ((Prim2.square (Square.new 2)).supportPoint (at2 0).tr) ((Prim2.square (Square.new 2)).supportPoint (at2 ⟨1, 1⟩).tr)
    ((at2 0).tr.point 0) ((at2 ⟨4, 0⟩).tr.point 0) ((at2 ⟨1, 1⟩).tr.point 0) ((at2 ⟨5, 1⟩).tr.point 0) (fun t p => (Dec2.translationInterpolate (at2 ⟨1, 1⟩) (at2 ⟨5, 1⟩) t).tr.point p) =
      .ok (some c) ∧ c.toi = 0 := by
  obtain ⟨r, h, h1, h2⟩ := c93_prim2_partial (.square (Square.new 2)) (.square (Square.new 2)) ⟨2, by norm_num, rfl⟩ ⟨2, by norm_num, rfl⟩ nofun nofun (at2 0) (at2 ⟨4, 0⟩) (at2 ⟨1, 1⟩) (at2 ⟨5, 1⟩)
    (by simp [at2, M2.Orthogonal, V2.dot]) (by simp [at2, M2.Orthogonal, V2.dot]) (by simp [at2]) (by simp [at2]) (by simp only [at2]; ext <;> norm_num) le_rfl 100000
    (by simp [Prim2.verts, Square.new, Rectangle.new, Rectangle.newImpl, Rectangle.generateCorners])
  cases r with
  | none =>
    exfalso
    apply h1 rfl
    refine ⟨⟨1, 1⟩, ⟨⟨1, 1⟩, ?_, ?_⟩, ⟨0, ?_, ?_⟩⟩
    · norm_num [Prim2.Points, InRect, Square.new, Rectangle.new, Rectangle.newImpl]
    · simp [at2, Dec2.tr, M2.apply, V2.ext_iff]
    · norm_num [Prim2.Points, InRect, Square.new, Rectangle.new, Rectangle.newImpl]
    · simp [at2, Dec2.tr, M2.apply, V2.ext_iff]
  | some c => exact ⟨c, h, (h2 c rfl).1⟩
end
end Verif.Minkowski
