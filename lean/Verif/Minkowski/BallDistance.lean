import Verif.Minkowski.Balls3
import Verif.Minkowski.DistanceCycle
/-!
# The distance of two circles and of two spheres (C95)
-/
namespace Verif.Minkowski
open Verif Geom Primitive
set_option linter.unusedSectionVars false
noncomputable section
open Classical

/-- The point of a segment nearest to the origin is the only point of the segment with both ends beyond it. -/
theorem closestOnEdge3_eq {a b v : V3 ℝ} (hab : a ≠ b) (hv : OnSeg3 a b v) (h1 : v.dot v ≤ a.dot v) (h2 : v.dot v ≤ b.dot v) :
    closestOnEdge3 a b = some v := by
  have hne : b - a ≠ 0 := by
    intro e
    apply hab
    have hx := congrArg V3.x e
    have hy := congrArg V3.y e
    have hz := congrArg V3.z e
    simp at hx hy hz
    ext <;> linarith
  obtain ⟨c, hc⟩ : ∃ c, closestOnEdge3 a b = some c := by
    unfold closestOnEdge3
    simp only [hne, if_false]
    exact ⟨_, rfl⟩
  rw [hc]
  congr 1
  obtain ⟨-, ⟨t, t0, t1, h3⟩, h4, h5⟩ := closestOnEdge3_spec hc
  obtain ⟨u, u0, u1, h6⟩ := hv
  have e1 : c.dot c ≤ v.dot c := by
    have : v.dot c = a.dot c * (1 - u) + b.dot c * u := by rw [h6]; simp [V3.dot]; ring
    nlinarith
  have e2 : v.dot v ≤ c.dot v := by
    have : c.dot v = a.dot v * (1 - t) + b.dot v * t := by rw [h3]; simp [V3.dot]; ring
    nlinarith
  have e3 : (c.x - v.x) ^ 2 + (c.y - v.y) ^ 2 + (c.z - v.z) ^ 2 ≤ 0 := by simp only [V3.dot] at e1 e2; nlinarith
  have hx : c.x - v.x = 0 := by nlinarith [sq_nonneg (c.x - v.x), sq_nonneg (c.y - v.y), sq_nonneg (c.z - v.z)]
  have hy : c.y - v.y = 0 := by nlinarith [sq_nonneg (c.x - v.x), sq_nonneg (c.y - v.y), sq_nonneg (c.z - v.z)]
  have hz : c.z - v.z = 0 := by nlinarith [sq_nonneg (c.x - v.x), sq_nonneg (c.y - v.y), sq_nonneg (c.z - v.z)]
  ext <;> linarith

theorem closest3_edge {s0 s1 : SP (V3 ℝ)} {v : V3 ℝ} (hv : closestOnEdge3 s1.v s0.v = some v) : closest3 [s0, s1] = .ok (some v, [s0, s1]) := by
  have h : (reduce3 [s0, s1] (0 : V3 ℝ)).1 = false ∧ (reduce3 [s0, s1] (0 : V3 ℝ)).2.1 = [s0, s1] := by
    unfold reduce3
    simp
  unfold closest3
  simp only [h.1, h.2, hv, Bool.false_eq_true, if_false]

/-- The first two support points of two discs lie on the line of the centres. -/
theorem discs_start {left right : V2 ℝ → Res (V2 ℝ)} {cl cr : V2 ℝ} {rl rr : ℝ} (hl : DiscFn left cl rl) (hr : DiscFn right cr rr) {d : V2 ℝ}
    (h : (cr - cl = 0 ∧ d = Inner.ones) ∨ (cr - cl ≠ 0 ∧ d = cr - cl)) :
    ∃ (u : V2 ℝ) (p0 p1 : SP (V2 ℝ)), d ≠ 0 ∧ u.dot u = 1 ∧ cl - cr = u * (-(cl - cr).norm) ∧
      SP.fromMinkowski left right d = .ok p0 ∧ SP.fromMinkowski left right (-d) = .ok p1 ∧
      p0.v = u * (rl + rr - (cl - cr).norm) ∧ p1.v = u * (-(rl + rr + (cl - cr).norm)) := by
  set c := cl - cr with hc
  set ρ := rl + rr with hρ
  set δ := c.norm with hδ
  have unit : ∀ d : V2 ℝ, d ≠ 0 → (d * (1 / d.norm)).dot (d * (1 / d.norm)) = 1 := by
    intro d hne
    have hn := V2.norm_pos hne
    have := V2.norm_sq d
    have e : (d * (1 / d.norm)).dot (d * (1 / d.norm)) = d.dot d * (1 / d.norm * (1 / d.norm)) := by simp only [V2.dot, V2.mul_x, V2.mul_y]; ring
    rw [e, ← this]; field_simp
  have hfd : d ≠ 0 ∧ ∃ u : V2 ℝ, u.dot u = 1 ∧ d = u * d.norm ∧ c = u * (-δ) := by
    rcases h with ⟨h0, hd1⟩ | ⟨h0, hd1⟩
    · have hc0 : c = 0 := by
        rw [hc]
        have h1 := congrArg V2.x h0
        have h2 := congrArg V2.y h0
        simp at h1 h2
        ext <;> simp <;> linarith
      have hd2 : d = ⟨1, 1⟩ := hd1
      have hne : d ≠ 0 := by rw [hd2]; intro h; have := congrArg V2.x h; norm_num at this
      have hn := V2.norm_pos hne
      refine ⟨hne, d * (1 / d.norm), unit d hne, ?_, ?_⟩
      · ext <;> simp <;> field_simp
      · rw [hδ, hc0, (V2.norm_eq_zero 0).mpr rfl]; ext <;> simp
    · have hne : d ≠ 0 := by rw [hd1]; exact h0
      have hn := V2.norm_pos hne
      have hdn : d.norm = δ := by rw [hd1, hδ, hc, V2.norm_sub_comm]
      refine ⟨hne, d * (1 / d.norm), unit d hne, ?_, ?_⟩
      · ext <;> simp <;> field_simp
      · rw [← hdn, hc]
        ext <;> simp <;> field_simp <;> rw [hd1] <;> simp
  obtain ⟨hne, u, hu, hdu, hcu⟩ := hfd
  have hn := V2.norm_pos hne
  obtain ⟨p0, hp0, v0⟩ := disc_mink hl hr hne
  obtain ⟨p1, hp1, v1⟩ := disc_mink hl hr (neg_ne2 hne)
  refine ⟨u, p0, p1, hne, hu, hcu, hp0, hp1, ?_, ?_⟩
  · rw [v0, ← hc, ← hρ, hcu]
    rw [show d * (ρ / d.norm) = u * ρ from by conv_lhs => arg 1; rw [hdu]
                                              ext <;> simp <;> field_simp]
    ext <;> simp <;> ring
  · rw [v1, ← hc, ← hρ, hcu, V2.norm_neg]
    rw [show -d * (ρ / d.norm) = u * (-ρ) from by conv_lhs => arg 1; rw [hdu]
                                                  ext <;> simp <;> field_simp]
    ext <;> simp <;> ring

/-- The distance of two discs, in closed form. -/
theorem discs_distance {left right : V2 ℝ → Res (V2 ℝ)} {cl cr : V2 ℝ} {rl rr : ℝ} (hl : DiscFn left cl rl) (hr : DiscFn right cr rr) (hρ : 0 < rl + rr)
    {tolerance : ℝ} (htol : 0 < tolerance) (n : Nat) (nan : Res (SP (V2 ℝ))) :
    gjkDistance closest2 tolerance (n + 1) left right nan cl cr =
      .ok (if (cl - cr).norm ≤ rl + rr then none else some ((cl - cr).norm - (rl + rr))) := by
  have h0 : ∃ d, d = @firstDirection (V2 ℝ) ℝ _ _ (fun a b => propDecidable (a = b)) _ cl cr ∧ ((cr - cl = 0 ∧ d = Inner.ones) ∨ (cr - cl ≠ 0 ∧ d = cr - cl)) := by
    refine ⟨_, rfl, ?_⟩
    unfold firstDirection
    dsimp only
    split
    · rename_i h; exact Or.inl ⟨h, rfl⟩
    · rename_i h; exact Or.inr ⟨h, rfl⟩
  obtain ⟨d, hd, h1⟩ := h0
  obtain ⟨u, p0, p1, hne, hu, hc, hp0, hp1, v0, v1⟩ := discs_start hl hr h1
  have hδ0 : 0 ≤ (cl - cr).norm := V2.norm_nonneg _
  set ρ := rl + rr with hρd
  generalize hδ : (cl - cr).norm = δ at *
  have hdot : ∀ a b : ℝ, (u * a).dot (u * b) = a * b := by
    intro a b
    have : (u * a).dot (u * b) = u.dot u * (a * b) := by simp only [V2.dot, V2.mul_x, V2.mul_y]; ring
    rw [this, hu, one_mul]
  have hp01 : p1.v ≠ p0.v := by
    intro e
    have e2 : (p1.v - p0.v).dot (p1.v - p0.v) = (2 * ρ) * (2 * ρ) := by
      rw [v0, v1, show u * (-(ρ + δ)) - u * (ρ - δ) = u * (-(2 * ρ)) by ext <;> simp <;> ring, hdot]; ring
    rw [e] at e2
    have : (p0.v - p0.v).dot (p0.v - p0.v) = 0 := by simp [V2.dot]
    rw [this] at e2
    nlinarith
  unfold gjkDistance
  dsimp only
  rw [← hd, hp0, Res.bind_ok, hp1, Res.bind_ok]
  unfold distanceLoop
  by_cases hle : δ ≤ ρ
  · rw [if_pos hle]
    have hc0 : closestOnEdge2 p1.v p0.v = some 0 := by
      refine closestOnEdge2_eq hp01 ⟨(ρ + δ) / (2 * ρ), by positivity, by rw [div_le_one (by positivity)]; linarith, ?_⟩ (by simp [V2.dot]) (by simp [V2.dot])
      rw [v0, v1]
      ext <;> simp <;> field_simp <;> ring
    simp only [closest2_edge hc0, Res.bind_ok, if_true, Res.pure_eq]
  · rw [if_neg hle]
    push Not at hle
    have hc0 : closestOnEdge2 p1.v p0.v = some (u * (ρ - δ)) := by
      refine closestOnEdge2_eq hp01 ⟨1, zero_le_one, le_refl 1, ?_⟩ ?_ ?_
      · rw [v0, v1]; ext <;> simp
      · rw [v1, hdot, hdot]; nlinarith
      · rw [v0]
    have hv0 : u * (ρ - δ) ≠ 0 := by
      intro e
      have := hdot (ρ - δ) (ρ - δ)
      rw [e] at this
      simp [V2.dot] at this
      linarith
    obtain ⟨p, hp, vp⟩ := disc_mink hl hr (neg_ne2 hv0)
    have hnorm : (-(u * (ρ - δ))).norm = δ - ρ := by
      rw [V2.norm_neg, V2.norm_smul, abs_of_neg (by linarith)]
      have : u.norm = 1 := by unfold V2.norm; rw [hu, Real.sqrt_one]
      rw [this]; ring
    have hpv : p.v = u * (ρ - δ) := by
      rw [vp, hnorm, hc]
      have : ρ - δ ≠ 0 := by intro h; linarith
      have : δ - ρ ≠ 0 := by intro h; linarith
      ext <;> simp only [V2.add_x, V2.mul_x, V2.neg_x, V2.add_y, V2.mul_y, V2.neg_y] <;> rw [← hρd] <;> field_simp <;> ring
    simp only [closest2_edge hc0, Res.bind_ok, if_neg hv0, hp, List.getElem?_cons_zero, Res.ofOption_some, hpv, v0, sub_self, if_pos htol, Res.pure_eq]
    congr 2

/-- The first two support points of two balls lie on the line of the centres. -/
theorem balls_start {left right : V3 ℝ → Res (V3 ℝ)} {cl cr : V3 ℝ} {rl rr : ℝ} (hl : BallFn left cl rl) (hr : BallFn right cr rr) {d : V3 ℝ}
    (h : (cr - cl = 0 ∧ d = Inner.ones) ∨ (cr - cl ≠ 0 ∧ d = cr - cl)) :
    ∃ (u : V3 ℝ) (p0 p1 : SP (V3 ℝ)), d ≠ 0 ∧ u.dot u = 1 ∧ cl - cr = u * (-(cl - cr).norm) ∧
      SP.fromMinkowski left right d = .ok p0 ∧ SP.fromMinkowski left right (-d) = .ok p1 ∧
      p0.v = u * (rl + rr - (cl - cr).norm) ∧ p1.v = u * (-(rl + rr + (cl - cr).norm)) := by
  set c := cl - cr with hc
  set ρ := rl + rr with hρ
  set δ := c.norm with hδ
  have unit : ∀ d : V3 ℝ, d ≠ 0 → (d * (1 / d.norm)).dot (d * (1 / d.norm)) = 1 := by
    intro d hne
    have hn := V3.norm_pos hne
    have := V3.norm_sq d
    have e : (d * (1 / d.norm)).dot (d * (1 / d.norm)) = d.dot d * (1 / d.norm * (1 / d.norm)) := by simp only [V3.dot, V3.mul_x, V3.mul_y, V3.mul_z]; ring
    rw [e, ← this]; field_simp
  have hfd : d ≠ 0 ∧ ∃ u : V3 ℝ, u.dot u = 1 ∧ d = u * d.norm ∧ c = u * (-δ) := by
    rcases h with ⟨h0, hd1⟩ | ⟨h0, hd1⟩
    · have hc0 : c = 0 := by
        rw [hc]
        have h1 := congrArg V3.x h0
        have h2 := congrArg V3.y h0
        have h3 := congrArg V3.z h0
        simp at h1 h2 h3
        ext <;> simp <;> linarith
      have hd2 : d = ⟨1, 1, 1⟩ := hd1
      have hne : d ≠ 0 := by rw [hd2]; intro h; have := congrArg V3.x h; norm_num at this
      have hn := V3.norm_pos hne
      refine ⟨hne, d * (1 / d.norm), unit d hne, ?_, ?_⟩
      · ext <;> simp <;> field_simp
      · rw [hδ, hc0, (V3.norm_eq_zero 0).mpr rfl]; ext <;> simp
    · have hne : d ≠ 0 := by rw [hd1]; exact h0
      have hn := V3.norm_pos hne
      have hdn : d.norm = δ := by rw [hd1, hδ, hc, V3.norm_sub_comm]
      refine ⟨hne, d * (1 / d.norm), unit d hne, ?_, ?_⟩
      · ext <;> simp <;> field_simp
      · rw [← hdn, hc]
        ext <;> simp <;> field_simp <;> rw [hd1] <;> simp
  obtain ⟨hne, u, hu, hdu, hcu⟩ := hfd
  have hn := V3.norm_pos hne
  obtain ⟨p0, hp0, v0⟩ := ball_mink hl hr hne
  obtain ⟨p1, hp1, v1⟩ := ball_mink hl hr (neg_ne3 hne)
  refine ⟨u, p0, p1, hne, hu, hcu, hp0, hp1, ?_, ?_⟩
  · rw [v0, ← hc, ← hρ, hcu]
    rw [show d * (ρ / d.norm) = u * ρ from by conv_lhs => arg 1; rw [hdu]
                                              ext <;> simp <;> field_simp]
    ext <;> simp <;> ring
  · rw [v1, ← hc, ← hρ, hcu, V3.norm_neg]
    rw [show -d * (ρ / d.norm) = u * (-ρ) from by conv_lhs => arg 1; rw [hdu]
                                                  ext <;> simp <;> field_simp]
    ext <;> simp <;> ring

/-- The distance of two balls, in closed form. -/
theorem balls_distance {left right : V3 ℝ → Res (V3 ℝ)} {cl cr : V3 ℝ} {rl rr : ℝ} (hl : BallFn left cl rl) (hr : BallFn right cr rr) (hρ : 0 < rl + rr)
    {tolerance : ℝ} (htol : 0 < tolerance) (n : Nat) (nan : Res (SP (V3 ℝ))) :
    gjkDistance closest3 tolerance (n + 1) left right nan cl cr =
      .ok (if (cl - cr).norm ≤ rl + rr then none else some ((cl - cr).norm - (rl + rr))) := by
  have h0 : ∃ d, d = @firstDirection (V3 ℝ) ℝ _ _ (fun a b => propDecidable (a = b)) _ cl cr ∧ ((cr - cl = 0 ∧ d = Inner.ones) ∨ (cr - cl ≠ 0 ∧ d = cr - cl)) := by
    refine ⟨_, rfl, ?_⟩
    unfold firstDirection
    dsimp only
    split
    · rename_i h; exact Or.inl ⟨h, rfl⟩
    · rename_i h; exact Or.inr ⟨h, rfl⟩
  obtain ⟨d, hd, h1⟩ := h0
  obtain ⟨u, p0, p1, hne, hu, hc, hp0, hp1, v0, v1⟩ := balls_start hl hr h1
  have hδ0 : 0 ≤ (cl - cr).norm := V3.norm_nonneg _
  set ρ := rl + rr with hρd
  generalize hδ : (cl - cr).norm = δ at *
  have hdot : ∀ a b : ℝ, (u * a).dot (u * b) = a * b := by
    intro a b
    have : (u * a).dot (u * b) = u.dot u * (a * b) := by simp only [V3.dot, V3.mul_x, V3.mul_y, V3.mul_z]; ring
    rw [this, hu, one_mul]
  have hp01 : p1.v ≠ p0.v := by
    intro e
    have e2 : (p1.v - p0.v).dot (p1.v - p0.v) = (2 * ρ) * (2 * ρ) := by
      rw [v0, v1, show u * (-(ρ + δ)) - u * (ρ - δ) = u * (-(2 * ρ)) by ext <;> simp <;> ring, hdot]; ring
    rw [e] at e2
    have : (p0.v - p0.v).dot (p0.v - p0.v) = 0 := by simp [V3.dot]
    rw [this] at e2
    nlinarith
  unfold gjkDistance
  dsimp only
  rw [← hd, hp0, Res.bind_ok, hp1, Res.bind_ok]
  unfold distanceLoop
  by_cases hle : δ ≤ ρ
  · rw [if_pos hle]
    have hc0 : closestOnEdge3 p1.v p0.v = some 0 := by
      refine closestOnEdge3_eq hp01 ⟨(ρ + δ) / (2 * ρ), by positivity, by rw [div_le_one (by positivity)]; linarith, ?_⟩ (by simp [V3.dot]) (by simp [V3.dot])
      rw [v0, v1]
      ext <;> simp <;> field_simp <;> ring
    simp only [closest3_edge hc0, Res.bind_ok, if_true, Res.pure_eq]
  · rw [if_neg hle]
    push Not at hle
    have hc0 : closestOnEdge3 p1.v p0.v = some (u * (ρ - δ)) := by
      refine closestOnEdge3_eq hp01 ⟨1, zero_le_one, le_refl 1, ?_⟩ ?_ ?_
      · rw [v0, v1]; ext <;> simp
      · rw [v1, hdot, hdot]; nlinarith
      · rw [v0]
    have hv0 : u * (ρ - δ) ≠ 0 := by
      intro e
      have := hdot (ρ - δ) (ρ - δ)
      rw [e] at this
      simp [V3.dot] at this
      linarith
    obtain ⟨p, hp, vp⟩ := ball_mink hl hr (neg_ne3 hv0)
    have hnorm : (-(u * (ρ - δ))).norm = δ - ρ := by
      rw [V3.norm_neg, V3.norm_smul, abs_of_neg (by linarith)]
      have : u.norm = 1 := by unfold V3.norm; rw [hu, Real.sqrt_one]
      rw [this]; ring
    have hpv : p.v = u * (ρ - δ) := by
      rw [vp, hnorm, hc]
      have : ρ - δ ≠ 0 := by intro h; linarith
      have : δ - ρ ≠ 0 := by intro h; linarith
      ext <;> simp only [V3.add_x, V3.mul_x, V3.neg_x, V3.add_y, V3.mul_y, V3.neg_y, V3.add_z, V3.mul_z, V3.neg_z] <;> rw [← hρd] <;> field_simp <;> ring
    simp only [closest3_edge hc0, Res.bind_ok, if_neg hv0, hp, List.getElem?_cons_zero, Res.ofOption_some, hpv, v0, sub_self, if_pos htol, Res.pure_eq]
    congr 2

/-- **C95 for circles.** Two circles in any placement that turns, scales and moves, not both of radius zero: with at least one iteration and a positive tolerance,
`GJK2::distance` returns `None` exactly when the circles touch or overlap, and otherwise the exact distance: that of the centres less the radii. -/
theorem c95_circles (s t : Circle) (D E : Dec2 ℝ) (hD : D.rot.Orthogonal) (hE : E.rot.Orthogonal) (hDs : D.scale ≠ 0) (hEs : E.scale ≠ 0)
    (hρ : 0 < s.radius * |D.scale| + t.radius * |E.scale|) {tolerance : ℝ} (htol : 0 < tolerance) (n : Nat) (hn : 0 < n) (nan : Res (SP (V2 ℝ))) :
    gjkDistance closest2 tolerance n (s.supportPoint D.tr) (t.supportPoint E.tr) nan (D.tr.point 0) (E.tr.point 0) =
      .ok (if (D.disp - E.disp).norm ≤ s.radius * |D.scale| + t.radius * |E.scale| then none
        else some ((D.disp - E.disp).norm - (s.radius * |D.scale| + t.radius * |E.scale|))) := by
  obtain ⟨n, rfl⟩ : ∃ m, n = m + 1 := ⟨n - 1, by omega⟩
  have hz : D.tr.point 0 = D.disp := by simp only [Dec2.tr]; ext <;> simp [M2.apply]
  have hz' : E.tr.point 0 = E.disp := by simp only [Dec2.tr]; ext <;> simp [M2.apply]
  rw [hz, hz']
  exact discs_distance (circle_disc s D hD hDs) (circle_disc t E hE hEs) hρ htol n nan

/-- **C95 for spheres.** -/
theorem c95_spheres (s t : Ball) (D E : Dec3 ℝ) (hD : D.rot.Orthogonal) (hE : E.rot.Orthogonal) (hDs : D.scale ≠ 0) (hEs : E.scale ≠ 0)
    (hρ : 0 < s.radius * |D.scale| + t.radius * |E.scale|) {tolerance : ℝ} (htol : 0 < tolerance) (n : Nat) (hn : 0 < n) (nan : Res (SP (V3 ℝ))) :
    gjkDistance closest3 tolerance n (s.supportPoint D.tr) (t.supportPoint E.tr) nan (D.tr.point 0) (E.tr.point 0) =
      .ok (if (D.disp - E.disp).norm ≤ s.radius * |D.scale| + t.radius * |E.scale| then none
        else some ((D.disp - E.disp).norm - (s.radius * |D.scale| + t.radius * |E.scale|))) := by
  obtain ⟨n, rfl⟩ : ∃ m, n = m + 1 := ⟨n - 1, by omega⟩
  rw [tr_zero3, tr_zero3]
  exact balls_distance (sphere_ball s D hD hDs) (sphere_ball t E hE hEs) hρ htol n nan

theorem particle_disc (D : Dec2 ℝ) : DiscFn (Prim2.particle.supportPoint D.tr) D.disp 0 := by
  intro d _
  have hz : D.tr.point 0 = D.disp := by simp only [Dec2.tr]; ext <;> simp [M2.apply]
  simp only [Prim2.supportPoint, hz]
  congr 1
  ext <;> simp

theorem particle_ball (D : Dec3 ℝ) (nz : V3 ℝ → Bool) : BallFn (Prim3.particle.supportPoint nz D.tr) D.disp 0 := by
  intro d _
  simp only [Prim3.supportPoint, tr_zero3]
  congr 1
  ext <;> simp

/-- **C95, circle and particle**: the distance of the particle from the rim, `None` when it is in the circle. -/
theorem c95_circle_particle (s : Circle) (D E : Dec2 ℝ) (hD : D.rot.Orthogonal) (hDs : D.scale ≠ 0) (hs : 0 < s.radius) {tolerance : ℝ} (htol : 0 < tolerance) (n : Nat)
    (hn : 0 < n) (nan : Res (SP (V2 ℝ))) :
    gjkDistance closest2 tolerance n (s.supportPoint D.tr) (Prim2.particle.supportPoint E.tr) nan (D.tr.point 0) (E.tr.point 0) =
      .ok (if (D.disp - E.disp).norm ≤ s.radius * |D.scale| then none else some ((D.disp - E.disp).norm - s.radius * |D.scale|)) := by
  obtain ⟨n, rfl⟩ : ∃ m, n = m + 1 := ⟨n - 1, by omega⟩
  have hz : D.tr.point 0 = D.disp := by simp only [Dec2.tr]; ext <;> simp [M2.apply]
  have hz' : E.tr.point 0 = E.disp := by simp only [Dec2.tr]; ext <;> simp [M2.apply]
  have h0 : 0 < s.radius * |D.scale| + 0 := by have := abs_pos.mpr hDs; positivity
  rw [hz, hz', discs_distance (circle_disc s D hD hDs) (particle_disc E) h0 htol n nan, add_zero]

/-- **C95, sphere and particle.** -/
theorem c95_sphere_particle (s : Ball) (nz : V3 ℝ → Bool) (D E : Dec3 ℝ) (hD : D.rot.Orthogonal) (hDs : D.scale ≠ 0) (hs : 0 < s.radius) {tolerance : ℝ} (htol : 0 < tolerance)
    (n : Nat) (hn : 0 < n) (nan : Res (SP (V3 ℝ))) :
    gjkDistance closest3 tolerance n (s.supportPoint D.tr) (Prim3.particle.supportPoint nz E.tr) nan (D.tr.point 0) (E.tr.point 0) =
      .ok (if (D.disp - E.disp).norm ≤ s.radius * |D.scale| then none else some ((D.disp - E.disp).norm - s.radius * |D.scale|)) := by
  obtain ⟨n, rfl⟩ : ∃ m, n = m + 1 := ⟨n - 1, by omega⟩
  have h0 : 0 < s.radius * |D.scale| + 0 := by have := abs_pos.mpr hDs; positivity
  rw [tr_zero3, tr_zero3, balls_distance (sphere_ball s D hD hDs) (particle_ball E nz) h0 htol n nan, add_zero]

/-- Two spheres of radius 1, one of them doubled in size and five units away: two units apart. -/
example (nan : Res (SP (V3 ℝ))) : gjkDistance closest3 (1 / 1000000) 100 ((Ball.mk 1).supportPoint (shift3 0 0 0).tr)
    ((Ball.mk 1).supportPoint (⟨2, ⟨⟨1, 0, 0⟩, ⟨0, 1, 0⟩, ⟨0, 0, 1⟩⟩, ⟨3, 4, 0⟩⟩ : Dec3 ℝ).tr) nan ((shift3 0 0 0).tr.point 0)
    ((⟨2, ⟨⟨1, 0, 0⟩, ⟨0, 1, 0⟩, ⟨0, 0, 1⟩⟩, ⟨3, 4, 0⟩⟩ : Dec3 ℝ).tr.point 0) = .ok (some 2) := by
  rw [c95_spheres ⟨1⟩ ⟨1⟩ (shift3 0 0 0) ⟨2, ⟨⟨1, 0, 0⟩, ⟨0, 1, 0⟩, ⟨0, 0, 1⟩⟩, ⟨3, 4, 0⟩⟩ (shift3_orthogonal 0 0 0)
    (shift3_orthogonal 3 4 0) (by simp [shift3]) (by simp) (by simp [shift3]; norm_num) (by norm_num) 100 (by norm_num)]
  have e : ((shift3 0 0 0).disp - (⟨3, 4, 0⟩ : V3 ℝ)).norm = 5 := by
    unfold V3.norm
    rw [show ((shift3 0 0 0).disp - (⟨3, 4, 0⟩ : V3 ℝ)).dot ((shift3 0 0 0).disp - (⟨3, 4, 0⟩ : V3 ℝ)) = 5 * 5 by simp [shift3, V3.dot]; norm_num]
    exact Real.sqrt_mul_self (by norm_num)
  rw [e]
  simp only [shift3]
  norm_num
end
end Verif.Minkowski
