import Verif.Minkowski.Balls
import Verif.Minkowski.Epa3Shapes
/-!
# GJK and EPA on two spheres (C87, 3D)
-/
namespace Verif.Minkowski
open Verif Geom Primitive
set_option linter.unusedSectionVars false
noncomputable section

/-- `f` is the support function of the ball with this centre and radius: for every direction other than zero it returns the point of the surface in that direction. -/
def BallFn (f : V3 ℝ → Res (V3 ℝ)) (c : V3 ℝ) (r : ℝ) : Prop := ∀ d, d ≠ 0 → f d = .ok (c + d * (r / d.norm))

/-- A sphere of the library, placed by a rotation, a non-zero scale and a translation. -/
theorem sphere_ball (s : Ball) (D : Dec3 ℝ) (hD : D.rot.Orthogonal) (hs : D.scale ≠ 0) : BallFn (s.supportPoint D.tr) D.disp (s.radius * |D.scale|) := by
  intro d hd
  have hn := V3.norm_pos hd
  have he : (D.rot.transpose.apply (d / D.scale)).norm = d.norm / |D.scale| := by
    have h1 : (D.rot.transpose.apply (d / D.scale)).dot (D.rot.transpose.apply (d / D.scale)) = (d / D.scale).dot (d / D.scale) := by
      have h2 : ∀ a b : V3 ℝ, (D.rot.transpose.apply a).dot b = a.dot (D.rot.apply b) := by
        intro a b; simp only [M3.transpose, M3.apply, V3.dot, V3.add_x, V3.add_y, V3.add_z, V3.mul_x, V3.mul_y, V3.mul_z]; ring
      rw [h2, hD.2]
    have h3 : d / D.scale = d * (1 / D.scale) := by ext <;> simp [div_eq_mul_inv]
    unfold V3.norm at *
    rw [h1, h3]
    have := V3.norm_smul d (1 / D.scale)
    unfold V3.norm at this
    rw [this, abs_div, abs_one]; ring
  have ha : 0 < |D.scale| := abs_pos.mpr hs
  rw [Ball.supportPoint, supportRound_eq _ _ _ fun e h => dec_inv_ne3 D hD hs hd h]
  show (do let e ← Res.ofOption (if D.scale = 0 then none else some (D.rot.transpose.apply (d / D.scale))); pure (D.tr.point (e.normalizeTo s.radius)) : Res (V3 ℝ)) = _
  rw [if_neg hs]
  show Res.ok _ = _
  congr 1
  show D.rot.apply ((D.rot.transpose.apply (d / D.scale)).normalizeTo s.radius * D.scale) + D.disp = _
  unfold V3.normalizeTo
  rw [he]
  have lin : ∀ (v : V3 ℝ) (k : ℝ), D.rot.apply (v * k) = D.rot.apply v * k := by
    intro v k; ext <;> simp [M3.apply] <;> ring
  rw [lin, lin, hD.2]
  ext <;> simp <;> field_simp <;> ring

theorem ball_mink {left right : V3 ℝ → Res (V3 ℝ)} {cl cr : V3 ℝ} {rl rr : ℝ} (hl : BallFn left cl rl) (hr : BallFn right cr rr) {d : V3 ℝ} (hd : d ≠ 0) :
    ∃ p, SP.fromMinkowski left right d = .ok p ∧ p.v = (cl - cr) + d * ((rl + rr) / d.norm) := by
  refine ⟨⟨(cl + d * (rl / d.norm)) - (cr + -d * (rr / (-d).norm)), cl + d * (rl / d.norm), cr + -d * (rr / (-d).norm)⟩, ?_, ?_⟩
  · unfold SP.fromMinkowski
    rw [hl d hd, hr (-d) (neg_ne3 hd)]; rfl
  · rw [V3.norm_neg]
    ext <;> simp <;> ring

/-- The solid ball with this centre and radius. -/
def SolidBall (c : V3 ℝ) (r : ℝ) (x : V3 ℝ) : Prop := (x - c).norm ≤ r

theorem ball_support {f : V3 ℝ → Res (V3 ℝ)} {c : V3 ℝ} {r : ℝ} (hr : 0 ≤ r) (h : BallFn f c r) : SupportFn3 f (SolidBall c r) := by
  intro d hd
  have hn := V3.norm_pos hd
  refine ⟨_, h d hd, ?_, ?_⟩
  · have e : c + d * (r / d.norm) - c = d.normalizeTo r := by unfold V3.normalizeTo; ext <;> simp
    unfold SolidBall
    rw [e, V3.norm_normalizeTo hd hr]
  · intro q hq
    have h1 := V3.cauchy (q - c) d
    have h2 : (q - c).norm * d.norm ≤ r * d.norm := mul_le_mul_of_nonneg_right hq hn.le
    have e1 : q.dot d = c.dot d + (q - c).dot d := by simp only [V3.dot, V3.sub_x, V3.sub_y, V3.sub_z]; ring
    have e2 : (c + d * (r / d.norm)).dot d = c.dot d + r * d.norm := by
      have e : (c + d * (r / d.norm)).dot d = c.dot d + d.dot d * (r / d.norm) := by simp only [V3.dot, V3.add_x, V3.add_y, V3.add_z, V3.mul_x, V3.mul_y, V3.mul_z]; ring
      rw [e, ← V3.norm_sq]; field_simp
    rw [e1, e2]; linarith

theorem ball_convex (c : V3 ℝ) (r : ℝ) : Convex3 (SolidBall c r) := by
  intro p q t hp hq h0 h1
  unfold SolidBall at *
  have e : p + (q - p) * t - c = (p - c) + ((q - c) - (p - c)) * t := by ext <;> simp <;> ring
  rw [e]
  exact convex_norm3 _ _ h0 h1 hp hq

/-- The first two support points of two balls lie on the line of the centres. -/
theorem gjk_balls_start {left right : V3 ℝ → Res (V3 ℝ)} {cl cr : V3 ℝ} {rl rr : ℝ} (hl : BallFn left cl rl) (hr : BallFn right cr rr) :
    ∃ (d u : V3 ℝ) (p0 p1 : SP (V3 ℝ)), d = firstDirection cl cr ∧ d ≠ 0 ∧ u.dot u = 1 ∧ cl - cr = u * (-(cl - cr).norm) ∧ d = u * d.norm ∧
      SP.fromMinkowski left right d = .ok p0 ∧ SP.fromMinkowski left right (-d) = .ok p1 ∧
      p0.v = u * (rl + rr - (cl - cr).norm) ∧ p1.v = u * (-(rl + rr + (cl - cr).norm)) := by
  obtain ⟨d, hd⟩ : ∃ d, d = firstDirection cl cr := ⟨_, rfl⟩
  set c := cl - cr with hc
  set ρ := rl + rr with hρ
  set δ := c.norm with hδ
  have unit : ∀ d : V3 ℝ, d ≠ 0 → (d * (1 / d.norm)).dot (d * (1 / d.norm)) = 1 := by
    intro d hne
    have hn := V3.norm_pos hne
    have := V3.norm_sq d
    have e : (d * (1 / d.norm)).dot (d * (1 / d.norm)) = d.dot d * (1 / d.norm * (1 / d.norm)) := by simp only [V3.dot, V3.mul_x, V3.mul_y, V3.mul_z]; ring
    rw [e, ← this]; field_simp
  have hfd : d ≠ 0 ∧ ∃ u : V3 ℝ, u.dot u = 1 ∧ d = u * d.norm ∧ c = u * (-δ) := by
    by_cases h0 : cr - cl = 0
    · have hd1 : d = ⟨1, 1, 1⟩ := by rw [hd]; unfold firstDirection; dsimp only; rw [if_pos h0]; rfl
      have hc0 : c = 0 := by
        rw [hc]
        have h1 := congrArg V3.x h0
        have h2 := congrArg V3.y h0
        have h3 := congrArg V3.z h0
        simp at h1 h2 h3
        ext <;> simp <;> linarith
      have hne : d ≠ 0 := by rw [hd1]; intro h; have := congrArg V3.x h; norm_num at this
      have hn := V3.norm_pos hne
      refine ⟨hne, d * (1 / d.norm), unit d hne, ?_, ?_⟩
      · ext <;> simp <;> field_simp
      · rw [hδ, hc0, (V3.norm_eq_zero 0).mpr rfl]; ext <;> simp
    · have hd1 : d = cr - cl := by rw [hd]; unfold firstDirection; dsimp only; rw [if_neg h0]
      have hne : d ≠ 0 := by rw [hd1]; exact h0
      have hn := V3.norm_pos hne
      have hdn : d.norm = δ := by rw [hd1, hδ, hc, V3.norm_sub_comm]
      refine ⟨hne, d * (1 / d.norm), unit d hne, ?_, ?_⟩
      · ext <;> simp <;> field_simp
      · rw [← hdn, hc]
        ext <;> simp <;> field_simp <;> rw [hd1] <;> simp
  obtain ⟨hne, u, hu, hdu, hcu⟩ := hfd
  have hn := V3.norm_pos hne
  obtain ⟨p0, hp0, v0⟩ := ball_mink hl hr hne
  obtain ⟨p1, hp1, v1⟩ := ball_mink hl hr (neg_ne3 hne)
  refine ⟨d, u, p0, p1, hd, hne, hu, hcu, hdu, hp0, hp1, ?_, ?_⟩
  · rw [v0, ← hc, ← hρ, hcu]
    rw [show d * (ρ / d.norm) = u * ρ from by conv_lhs => arg 1; rw [hdu]
                                              ext <;> simp <;> field_simp]
    ext <;> simp <;> ring
  · rw [v1, ← hc, ← hρ, hcu, V3.norm_neg]
    rw [show -d * (ρ / d.norm) = u * (-ρ) from by conv_lhs => arg 1; rw [hdu]
                                                  ext <;> simp <;> field_simp]
    ext <;> simp <;> ring

/-- GJK finds no collision of balls whose centres are as far apart as the radii together. -/
theorem gjk_balls_miss {left right : V3 ℝ → Res (V3 ℝ)} {cl cr : V3 ℝ} {rl rr : ℝ} (hl : BallFn left cl rl) (hr : BallFn right cr rr) (n : Nat)
    (h : rl + rr ≤ (cl - cr).norm) : gjkRun reduce3 n left right cl cr = .ok .miss := by
  obtain ⟨d, u, p0, p1, hd, hne, hu, -, hdu, hp0, -, e0, -⟩ := gjk_balls_start hl hr
  have hn := V3.norm_pos hne
  have dot0 : Inner.dot p0.v d = (rl + rr - (cl - cr).norm) * d.norm := by
    show p0.v.dot d = _
    rw [e0]; conv_lhs => arg 2; rw [hdu]
    have : (u * (rl + rr - (cl - cr).norm)).dot (u * d.norm) = u.dot u * ((rl + rr - (cl - cr).norm) * d.norm) := by simp only [V3.dot, V3.mul_x, V3.mul_y, V3.mul_z]; ring
    rw [this, hu]; ring
  unfold gjkRun
  rw [← hd]
  dsimp only
  rw [hp0, Res.bind_ok, if_pos (by rw [dot0]; nlinarith)]
  rfl

/-- After one iteration: for overlapping balls the third direction is always the first axis. -/
theorem gjk_balls_two {left right : V3 ℝ → Res (V3 ℝ)} {cl cr : V3 ℝ} {rl rr : ℝ} (hl : BallFn left cl rl) (hr : BallFn right cr rr) (n : Nat)
    (h : (cl - cr).norm < rl + rr) : ∃ (u : V3 ℝ) (p0 p1 : SP (V3 ℝ)), u.dot u = 1 ∧ cl - cr = u * (-(cl - cr).norm) ∧ (cl = cr → u.y = u.x) ∧
      p0.v = u * (rl + rr - (cl - cr).norm) ∧ p1.v = u * (-(rl + rr + (cl - cr).norm)) ∧ (∃ d, d ≠ 0 ∧ SP.fromMinkowski left right d = .ok p0) ∧ (∃ d, d ≠ 0 ∧ SP.fromMinkowski left right d = .ok p1) ∧
      gjkRun reduce3 (n + 1) left right cl cr = gjkLoop reduce3 left right n [p0, p1] ⟨1 / 10, 0, 0⟩ := by
  obtain ⟨d, u, p0, p1, hd, hne, hu, hcu, hdu, hp0, hp1, e0, e1⟩ := gjk_balls_start hl hr
  have hn := V3.norm_pos hne
  have hδ0 := V3.norm_nonneg (cl - cr)
  set ρ := rl + rr with hρ
  set δ := (cl - cr).norm with hδ
  have dot0 : Inner.dot p0.v d = (ρ - δ) * d.norm := by
    show p0.v.dot d = _
    rw [e0]; conv_lhs => arg 2; rw [hdu]
    have : (u * (ρ - δ)).dot (u * d.norm) = u.dot u * ((ρ - δ) * d.norm) := by simp only [V3.dot, V3.mul_x, V3.mul_y, V3.mul_z]; ring
    rw [this, hu]; ring
  have dot1 : Inner.dot p1.v (-d) = (ρ + δ) * d.norm := by
    show p1.v.dot (-d) = _
    rw [e1]; conv_lhs => arg 2; rw [hdu]
    have : (u * (-(ρ + δ))).dot (-(u * d.norm)) = u.dot u * ((ρ + δ) * d.norm) := by simp only [V3.dot, V3.mul_x, V3.mul_y, V3.mul_z, V3.neg_x, V3.neg_y, V3.neg_z]; ring
    rw [this, hu]; ring
  refine ⟨u, p0, p1, hu, hcu, ?_, e0, e1, ⟨d, hne, hp0⟩, ⟨-d, neg_ne3 hne, hp1⟩, ?_⟩
  · intro he
    have hd1 : d = ⟨1, 1, 1⟩ := by
      rw [hd]; unfold firstDirection; dsimp only
      rw [if_pos (by rw [he]; ext <;> simp)]; rfl
    have hx := congrArg V3.x hdu
    have hy := congrArg V3.y hdu
    rw [V3.mul_x] at hx
    rw [V3.mul_y] at hy
    have e : d.x = d.y := by rw [hd1]
    rw [hx, hy] at e
    exact (mul_right_cancel₀ hn.ne' e).symm
  · unfold gjkRun
    rw [← hd]
    dsimp only
    rw [hp0, Res.bind_ok, if_neg (by rw [dot0, not_le]; exact mul_pos (by linarith) hn)]
    conv_lhs => unfold gjkLoop
    rw [hp1, Res.bind_ok, if_neg (by rw [dot1, not_le]; exact mul_pos (by linarith) hn)]
    dsimp only [List.cons_append, List.nil_append]
    have hr : reduce3 [p0, p1] (-d) = (false, [p0, p1], ⟨1 / 10, 0, 0⟩) := by
      unfold reduce3
      dsimp only
      have h0 : crossAba (p0.v - p1.v) (-p1.v) = 0 := by
        rw [e0, e1]; unfold crossAba
        ext <;> simp [V3.cross] <;> ring
      rw [if_pos h0, h0]; rfl
    rw [hr]
    dsimp only
    rw [if_neg (by simp)]

/-- Overlapping balls whose centres do not differ along the first axis only: GJK returns a tetrahedron around the origin in three iterations. -/
theorem gjk_balls_hit {left right : V3 ℝ → Res (V3 ℝ)} {cl cr : V3 ℝ} {rl rr : ℝ} (hl0 : 0 ≤ rl) (hr0 : 0 ≤ rr) (hl : BallFn left cl rl) (hr : BallFn right cr rr) (n : Nat)
    (h : (cl - cr).norm < rl + rr) (hx : cl = cr ∨ ¬ (cl.y = cr.y ∧ cl.z = cr.z)) :
    ∃ s, gjkRun reduce3 (n + 3) left right cl cr = .ok (.hit s) ∧ GoodHit3 (SolidBall cl rl) (SolidBall cr rr) s := by
  obtain ⟨u, p0, p1, hu, hcu, huc, e0, e1, ⟨d0, hd0, f0⟩, ⟨d1, hd1, f1⟩, hrun⟩ := gjk_balls_two hl hr (n + 2) h
  have hδ0 := V3.norm_nonneg (cl - cr)
  set ρ := rl + rr with hρ
  set δ := (cl - cr).norm with hδ
  have hρ0 : 0 < ρ := by linarith
  set w : V3 ℝ := ⟨0, -u.z, u.y⟩ with hw
  set σ := u.y ^ 2 + u.z ^ 2 with hσ
  have hux : u.x ^ 2 = 1 - σ := by simp only [V3.dot] at hu; rw [hσ]; linarith
  have hσ0 : 0 < σ := by
    rcases (show 0 ≤ σ from by positivity).eq_or_lt with h0 | h0
    · exfalso
      have hy : u.y = 0 := by nlinarith [sq_nonneg u.y, sq_nonneg u.z]
      have hz : u.z = 0 := by nlinarith [sq_nonneg u.y, sq_nonneg u.z]
      rcases hx with hx | hx
      · have := huc hx
        rw [hy] at this
        rw [← h0, ← this] at hux; norm_num at hux
      · apply hx
        have h1 := congrArg V3.y hcu
        have h2 := congrArg V3.z hcu
        simp [hy, hz] at h1 h2
        constructor <;> linarith
    · exact h0
  have hww : w.dot w = σ := by simp only [hw, V3.dot, hσ]; ring
  -- the third point
  have hxne : (⟨1 / 10, 0, 0⟩ : V3 ℝ) ≠ 0 := by intro h; have := congrArg V3.x h; norm_num at this
  have hxn : (⟨1 / 10, 0, 0⟩ : V3 ℝ).norm = 1 / 10 := by
    unfold V3.norm V3.dot
    rw [show (1 / 10 : ℝ) * (1 / 10) + 0 * 0 + 0 * 0 = (1 / 10) ^ 2 from by ring]
    exact Real.sqrt_sq (by norm_num)
  obtain ⟨p2, hp2, v2⟩ := ball_mink hl hr hxne
  have e2 : p2.v = ⟨-δ * u.x + ρ, -δ * u.y, -δ * u.z⟩ := by
    rw [v2, ← hρ, hxn, hcu]
    ext <;> simp <;> ring
  have hs1 : u.x ≤ 1 := by nlinarith
  have hs2 : -1 ≤ u.x := by nlinarith
  have dot2 : 0 < Inner.dot p2.v (⟨1 / 10, 0, 0⟩ : V3 ℝ) := by
    show 0 < p2.v.dot _
    rw [e2]
    simp only [V3.dot]
    nlinarith
  have r2 : reduce3 [p0, p1, p2] ⟨1 / 10, 0, 0⟩ = (false, [p1, p0, p2], w * (2 * ρ ^ 2)) := by
    unfold reduce3
    dsimp only
    have habc : (p1.v - p2.v).cross (p0.v - p2.v) = -(w * (2 * ρ ^ 2)) := by
      rw [e0, e1, e2]
      ext <;> simp [V3.cross, hw] <;> ring
    rw [habc]
    unfold checkSide
    dsimp only
    have c1 : ((p1.v - p2.v).cross (-(w * (2 * ρ ^ 2)))).dot (-p2.v) = -(2 * ρ ^ 3 * (ρ + δ) * σ) := by
      have : ((p1.v - p2.v).cross (-(w * (2 * ρ ^ 2)))).dot (-p2.v) = -(2 * ρ ^ 3 * (ρ + δ) * σ) + 2 * ρ ^ 3 * (u.x ^ 2 - (1 - σ)) * 0 := by
        rw [e1, e2]
        simp only [V3.cross, V3.dot, V3.sub_x, V3.sub_y, V3.sub_z, V3.mul_x, V3.mul_y, V3.mul_z, V3.neg_x, V3.neg_y, V3.neg_z, hw, hσ]
        ring
      rw [this]; ring
    have c2 : ((-(w * (2 * ρ ^ 2))).cross (p0.v - p2.v)).dot (-p2.v) = -(2 * ρ ^ 3 * (ρ - δ) * σ) := by
      rw [e0, e2]
      simp only [V3.cross, V3.dot, V3.sub_x, V3.sub_y, V3.sub_z, V3.mul_x, V3.mul_y, V3.mul_z, V3.neg_x, V3.neg_y, V3.neg_z, hw, hσ]
      ring
    have c3 : (-(w * (2 * ρ ^ 2))).dot (-p2.v) = 0 := by
      rw [e2]
      simp only [V3.dot, V3.mul_x, V3.mul_y, V3.mul_z, V3.neg_x, V3.neg_y, V3.neg_z, hw]
      ring
    have q1 : 0 < 2 * ρ ^ 3 * (ρ + δ) * σ := by positivity
    have q2 : 0 < 2 * ρ ^ 3 * (ρ - δ) * σ := by
      have : 0 < ρ - δ := by linarith
      positivity
    rw [if_neg (by rw [c1]; rintro ⟨-, h⟩; linarith), if_neg (by rw [c2]; intro h; linarith), if_neg (by rw [c3]; simp)]
    congr 2
    ext <;> simp
  -- the fourth point
  have hsq : 0 < Real.sqrt σ := Real.sqrt_pos.mpr hσ0
  have hsq2 : Real.sqrt σ * Real.sqrt σ = σ := Real.mul_self_sqrt hσ0.le
  set κ := Real.sqrt σ with hκ
  have hwn : (w * (2 * ρ ^ 2)).norm = 2 * ρ ^ 2 * κ := by
    rw [V3.norm_smul, V3.norm, hww, abs_of_pos (by positivity)]; ring
  have hwne : w * (2 * ρ ^ 2) ≠ 0 := by
    intro h0
    have := (V3.norm_eq_zero _).mpr h0
    rw [hwn] at this
    have : 0 < 2 * ρ ^ 2 * κ := by positivity
    linarith
  obtain ⟨p3, hp3, v3⟩ := ball_mink hl hr hwne
  have e3 : p3.v = u * (-δ) + w * (ρ / κ) := by
    rw [v3, ← hρ, hwn, hcu]
    ext <;> simp <;> field_simp
  have dot3 : 0 < Inner.dot p3.v (w * (2 * ρ ^ 2)) := by
    show 0 < p3.v.dot _
    have : p3.v.dot (w * (2 * ρ ^ 2)) = w.dot w * (2 * ρ ^ 2 * (ρ / κ)) := by
      rw [e3]; simp only [V3.dot, V3.add_x, V3.add_y, V3.add_z, V3.mul_x, V3.mul_y, V3.mul_z, hw]; ring
    rw [this, hww]; positivity
  have a1 : p3.v.dot (p2.v.cross p0.v) = ρ * (ρ - δ) * (ρ / κ) * σ := by
    rw [e0, e2, e3]
    simp only [V3.cross, V3.dot, V3.add_x, V3.add_y, V3.add_z, V3.mul_x, V3.mul_y, V3.mul_z, hw, hσ]; ring
  have a2 : p3.v.dot (p0.v.cross p1.v) = 0 := by
    rw [e0, e1, e3]
    simp only [V3.cross, V3.dot, V3.add_x, V3.add_y, V3.add_z, V3.mul_x, V3.mul_y, V3.mul_z, hw]; ring
  have a3 : p3.v.dot (p1.v.cross p2.v) = ρ * (ρ + δ) * (ρ / κ) * σ := by
    rw [e1, e2, e3]
    simp only [V3.cross, V3.dot, V3.add_x, V3.add_y, V3.add_z, V3.mul_x, V3.mul_y, V3.mul_z, hw, hσ]; ring
  have a4 : p2.v.dot (p1.v.cross p0.v) = 0 := by
    rw [e0, e1, e2]
    simp only [V3.cross, V3.dot, V3.mul_x, V3.mul_y, V3.mul_z]; ring
  have hρδ : 0 < ρ - δ := by linarith
  have q1 : 0 < ρ * (ρ - δ) * (ρ / κ) * σ := by positivity
  have q3 : 0 < ρ * (ρ + δ) * (ρ / κ) * σ := by positivity
  have r3 : reduce3 [p1, p0, p2, p3] (w * (2 * ρ ^ 2)) = (true, [p1, p0, p2, p3], w * (2 * ρ ^ 2)) := by
    unfold reduce3
    dsimp only
    have b : ∀ a b c : V3 ℝ, ((b - a).cross (c - a)).dot (-a) = -(a.dot (b.cross c)) := by
      intro a b c
      simp only [V3.dot, V3.cross, V3.sub_x, V3.sub_y, V3.sub_z, V3.neg_x, V3.neg_y, V3.neg_z]; ring
    rw [b, b, b, a1, a2, a3, if_neg (by intro h; linarith), if_neg (by simp), if_neg (by intro h; linarith)]
  refine ⟨[p1, p0, p2, p3], ?_, p1, p0, p2, p3, rfl, ?_, ?_, ?_⟩
  · rw [hrun]
    unfold gjkLoop
    rw [hp2, Res.bind_ok, if_neg (not_le.mpr dot2)]
    dsimp only [List.cons_append, List.nil_append]
    rw [r2]
    dsimp only
    rw [if_neg (by simp)]
    unfold gjkLoop
    rw [hp3, Res.bind_ok, if_neg (not_le.mpr dot3)]
    dsimp only [List.cons_append, List.nil_append]
    rw [r3]
    rfl
  · have hfrom : ∀ d p, d ≠ 0 → SP.fromMinkowski left right d = .ok p → FromShapes3 (SolidBall cl rl) (SolidBall cr rr) p := by
      intro d p hd hp
      obtain ⟨a, ha, hA, -⟩ := ball_support hl0 hl d hd
      obtain ⟨b, hb, hB, -⟩ := ball_support hr0 hr (-d) (neg_ne3 hd)
      unfold SP.fromMinkowski at hp
      rw [ha, hb] at hp
      cases hp
      exact ⟨hA, hB, rfl⟩
    exact ⟨hfrom _ _ hd1 f1, hfrom _ _ hd0 f0, hfrom _ _ hxne hp2, hfrom _ _ hwne hp3⟩
  · refine ⟨(ρ - δ) / (2 * ρ), (ρ + δ) / (2 * ρ), 0, 0, by positivity, by positivity, le_refl _, le_refl _, by field_simp; ring, ?_⟩
    rw [e0, e1]
    ext <;> simp <;> field_simp <;> ring
  · refine ⟨?_, ?_, ?_, ?_, ?_⟩
    · rw [a1]; exact q1.le
    · rw [a2]
    · rw [a3]; exact q3.le
    · rw [a4]
    · rw [a1, a2, a3, a4]; linarith

/-- Overlapping balls whose centres differ along the first axis only: GJK asks the shapes for a support point in direction zero. A sphere has none: the code divides zero by zero. -/
theorem gjk_balls_axis {left right : V3 ℝ → Res (V3 ℝ)} {cl cr : V3 ℝ} {rl rr : ℝ} (hl : BallFn left cl rl) (hr : BallFn right cr rr) (n : Nat)
    (h : (cl - cr).norm < rl + rr) (hne : cl ≠ cr) (hy : cl.y = cr.y) (hz : cl.z = cr.z) (h0 : left 0 = .panic) :
    gjkRun reduce3 (n + 3) left right cl cr = .panic := by
  obtain ⟨u, p0, p1, hu, hcu, -, e0, e1, -, -, hrun⟩ := gjk_balls_two hl hr (n + 2) h
  have hδ0 : 0 < (cl - cr).norm := V3.norm_pos (by
    intro h; apply hne
    have h1 := congrArg V3.x h
    simp at h1
    ext <;> linarith)
  set ρ := rl + rr with hρ
  set δ := (cl - cr).norm with hδ
  have hρ0 : 0 < ρ := by linarith
  have huy : u.y = 0 := by
    have := congrArg V3.y hcu
    simp [hy] at this
    rcases this with h | h
    · exact h
    · linarith
  have huz : u.z = 0 := by
    have := congrArg V3.z hcu
    simp [hz] at this
    rcases this with h | h
    · exact h
    · linarith
  have hux : u.x ^ 2 = 1 := by simp only [V3.dot, huy, huz] at hu; linarith
  have hxne : (⟨1 / 10, 0, 0⟩ : V3 ℝ) ≠ 0 := by intro h; have := congrArg V3.x h; norm_num at this
  have hxn : (⟨1 / 10, 0, 0⟩ : V3 ℝ).norm = 1 / 10 := by
    unfold V3.norm V3.dot
    rw [show (1 / 10 : ℝ) * (1 / 10) + 0 * 0 + 0 * 0 = (1 / 10) ^ 2 from by ring]
    exact Real.sqrt_sq (by norm_num)
  obtain ⟨p2, hp2, v2⟩ := ball_mink hl hr hxne
  have e2 : p2.v = ⟨-δ * u.x + ρ, 0, 0⟩ := by
    rw [v2, ← hρ, hxn, hcu]
    ext <;> simp [huy, huz] <;> ring
  have hs1 : u.x ≤ 1 := by nlinarith
  have hs2 : -1 ≤ u.x := by nlinarith
  have dot2 : 0 < Inner.dot p2.v (⟨1 / 10, 0, 0⟩ : V3 ℝ) := by
    show 0 < p2.v.dot _
    rw [e2]
    simp only [V3.dot]
    nlinarith
  have r2 : reduce3 [p0, p1, p2] ⟨1 / 10, 0, 0⟩ = (false, [p1, p0, p2], 0) := by
    unfold reduce3
    dsimp only
    have habc : (p1.v - p2.v).cross (p0.v - p2.v) = 0 := by
      rw [e0, e1, e2]
      ext <;> simp [V3.cross, huy, huz]
    rw [habc]
    unfold checkSide
    dsimp only
    rw [if_neg (by simp [V3.cross, V3.dot]), if_neg (by simp [V3.cross, V3.dot]), if_neg (by simp [V3.dot])]
    congr 2
    ext <;> simp
  rw [hrun]
  unfold gjkLoop
  rw [hp2, Res.bind_ok, if_neg (not_le.mpr dot2)]
  dsimp only [List.cons_append, List.nil_append]
  rw [r2]
  dsimp only
  rw [if_neg (by simp)]
  unfold gjkLoop
  unfold SP.fromMinkowski
  rw [h0]
  rfl

/-- C87 for spheres: with at least three iterations, and unless the centres differ along the first axis only, GJK reports a collision exactly when the distance of the centres is smaller than
the sum of the radii (as scaled by the placements). Full resolution then gives a contact with a unit normal and a depth at most the sum of the radii less the distance of the centres, and short of
that by less than the tolerance when the tolerance test ends the expansion. -/
theorem c87_spheres_partial (s t : Ball) (hs : 0 ≤ s.radius) (ht : 0 ≤ t.radius) (D E : Dec3 ℝ) (hD : D.rot.Orthogonal) (hE : E.rot.Orthogonal) (hDs : D.scale ≠ 0) (hEs : E.scale ≠ 0)
    (hx : D.disp = E.disp ∨ ¬ (D.disp.y = E.disp.y ∧ D.disp.z = E.disp.z)) (tolerance : ℝ) (n m : Nat) :
    (s.radius * |D.scale| + t.radius * |E.scale| ≤ (D.disp - E.disp).norm →
      gjkIntersect reduce3 (n + 3) (s.supportPoint D.tr) (t.supportPoint E.tr) (D.tr.point 0) (E.tr.point 0) = .ok none) ∧
    ((D.disp - E.disp).norm < s.radius * |D.scale| + t.radius * |E.scale| →
      ∃ simplex k converged, gjkIntersect reduce3 (n + 3) (s.supportPoint D.tr) (t.supportPoint E.tr) (D.tr.point 0) (E.tr.point 0) = .ok (some simplex) ∧
        epa3 tolerance m (s.supportPoint D.tr) (t.supportPoint E.tr) simplex = .ok (some (.contact k converged)) ∧
        k.normal.norm = 1 ∧ 0 ≤ k.depth ∧ k.depth ≤ s.radius * |D.scale| + t.radius * |E.scale| - (D.disp - E.disp).norm ∧
        (converged = true → s.radius * |D.scale| + t.radius * |E.scale| - (D.disp - E.disp).norm < k.depth + tolerance)) := by
  rw [tr_zero3, tr_zero3]
  have b1 := sphere_ball s D hD hDs
  have b2 := sphere_ball t E hE hEs
  have hl0 : 0 ≤ s.radius * |D.scale| := by positivity
  have hr0 : 0 ≤ t.radius * |E.scale| := by positivity
  constructor
  · intro h
    unfold gjkIntersect
    rw [gjk_balls_miss b1 b2 _ h]; rfl
  · intro h
    obtain ⟨x, hrun, good⟩ := gjk_balls_hit hl0 hr0 b1 b2 n h hx
    have s1 := ball_support hl0 b1
    have s2 := ball_support hr0 b2
    obtain ⟨k, cv, hk, g1, g2, g3, g4, -⟩ := epa3_exact (ball_convex _ _) (ball_convex _ _) s1 s2 tolerance m good
    refine ⟨x, k, cv, by unfold gjkIntersect; rw [hrun]; rfl, hk, g1, g2, ?_, ?_⟩
    · -- a move of the right ball away from the left one, of the length of the depth, leaves a common point
      obtain ⟨u, hu, hcu⟩ : ∃ u : V3 ℝ, u.dot u = 1 ∧ D.disp - E.disp = u * (-(D.disp - E.disp).norm) := by
        obtain ⟨u, -, -, hu, hcu, -⟩ := gjk_balls_two b1 b2 n h
        exact ⟨u, hu, hcu⟩
      have hnu : u.norm = 1 := by rw [V3.norm, hu, Real.sqrt_one]
      obtain ⟨a, b, ha, hb, hab⟩ := g3 (u * k.depth) (by rw [V3.norm_smul, hnu, one_mul, abs_of_nonneg g2])
      unfold SolidBall at ha hb
      have h1 : (E.disp + u * k.depth - D.disp).norm ≤ s.radius * |D.scale| + t.radius * |E.scale| := by
        have e : E.disp + u * k.depth - D.disp = (a - D.disp) + (E.disp - b) := by
          rw [hab]; ext <;> simp <;> ring
        rw [e]
        refine le_trans (V3.norm_add_le _ _) ?_
        rw [V3.norm_sub_comm E.disp b]
        linarith
      have e : E.disp + u * k.depth - D.disp = u * (k.depth + (D.disp - E.disp).norm) := by
        have e1 : E.disp + u * k.depth - D.disp = u * k.depth - (D.disp - E.disp) := by ext <;> simp <;> ring
        rw [e1]
        conv_lhs => arg 2; rw [hcu]
        ext <;> simp <;> ring
      rw [e, V3.norm_smul, hnu, one_mul] at h1
      have := le_trans (le_abs_self _) h1
      linarith
    · intro hcv
      have hn2 : k.normal.dot k.normal = 1 := by rw [← V3.norm_sq, g1, mul_one]
      have := g4 hcv (D.disp + k.normal * (s.radius * |D.scale|)) (E.disp + k.normal * (-(t.radius * |E.scale|))) (by
        unfold SolidBall
        have e : D.disp + k.normal * (s.radius * |D.scale|) - D.disp = k.normal * (s.radius * |D.scale|) := by ext <;> simp
        rw [e, V3.norm_smul, g1, one_mul, abs_of_nonneg hl0]) (by
        unfold SolidBall
        have e : E.disp + k.normal * (-(t.radius * |E.scale|)) - E.disp = k.normal * (-(t.radius * |E.scale|)) := by ext <;> simp
        rw [e, V3.norm_smul, g1, one_mul, abs_neg, abs_of_nonneg hr0])
      have e1 : ∀ (c : V3 ℝ) (r : ℝ), (c + k.normal * r).dot k.normal = c.dot k.normal + r := by
        intro c r
        have : (c + k.normal * r).dot k.normal = c.dot k.normal + k.normal.dot k.normal * r := by
          simp only [V3.dot, V3.add_x, V3.add_y, V3.add_z, V3.mul_x, V3.mul_y, V3.mul_z]; ring
        rw [this, hn2, one_mul]
      rw [e1, e1, e1] at this
      have h4 := V3.cauchy (-(D.disp - E.disp)) k.normal
      rw [V3.norm_neg, g1, mul_one] at h4
      have h5 : (-(D.disp - E.disp)).dot k.normal = E.disp.dot k.normal - D.disp.dot k.normal := by
        simp only [V3.dot, V3.neg_x, V3.neg_y, V3.neg_z, V3.sub_x, V3.sub_y, V3.sub_z]; ring
      rw [h5] at h4
      linarith

/-- C87 fails for spheres whose centres differ along the first axis only: two unit spheres at the origin and at `(1, 0, 0)` overlap, but whatever iteration limit of at least three is given the
run asks for the support point of a sphere in direction zero. In the code that point has NaN components (the model stops there, see `nanPoint`); every comparison with it is false, so GJK returns
the simplex with the NaN point, and EPA a contact of NaN. -/
theorem c87_false (n : Nat) : gjkIntersect reduce3 (n + 3) ((Ball.mk 1).supportPoint (shift3 0 0 0).tr) ((Ball.mk 1).supportPoint (shift3 1 0 0).tr)
    ((shift3 0 0 0).tr.point 0) ((shift3 1 0 0).tr.point 0) = nanPoint := by
  have b : ∀ x : ℝ, BallFn ((Ball.mk 1).supportPoint (shift3 x 0 0).tr) ⟨x, 0, 0⟩ 1 := by
    intro x d hd
    have := sphere_ball (Ball.mk 1) (shift3 x 0 0) (shift3_orthogonal x 0 0) one_ne_zero d hd
    have e : (Ball.mk 1).radius * |(shift3 x 0 0).scale| = 1 := by simp [shift3]
    rw [e] at this
    exact this
  have hz : (Ball.mk 1).supportPoint (shift3 0 0 0).tr 0 = .panic := by
    have : (shift3 0 0 0).tr.invVector 0 = some 0 := by simp [shift3, Dec3.tr, M3.apply, M3.transpose, V3.ext_iff]
    unfold Ball.supportPoint supportRound
    rw [this]
    simp [nanPoint]
  have hn : ((⟨0, 0, 0⟩ : V3 ℝ) - ⟨1, 0, 0⟩).norm = 1 := by
    unfold V3.norm V3.dot
    simp
  rw [tr_zero3, tr_zero3]
  show gjkIntersect reduce3 (n + 3) _ _ (⟨0, 0, 0⟩ : V3 ℝ) ⟨1, 0, 0⟩ = _
  unfold gjkIntersect
  rw [gjk_balls_axis (b 0) (b 1) n (by rw [hn]; norm_num) (by simp) rfl rfl hz]
  rfl

/-- A case of `c87_spheres_partial`: unit spheres at the origin and at `(0, 1, 0)`. -/
theorem c87_spheres_example (n m : Nat) : ∃ simplex k converged, gjkIntersect reduce3 (n + 3) ((Ball.mk 1).supportPoint (shift3 0 0 0).tr) ((Ball.mk 1).supportPoint (shift3 0 1 0).tr)
      ((shift3 0 0 0).tr.point 0) ((shift3 0 1 0).tr.point 0) = .ok (some simplex) ∧
    epa3 (1 / 100) m ((Ball.mk 1).supportPoint (shift3 0 0 0).tr) ((Ball.mk 1).supportPoint (shift3 0 1 0).tr) simplex = .ok (some (.contact k converged)) ∧ k.depth ≤ 1 ∧
    (converged = true → 99 / 100 < k.depth) := by
  have hn : ((shift3 0 0 0).disp - (shift3 0 1 0).disp).norm = 1 := by
    unfold V3.norm V3.dot
    simp [shift3]
  obtain ⟨x, k, cv, h1, h2, -, -, h3, h4⟩ := (c87_spheres_partial (Ball.mk 1) (Ball.mk 1) zero_le_one zero_le_one (shift3 0 0 0) (shift3 0 1 0) (shift3_orthogonal _ _ _) (shift3_orthogonal _ _ _)
    one_ne_zero one_ne_zero (Or.inr (by simp [shift3])) (1 / 100) n m).2 (by rw [hn]; norm_num [shift3])
  rw [hn] at h3 h4
  refine ⟨x, k, cv, h1, h2, ?_, fun h => ?_⟩
  · norm_num [shift3] at h3; exact h3
  · have := h4 h
    norm_num [shift3] at this; linarith
end
end Verif.Minkowski
