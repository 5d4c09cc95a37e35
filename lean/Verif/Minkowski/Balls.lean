import Verif.Minkowski.Epa2Total
/-!
# GJK on two balls: circles in 2D, spheres in 3D (C87)
-/
namespace Verif.Minkowski
open Verif Geom Primitive
set_option linter.unusedSectionVars false
noncomputable section

/-! ## 2D -/

/-- `f` is the support function of the disc with this centre and radius: for every direction other than zero it returns the point of the rim in that direction. -/
def DiscFn (f : V2 ℝ → Res (V2 ℝ)) (c : V2 ℝ) (r : ℝ) : Prop := ∀ d, d ≠ 0 → f d = .ok (c + d * (r / d.norm))

/-- A circle of the library, placed by a rotation, a non-zero scale and a translation. -/
theorem circle_disc (s : Circle) (D : Dec2 ℝ) (hD : D.rot.Orthogonal) (hs : D.scale ≠ 0) : DiscFn (s.supportPoint D.tr) D.disp (s.radius * |D.scale|) := by
  intro d hd
  have hn := V2.norm_pos hd
  have he : (D.rot.transpose.apply (d / D.scale)).norm = d.norm / |D.scale| := by
    have h1 : (D.rot.transpose.apply (d / D.scale)).dot (D.rot.transpose.apply (d / D.scale)) = (d / D.scale).dot (d / D.scale) := by
      have h2 : ∀ a b : V2 ℝ, (D.rot.transpose.apply a).dot b = a.dot (D.rot.apply b) := by
        intro a b; simp only [M2.transpose, M2.apply, V2.dot, V2.add_x, V2.add_y, V2.mul_x, V2.mul_y]; ring
      rw [h2, M2.right_inv hD]
    have h3 : d / D.scale = d * (1 / D.scale) := by ext <;> simp [div_eq_mul_inv]
    unfold V2.norm at *
    rw [h1, h3]
    have := V2.norm_smul d (1 / D.scale)
    unfold V2.norm at this
    rw [this, abs_div, abs_one]; ring
  have ha : 0 < |D.scale| := abs_pos.mpr hs
  rw [Circle.supportPoint, supportRound_eq _ _ _ fun e h => dec_inv_ne2 D hD hs hd h]
  show (do let e ← Res.ofOption (if D.scale = 0 then none else some (D.rot.transpose.apply (d / D.scale))); pure (D.tr.point (e.normalizeTo s.radius)) : Res (V2 ℝ)) = _
  rw [if_neg hs]
  show Res.ok _ = _
  congr 1
  show D.rot.apply ((D.rot.transpose.apply (d / D.scale)).normalizeTo s.radius * D.scale) + D.disp = _
  unfold V2.normalizeTo
  rw [he]
  have lin : ∀ (v : V2 ℝ) (k : ℝ), D.rot.apply (v * k) = D.rot.apply v * k := by
    intro v k; ext <;> simp [M2.apply] <;> ring
  rw [lin, lin, M2.right_inv hD]
  ext <;> simp <;> field_simp <;> ring

theorem disc_mink {left right : V2 ℝ → Res (V2 ℝ)} {cl cr : V2 ℝ} {rl rr : ℝ} (hl : DiscFn left cl rl) (hr : DiscFn right cr rr) {d : V2 ℝ} (hd : d ≠ 0) :
    ∃ p, SP.fromMinkowski left right d = .ok p ∧ p.v = (cl - cr) + d * ((rl + rr) / d.norm) := by
  have hd' : -d ≠ 0 := by
    intro h; apply hd
    have h1 := congrArg V2.x h
    have h2 := congrArg V2.y h
    simp at h1 h2
    ext <;> simp [h1, h2]
  refine ⟨⟨(cl + d * (rl / d.norm)) - (cr + -d * (rr / (-d).norm)), cl + d * (rl / d.norm), cr + -d * (rr / (-d).norm)⟩, ?_, ?_⟩
  · unfold SP.fromMinkowski
    rw [hl d hd, hr (-d) hd']; rfl
  · rw [V2.norm_neg]
    ext <;> simp <;> ring

/-- The disc with this centre and radius. -/
def Disc (c : V2 ℝ) (r : ℝ) (x : V2 ℝ) : Prop := (x - c).norm ≤ r

/-- The triangle that GJK finds for two discs whose centres are `δ` apart, with `ρ` the sum of the radii; `u` points from the left centre to the right one. -/
structure DiscHit (c : V2 ℝ) (ρ δ : ℝ) (u : V2 ℝ) (p0 p1 p2 : V2 ℝ) : Prop where
  unit : u.dot u = 1
  centre : c = u * (-δ)
  e0 : p0 = u * (ρ - δ)
  e1 : p1 = u * (-(ρ + δ))
  e2 : p2 = u * (-δ) + (⟨-u.y, u.x⟩ : V2 ℝ) * ρ

/-- What GJK does with two discs: nothing to find when the centres are as far apart as the radii together, otherwise a triangle after two iterations. -/
theorem gjk_discs {left right : V2 ℝ → Res (V2 ℝ)} {cl cr : V2 ℝ} {rl rr : ℝ} (hl : DiscFn left cl rl) (hr : DiscFn right cr rr) (n : Nat) :
    (rl + rr ≤ (cl - cr).norm → gjkRun reduce2 n left right cl cr = .ok .miss) ∧
    ((cl - cr).norm < rl + rr → ∃ u p0 p1 p2, gjkRun reduce2 (n + 2) left right cl cr = .ok (.hit [p0, p1, p2]) ∧
      DiscHit (cl - cr) (rl + rr) (cl - cr).norm u p0.v p1.v p2.v) := by
  obtain ⟨d, hd⟩ : ∃ d, d = firstDirection cl cr := ⟨_, rfl⟩
  set c := cl - cr with hc
  set ρ := rl + rr with hρ
  set δ := c.norm with hδ
  -- the first direction is along the centres
  have hfd : d ≠ 0 ∧ ∃ u : V2 ℝ, u.dot u = 1 ∧ d = u * d.norm ∧ c = u * (-δ) := by
    by_cases h0 : cr - cl = 0
    · have hd1 : d = ⟨1, 1⟩ := by rw [hd]; unfold firstDirection; dsimp only; rw [if_pos h0]; rfl
      have hc0 : c = 0 := by
        rw [hc]
        have h1 := congrArg V2.x h0
        have h2 := congrArg V2.y h0
        simp at h1 h2
        ext <;> simp <;> linarith
      have hne : d ≠ 0 := by rw [hd1]; intro h; have := congrArg V2.x h; norm_num at this
      have hn := V2.norm_pos hne
      refine ⟨hne, d * (1 / d.norm), ?_, ?_, ?_⟩
      · have := V2.norm_sq d
        have e : (d * (1 / d.norm)).dot (d * (1 / d.norm)) = d.dot d * (1 / d.norm * (1 / d.norm)) := by simp only [V2.dot, V2.mul_x, V2.mul_y]; ring
        rw [e, ← this]; field_simp
      · ext <;> simp <;> field_simp
      · rw [hδ, hc0, (V2.norm_eq_zero 0).mpr rfl]; ext <;> simp
    · have hd1 : d = cr - cl := by rw [hd]; unfold firstDirection; dsimp only; rw [if_neg h0]
      have hne : d ≠ 0 := by rw [hd1]; exact h0
      have hn := V2.norm_pos hne
      have hdn : d.norm = δ := by rw [hd1, hδ, hc, V2.norm_sub_comm]
      refine ⟨hne, d * (1 / d.norm), ?_, ?_, ?_⟩
      · have := V2.norm_sq d
        have e : (d * (1 / d.norm)).dot (d * (1 / d.norm)) = d.dot d * (1 / d.norm * (1 / d.norm)) := by simp only [V2.dot, V2.mul_x, V2.mul_y]; ring
        rw [e, ← this]; field_simp
      · ext <;> simp <;> field_simp
      · rw [← hdn, hc]
        ext <;> simp <;> field_simp <;> rw [hd1] <;> simp
  obtain ⟨hne, u, hu, hdu, hcu⟩ := hfd
  have hn := V2.norm_pos hne
  have hδ0 : 0 ≤ δ := V2.norm_nonneg _
  obtain ⟨p0, hp0, v0⟩ := disc_mink hl hr hne
  have e0 : p0.v = u * (ρ - δ) := by
    rw [v0, ← hc, ← hρ, hcu]
    rw [show d * (ρ / d.norm) = u * ρ from by conv_lhs => arg 1; rw [hdu]
                                              ext <;> simp <;> field_simp]
    ext <;> simp <;> ring
  have dot0 : Inner.dot p0.v d = (ρ - δ) * d.norm := by
    show p0.v.dot d = _
    rw [e0]; conv_lhs => arg 2; rw [hdu]
    have : (u * (ρ - δ)).dot (u * d.norm) = u.dot u * ((ρ - δ) * d.norm) := by simp only [V2.dot, V2.mul_x, V2.mul_y]; ring
    rw [this, hu]; ring
  constructor
  · intro hle
    unfold gjkRun
    rw [← hd]
    dsimp only
    rw [hp0, Res.bind_ok, if_pos (by rw [dot0]; nlinarith)]
    rfl
  · intro hlt
    have hρ0 : 0 < ρ := by linarith
    have hneg : -d ≠ 0 := by
      intro h; apply hne
      have h1 := congrArg V2.x h
      have h2 := congrArg V2.y h
      simp at h1 h2
      ext <;> simp [h1, h2]
    obtain ⟨p1, hp1, v1⟩ := disc_mink hl hr hneg
    have e1 : p1.v = u * (-(ρ + δ)) := by
      rw [v1, ← hc, ← hρ, hcu, V2.norm_neg]
      rw [show -d * (ρ / d.norm) = u * (-ρ) from by conv_lhs => arg 1; rw [hdu]
                                                    ext <;> simp <;> field_simp]
      ext <;> simp <;> ring
    have dot1 : Inner.dot p1.v (-d) = (ρ + δ) * d.norm := by
      show p1.v.dot (-d) = _
      rw [e1]; conv_lhs => arg 2; rw [hdu]
      have : (u * (-(ρ + δ))).dot (-(u * d.norm)) = u.dot u * ((ρ + δ) * d.norm) := by simp only [V2.dot, V2.mul_x, V2.mul_y, V2.neg_x, V2.neg_y]; ring
      rw [this, hu]; ring
    set w : V2 ℝ := ⟨-u.y, u.x⟩ with hw
    have hww : w.dot w = 1 := by rw [← hu]; simp only [hw, V2.dot]; ring
    have r1 : reduce2 [p0, p1] (-d) = (false, [p0, p1], w * (2 * ρ)) := by
      unfold reduce2
      dsimp only
      rw [if_pos]
      · congr 2
        rw [e0, e1]
        ext <;> simp [hw] <;> ring
      · rw [e0, e1]
        ext <;> simp [tripleProduct] <;> ring
    have hd2 : w * (2 * ρ) ≠ 0 := by
      intro h
      have e : (w * (2 * ρ)).dot (w * (2 * ρ)) = w.dot w * (4 * ρ ^ 2) := by simp only [V2.dot, V2.mul_x, V2.mul_y]; ring
      rw [h, hww] at e
      simp [V2.dot] at e
      exact hρ0.ne' e
    have hn2 : (w * (2 * ρ)).norm = 2 * ρ := by
      rw [V2.norm_smul, V2.norm, hww, Real.sqrt_one, abs_of_pos (by positivity)]; ring
    obtain ⟨p2, hp2, v2⟩ := disc_mink hl hr hd2
    have e2 : p2.v = u * (-δ) + w * ρ := by
      rw [v2, ← hc, ← hρ, hn2, hcu]
      ext <;> simp <;> field_simp
    have huw : u.dot w = 0 := by simp only [hw, V2.dot]; ring
    have dot2 : Inner.dot p2.v (w * (2 * ρ)) = 2 * ρ ^ 2 := by
      show p2.v.dot _ = _
      rw [e2]
      have : (u * (-δ) + w * ρ).dot (w * (2 * ρ)) = w.dot w * (2 * ρ ^ 2) - u.dot w * (2 * δ * ρ) := by simp only [V2.dot, V2.mul_x, V2.mul_y, V2.add_x, V2.add_y]; ring
      rw [this, hww, huw]; ring
    have r2 : reduce2 [p0, p1, p2] (w * (2 * ρ)) = (true, [p0, p1, p2], w * (2 * ρ)) := by
      unfold reduce2
      dsimp only
      have hx : u.x ^ 2 = 1 - u.y ^ 2 := by have := hu; simp only [V2.dot] at this; linarith
      rw [if_neg, if_neg]
      · rw [e0, e1, e2, not_lt]
        have : (tripleProduct (u * (-(ρ + δ)) - (u * (-δ) + w * ρ)) (u * (ρ - δ) - (u * (-δ) + w * ρ)) (u * (ρ - δ) - (u * (-δ) + w * ρ))).dot (-(u * (-δ) + w * ρ))
            = -(2 * ρ ^ 3 * (ρ - δ)) * (u.dot u) ^ 2 := by
          simp only [tripleProduct, V2.dot, V2.mul_x, V2.mul_y, V2.add_x, V2.add_y, V2.sub_x, V2.sub_y, V2.neg_x, V2.neg_y, hw]; ring
        rw [this, hu]
        have : 0 < ρ - δ := by linarith
        have : 0 < 2 * ρ ^ 3 * (ρ - δ) := by positivity
        linarith
      · rw [e0, e1, e2, not_lt]
        have : (tripleProduct (u * (ρ - δ) - (u * (-δ) + w * ρ)) (u * (-(ρ + δ)) - (u * (-δ) + w * ρ)) (u * (-(ρ + δ)) - (u * (-δ) + w * ρ))).dot (-(u * (-δ) + w * ρ))
            = -(2 * ρ ^ 3 * (ρ + δ)) * (u.dot u) ^ 2 := by
          simp only [tripleProduct, V2.dot, V2.mul_x, V2.mul_y, V2.add_x, V2.add_y, V2.sub_x, V2.sub_y, V2.neg_x, V2.neg_y, hw]; ring
        rw [this, hu]
        have : 0 < 2 * ρ ^ 3 * (ρ + δ) := by positivity
        linarith
    refine ⟨u, p0, p1, p2, ?_, ⟨hu, hcu, e0, e1, e2⟩⟩
    unfold gjkRun
    rw [← hd]
    dsimp only
    rw [hp0, Res.bind_ok, if_neg (by rw [dot0, not_le]; exact mul_pos (by linarith) hn)]
    unfold gjkLoop
    rw [hp1, Res.bind_ok, if_neg (by rw [dot1, not_le]; positivity)]
    dsimp only [List.cons_append, List.nil_append]
    rw [r1]
    dsimp only
    rw [if_neg (by simp)]
    unfold gjkLoop
    rw [hp2, Res.bind_ok, if_neg (by rw [dot2, not_le]; positivity)]
    dsimp only [List.cons_append, List.nil_append]
    rw [r2]
    rfl

theorem disc_support {f : V2 ℝ → Res (V2 ℝ)} {c : V2 ℝ} {r : ℝ} (hr : 0 ≤ r) (h : DiscFn f c r) : SupportFn2 f (Disc c r) := by
  intro d hd
  have hn := V2.norm_pos hd
  refine ⟨_, h d hd, ?_, ?_⟩
  · have e : c + d * (r / d.norm) - c = d.normalizeTo r := by unfold V2.normalizeTo; ext <;> simp
    unfold Disc
    rw [e, V2.norm_normalizeTo hd hr]
  · intro q hq
    have h1 := V2.cauchy (q - c) d
    have h2 : (q - c).norm * d.norm ≤ r * d.norm := mul_le_mul_of_nonneg_right hq hn.le
    have e1 : q.dot d = c.dot d + (q - c).dot d := by simp only [V2.dot, V2.sub_x, V2.sub_y]; ring
    have e2 : (c + d * (r / d.norm)).dot d = c.dot d + r * d.norm := by
      have e : (c + d * (r / d.norm)).dot d = c.dot d + d.dot d * (r / d.norm) := by simp only [V2.dot, V2.add_x, V2.add_y, V2.mul_x, V2.mul_y]; ring
      rw [e, ← V2.norm_sq]; field_simp
    rw [e1, e2]; linarith

theorem disc_convex (c : V2 ℝ) (r : ℝ) : Convex2 (Disc c r) := by
  intro p q t hp hq h0 h1
  unfold Disc at *
  have e : p + (q - p) * t - c = (p - c) + ((q - c) - (p - c)) * t := by ext <;> simp <;> ring
  rw [e]
  exact convex_norm2 _ _ h0 h1 hp hq

theorem disc_diff {cl cr : V2 ℝ} {rl rr : ℝ} {x : V2 ℝ} (h : Mink2 (Disc cl rl) (Disc cr rr) x) : (x - (cl - cr)).norm ≤ rl + rr := by
  obtain ⟨l, r, hl, hr, rfl⟩ := h
  have e : l - r - (cl - cr) = (l - cl) + (cr - r) := by ext <;> simp <;> ring
  rw [e]
  refine le_trans (V2.norm_add_le _ _) ?_
  unfold Disc at hl hr
  rw [V2.norm_sub_comm] at hr
  linarith

/-- the closest edge stays no further than the point of the rim between the centres -/
theorem epa_discs {left right : V2 ℝ → Res (V2 ℝ)} {cl cr : V2 ℝ} {rl rr : ℝ} (hl0 : 0 ≤ rl) (hr0 : 0 ≤ rr) (hl : DiscFn left cl rl) (hr : DiscFn right cr rr)
    (hlt : (cl - cr).norm < rl + rr) {tolerance : ℝ} (htol : 0 < tolerance) (m : Nat) {u : V2 ℝ} {p0 p1 p2 : SP (V2 ℝ)}
    (hit : DiscHit (cl - cr) (rl + rr) (cl - cr).norm u p0.v p1.v p2.v) (hf : ∀ p ∈ [p0, p1, p2], FromShapes2 (Disc cl rl) (Disc cr rr) p)
    {k : Contact (V2 ℝ) ℝ} {converged : Bool} (hk : epa2Run tolerance m left right [p0, p1, p2] = .ok (some (k, converged))) :
    k.depth ≤ rl + rr - (cl - cr).norm ∧ (converged = true → rl + rr - (cl - cr).norm < k.depth + tolerance) := by
  obtain ⟨hu, hcu, e0, e1, e2⟩ := hit
  have sl := disc_support hl0 hl
  have sr := disc_support hr0 hr
  obtain ⟨g1, g2, g3, g4⟩ := c55_2d _ _ (disc_convex cl rl) sl sr tolerance m hf hk
  set c := cl - cr with hc
  set ρ := rl + rr with hρ
  set δ := c.norm with hδ
  have hδ0 : 0 ≤ δ := V2.norm_nonneg _
  have hρ0 : 0 < ρ := by linarith
  have hnu : u.norm = 1 := by rw [V2.norm, hu, Real.sqrt_one]
  constructor
  · -- an edge that ends in `p0` and is not in line with the origin
    let Inv : List (SP (V2 ℝ)) → Prop := fun s => ∃ x, (CEdge (s.map SP.v) x p0.v ∨ CEdge (s.map SP.v) p0.v x) ∧ x.perpDot p0.v ≠ 0
    have out : ∀ β : ℝ, Mink2 (Disc cl rl) (Disc cr rr) (p0.v * β) → β ≤ 1 := by
      intro β hβ
      have h1 := disc_diff hβ
      rw [← hc, ← hρ, hcu, e0] at h1
      have e : u * (ρ - δ) * β - u * (-δ) = u * ((ρ - δ) * β + δ) := by ext <;> simp <;> ring
      rw [e, V2.norm_smul, hnu, one_mul] at h1
      have h2 := le_trans (le_abs_self _) h1
      by_contra hcon
      push Not at hcon
      nlinarith
    have step : ∀ s i e p, Inv s → (∀ q ∈ s, FromShapes2 (Disc cl rl) (Disc cr rr) q) → EdgeOf (s.map SP.v) i e → (∀ k e', EdgeOf (s.map SP.v) k e' → e.distance ≤ e'.distance) →
        FromShapes2 (Disc cl rl) (Disc cr rr) p → (∀ x, Mink2 (Disc cl rl) (Disc cr rr) x → x.dot e.normal ≤ p.v.dot e.normal) → ¬ p.v.dot e.normal - e.distance < tolerance →
        Inv (s.take e.index ++ p :: s.drop e.index) := by
      rintro s i e p ⟨x, hx, hxp⟩ - he - hpf - hnt
      obtain ⟨a, b, hab, hcr, hn, hd, hda, hdb, hidx⟩ := edgeOf_iff he
      obtain ⟨α, β, hp'⟩ := basis2 hcr p.v
      have hsum : 1 < α + β := by
        have h1 : p.v.dot e.normal = (α + β) * e.distance := by
          have : p.v.dot e.normal = α * a.dot e.normal + β * b.dot e.normal := by
            conv_lhs => rw [hp']
            simp only [V2.dot, V2.add_x, V2.add_y, V2.mul_x, V2.mul_y]; ring
          rw [this, hda, hdb]; ring
        have h2 : e.distance < p.v.dot e.normal := by linarith [not_lt.mp hnt]
        rw [h1] at h2
        by_contra hcon
        nlinarith
      obtain ⟨k1, k2, k3, -⟩ := insert_edges (p := p.v) hab
      show ∃ x, (CEdge ((s.take e.index ++ p :: s.drop e.index).map SP.v) x p0.v ∨ CEdge ((s.take e.index ++ p :: s.drop e.index).map SP.v) p0.v x) ∧ x.perpDot p0.v ≠ 0
      rw [map_insert, hidx]
      rcases hx with ⟨k, hk'⟩ | ⟨k, hk'⟩
      · rcases k1 k x p0.v hk' with rfl | h
        · have ea : x = a := Option.some.inj (hk'.1.symm.trans hab.1)
          have eb : p0.v = b := Option.some.inj (hk'.2.symm.trans hab.2)
          subst ea
          refine ⟨p.v, Or.inl (eb ▸ k3), ?_⟩
          have e : p.v.perpDot p0.v = α * x.perpDot p0.v := by
            rw [hp', ← eb]; simp only [V2.perpDot, V2.add_x, V2.add_y, V2.mul_x, V2.mul_y]; ring
          rw [e]
          refine mul_ne_zero (fun hα => ?_) hxp
          have e' : p.v = p0.v * β := by rw [hp', hα, ← eb]; ext <;> simp
          have := out β (e' ▸ hpf.mink)
          linarith
        · exact ⟨x, Or.inl h, hxp⟩
      · rcases k1 k p0.v x hk' with rfl | h
        · have ea : p0.v = a := Option.some.inj (hk'.1.symm.trans hab.1)
          have eb : x = b := Option.some.inj (hk'.2.symm.trans hab.2)
          subst eb
          refine ⟨p.v, Or.inr (ea ▸ k2), ?_⟩
          have e : p.v.perpDot p0.v = β * x.perpDot p0.v := by
            rw [hp', ← ea]; simp only [V2.perpDot, V2.add_x, V2.add_y, V2.mul_x, V2.mul_y]; ring
          rw [e]
          refine mul_ne_zero (fun hβ => ?_) hxp
          have e' : p.v = p0.v * α := by rw [hp', hβ, ← ea]; ext <;> simp
          have := out α (e' ▸ hpf.mink)
          linarith
        · exact ⟨x, Or.inr h, hxp⟩
    have base : Inv [p0, p1, p2] := by
      refine ⟨p2.v, Or.inl (cedge_three.mpr (Or.inr (Or.inr ⟨rfl, rfl⟩))), ?_⟩
      rw [e0, e2]
      have : (u * (-δ) + (⟨-u.y, u.x⟩ : V2 ℝ) * ρ).perpDot (u * (ρ - δ)) = -(u.dot u) * (ρ * (ρ - δ)) := by
        simp only [V2.perpDot, V2.dot, V2.add_x, V2.add_y, V2.mul_x, V2.mul_y]; ring
      rw [this, hu]
      have : 0 < ρ * (ρ - δ) := mul_pos hρ0 (by linarith)
      intro h; linarith
    unfold epa2Run at hk
    rw [Res.bind_eq_ok] at hk
    obtain ⟨o, ho, hk⟩ := hk
    obtain ⟨e, rfl, he, hmin⟩ := closestEdge_spec ho (le_refl _)
    dsimp only at hk
    rw [Res.bind_eq_ok] at hk
    obtain ⟨r, hr', hk⟩ := hk
    rw [Res.bind_eq_ok] at hk
    obtain ⟨q, -, hk⟩ := hk
    cases hk
    obtain ⟨-, ⟨x, hx, hxp⟩, -, -, hm, -⟩ := epa2Loop_spec sl sr Inv step m _ e r (le_refl _) base hf he hmin hr'
    show r.2.1.distance ≤ _
    have fin : ∀ i a b, CEdgeAt (r.1.map SP.v) i a b → a.perpDot b ≠ 0 → (a = p0.v ∨ b = p0.v) → r.2.1.distance ≤ ρ - δ := by
      intro i a b hab hne hor
      have hE : EdgeOf (r.1.map SP.v) i ⟨(tripleProduct (b - a) a (b - a)).normalize, (tripleProduct (b - a) a (b - a)).normalize.dot a, nextIdx (r.1.map SP.v).length i⟩ :=
        ⟨a, b, hab, triple_ne.mpr hne, rfl, rfl, rfl⟩
      refine le_trans (hm i _ hE) ?_
      obtain ⟨a', b', hab', -, hn, -, hda, hdb, -⟩ := edgeOf_iff hE
      have ea : a' = a := Option.some.inj (hab'.1.symm.trans hab.1)
      have eb : b' = b := Option.some.inj (hab'.2.symm.trans hab.2)
      subst ea eb
      have np : p0.v.norm = ρ - δ := by rw [e0, V2.norm_smul, hnu, one_mul, abs_of_pos (by linarith)]
      rcases hor with rfl | rfl
      · rw [← hda]
        refine le_trans (V2.cauchy _ _) ?_
        rw [hn, mul_one, np]
      · rw [← hdb]
        refine le_trans (V2.cauchy _ _) ?_
        rw [hn, mul_one, np]
    rcases hx with ⟨i, hi⟩ | ⟨i, hi⟩
    · exact fin i x p0.v hi hxp (Or.inr rfl)
    · refine fin i p0.v x hi ?_ (Or.inl rfl)
      intro h; apply hxp
      have : x.perpDot p0.v = -(p0.v.perpDot x) := by simp only [V2.perpDot]; ring
      rw [this, h, neg_zero]
  · intro hcv
    have hn2 : k.normal.dot k.normal = 1 := by rw [← V2.norm_sq, g1, mul_one]
    have := g4 hcv (cl + k.normal * rl) (cr + k.normal * (-rr)) (by
      unfold Disc
      have e : cl + k.normal * rl - cl = k.normal * rl := by ext <;> simp
      rw [e, V2.norm_smul, g1, one_mul, abs_of_nonneg hl0]) (by
      unfold Disc
      have e : cr + k.normal * (-rr) - cr = k.normal * (-rr) := by ext <;> simp
      rw [e, V2.norm_smul, g1, one_mul, abs_neg, abs_of_nonneg hr0])
    have e1 : (cl + k.normal * rl).dot k.normal = cl.dot k.normal + rl := by
      have : (cl + k.normal * rl).dot k.normal = cl.dot k.normal + k.normal.dot k.normal * rl := by simp only [V2.dot, V2.add_x, V2.add_y, V2.mul_x, V2.mul_y]; ring
      rw [this, hn2, one_mul]
    have e2 : (cr + k.normal * (-rr) + k.normal * (k.depth + tolerance)).dot k.normal = cr.dot k.normal + (k.depth + tolerance - rr) := by
      have : (cr + k.normal * (-rr) + k.normal * (k.depth + tolerance)).dot k.normal = cr.dot k.normal + k.normal.dot k.normal * (k.depth + tolerance - rr) := by
        simp only [V2.dot, V2.add_x, V2.add_y, V2.mul_x, V2.mul_y]; ring
      rw [this, hn2, one_mul]
    rw [e1, e2] at this
    have h3 : -δ ≤ c.dot k.normal := by
      have h4 := V2.cauchy (-c) k.normal
      rw [V2.norm_neg, g1, mul_one] at h4
      have : (-c).dot k.normal = -(c.dot k.normal) := by simp only [V2.dot, V2.neg_x, V2.neg_y]; ring
      rw [this] at h4
      linarith
    have h5 : c.dot k.normal = cl.dot k.normal - cr.dot k.normal := by rw [hc]; simp only [V2.dot, V2.sub_x, V2.sub_y]; ring
    linarith

/-- C87 for circles: with at least two iterations GJK reports a collision exactly when the distance of the centres is smaller than the sum of the radii (as scaled by the placements). -/
theorem c87_circles (s t : Circle) (D E : Dec2 ℝ) (hD : D.rot.Orthogonal) (hE : E.rot.Orthogonal) (hDs : D.scale ≠ 0) (hEs : E.scale ≠ 0) (n : Nat) :
    ∃ o, gjkIntersect reduce2 (n + 2) (s.supportPoint D.tr) (t.supportPoint E.tr) (D.tr.point 0) (E.tr.point 0) = .ok o ∧
      (o.isSome ↔ (D.disp - E.disp).norm < s.radius * |D.scale| + t.radius * |E.scale|) := by
  have hz : D.tr.point 0 = D.disp := by simp only [Dec2.tr]; ext <;> simp [M2.apply]
  have hz' : E.tr.point 0 = E.disp := by simp only [Dec2.tr]; ext <;> simp [M2.apply]
  rw [hz, hz']
  obtain ⟨h1, -⟩ := gjk_discs (circle_disc s D hD hDs) (circle_disc t E hE hEs) (n + 2)
  obtain ⟨-, h2⟩ := gjk_discs (circle_disc s D hD hDs) (circle_disc t E hE hEs) n
  unfold gjkIntersect
  by_cases h : (D.disp - E.disp).norm < s.radius * |D.scale| + t.radius * |E.scale|
  · obtain ⟨u, p0, p1, p2, hit, -⟩ := h2 h
    exact ⟨some [p0, p1, p2], by rw [hit]; rfl, by simp [h]⟩
  · exact ⟨none, by rw [h1 (not_lt.mp h)]; rfl, by simp [h]⟩

/-- C87 for circles, full resolution: for overlapping circles there is a contact, with a unit normal and a depth that is at most the sum of the radii less the distance of the centres, and falls
short of that by less than the tolerance when the tolerance test ends the expansion. -/
theorem c87_circles_depth (s t : Circle) (hs : 0 ≤ s.radius) (ht : 0 ≤ t.radius) (D E : Dec2 ℝ) (hD : D.rot.Orthogonal) (hE : E.rot.Orthogonal) (hDs : D.scale ≠ 0) (hEs : E.scale ≠ 0)
    {tolerance : ℝ} (htol : 0 < tolerance) (n m : Nat) (h : (D.disp - E.disp).norm < s.radius * |D.scale| + t.radius * |E.scale|) :
    ∃ k, gjkIntersection reduce2 (n + 2) (epa2 tolerance m (s.supportPoint D.tr) (t.supportPoint E.tr)) .fullResolution (s.supportPoint D.tr) (t.supportPoint E.tr)
        (D.tr.point 0) (E.tr.point 0) = .ok (some k) ∧ k.normal.norm = 1 ∧ 0 < k.depth ∧
      k.depth ≤ s.radius * |D.scale| + t.radius * |E.scale| - (D.disp - E.disp).norm ∧
      ∃ simplex converged, gjkIntersect reduce2 (n + 2) (s.supportPoint D.tr) (t.supportPoint E.tr) (D.tr.point 0) (E.tr.point 0) = .ok (some simplex) ∧
        epa2Run tolerance m (s.supportPoint D.tr) (t.supportPoint E.tr) simplex = .ok (some (k, converged)) ∧
        (converged = true → s.radius * |D.scale| + t.radius * |E.scale| - (D.disp - E.disp).norm < k.depth + tolerance) := by
  have hz : D.tr.point 0 = D.disp := by simp only [Dec2.tr]; ext <;> simp [M2.apply]
  have hz' : E.tr.point 0 = E.disp := by simp only [Dec2.tr]; ext <;> simp [M2.apply]
  have b1 := circle_disc s D hD hDs
  have b2 := circle_disc t E hE hEs
  have hl0 : 0 ≤ s.radius * |D.scale| := by positivity
  have hr0 : 0 ≤ t.radius * |E.scale| := by positivity
  have s1 := disc_support hl0 b1
  have s2 := disc_support hr0 b2
  rw [hz, hz']
  obtain ⟨-, h2⟩ := gjk_discs b1 b2 n
  obtain ⟨u, p0, p1, p2, hit, hh⟩ := h2 h
  have hg : gjkIntersect reduce2 (n + 2) (s.supportPoint D.tr) (t.supportPoint E.tr) D.disp E.disp = .ok (some [p0, p1, p2]) := by
    unfold gjkIntersect; rw [hit]; rfl
  have good := gjkIntersect2_good s1 s2 hg
  obtain ⟨k, cv, hk⟩ := epa2_answers s1 s2 htol m good
  obtain ⟨g1, g2⟩ := epa_discs hl0 hr0 b1 b2 h htol m hh good.from hk
  obtain ⟨g3, g4, -⟩ := c55_2d _ _ (disc_convex _ _) s1 s2 tolerance m good.from hk
  refine ⟨k, ?_, g3, g4, g1, _, cv, hg, hk, g2⟩
  unfold gjkIntersection
  rw [hg, Res.bind_ok]
  dsimp only
  unfold epa2
  rw [hk, Res.bind_ok]
  rfl
end
end Verif.Minkowski
