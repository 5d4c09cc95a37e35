import Verif.Minkowski.Epa2
/-!
# EPA in 2D on what GJK returns, for the library's shapes (C55, C70)
-/
namespace Verif.Minkowski
open Verif Geom Primitive
set_option linter.unusedSectionVars false
noncomputable section

theorem gjkIntersect2_good {L R : V2 ℝ → Prop} {left right : V2 ℝ → Res (V2 ℝ)} (hl : SupportFn2 left L) (hr : SupportFn2 right R) {n : Nat} {lp rp : V2 ℝ}
    {s : List (SP (V2 ℝ))} (h : gjkIntersect reduce2 n left right lp rp = .ok (some s)) : GoodHit2 L R s := by
  obtain ⟨o, ho, -, hg⟩ := gjk2_run hl hr n lp rp
  unfold gjkIntersect at h
  rw [ho, Res.bind_ok] at h
  cases o with
  | hit s' => cases h; exact hg _ rfl
  | miss => cases h
  | exhausted => cases h

theorem GoodHit2.from {L R : V2 ℝ → Prop} {s : List (SP (V2 ℝ))} (h : GoodHit2 L R s) : ∀ p ∈ s, FromShapes2 L R p := by
  obtain ⟨s0, s1, s2, rfl, h0, h1, h2, -⟩ := h
  intro p hp
  simp only [List.mem_cons, List.not_mem_nil, or_false] at hp
  rcases hp with rfl | rfl | rfl <;> assumption

/-- Not all sides of a triangle of positive area are in line with the origin. -/
theorem perp_area (a b c : V2 ℝ) (h : (a - c).perpDot (b - c) ≠ 0) : a.perpDot b ≠ 0 ∨ b.perpDot c ≠ 0 ∨ c.perpDot a ≠ 0 := by
  by_contra hc
  push Not at hc
  apply h
  obtain ⟨h1, h2, h3⟩ := hc
  have : (a - c).perpDot (b - c) = a.perpDot b + b.perpDot c + c.perpDot a := by simp only [V2.perpDot, V2.sub_x, V2.sub_y]; ring
  rw [this, h1, h2, h3]; ring

/-- C55 for the full pipeline in 2D (`GJK2::intersection` with `FullResolution`), any convex shapes: a returned contact has a unit normal, positive depth and a contact point in
the left shape; when the expansion ended by the tolerance test, moving the right shape by depth + tolerance along the normal separates the shapes. -/
theorem c55_pipeline_2d (L R : V2 ℝ → Prop) (hL : Convex2 L) {left right : V2 ℝ → Res (V2 ℝ)} (hl : SupportFn2 left L) (hr : SupportFn2 right R)
    (tolerance : ℝ) (n m : Nat) (lp rp : V2 ℝ) {c : Contact (V2 ℝ) ℝ}
    (h : gjkIntersection reduce2 n (epa2 tolerance m left right) .fullResolution left right lp rp = .ok (some c)) :
    c.normal.norm = 1 ∧ 0 < c.depth ∧ L c.point ∧
      ∃ simplex converged, gjkIntersect reduce2 n left right lp rp = .ok (some simplex) ∧ epa2Run tolerance m left right simplex = .ok (some (c, converged)) ∧
        (converged = true → ∀ x y, L x → R y → x.dot c.normal < (y + c.normal * (c.depth + tolerance)).dot c.normal) := by
  unfold gjkIntersection at h
  rw [Res.bind_eq_ok] at h
  obtain ⟨o, ho, h⟩ := h
  cases o with
  | none => cases h
  | some s =>
    dsimp only at h
    unfold epa2 at h
    rw [Res.bind_eq_ok] at h
    obtain ⟨r, hr', h⟩ := h
    cases r with
    | none => cases h
    | some r =>
      cases h
      obtain ⟨c, b⟩ := r
      obtain ⟨g1, g2, g3, g4⟩ := c55_2d L R hL hl hr tolerance m (gjkIntersect2_good hl hr ho).from hr'
      exact ⟨g1, g2, g3, s, b, ho, hr', g4⟩

/-- C70 for the full pipeline in 2D, any convex shapes: if no side of the triangle GJK returns is in line with the origin, EPA answers, and the depth is the penetration depth up to the
tolerance: no shorter translation separates the shapes, and a translation longer by the tolerance, along the normal, does (if the expansion ended by the tolerance test). -/
theorem c70_2d_partial (L R : V2 ℝ → Prop) (hL : Convex2 L) (hR : Convex2 R) {left right : V2 ℝ → Res (V2 ℝ)} (hl : SupportFn2 left L) (hr : SupportFn2 right R)
    {tolerance : ℝ} (htol : 0 < tolerance) (n m : Nat) (lp rp : V2 ℝ) {a b c : SP (V2 ℝ)}
    (h : gjkIntersect reduce2 n left right lp rp = .ok (some [a, b, c])) (h01 : a.v.perpDot b.v ≠ 0) (h12 : b.v.perpDot c.v ≠ 0) (h20 : c.v.perpDot a.v ≠ 0) :
    ∃ k, gjkIntersection reduce2 n (epa2 tolerance m left right) .fullResolution left right lp rp = .ok (some k) ∧ k.normal.norm = 1 ∧ 0 < k.depth ∧ L k.point ∧
      (∀ z : V2 ℝ, z.norm ≤ k.depth → ∃ x y, L x ∧ R y ∧ x = y + z) ∧
      ∃ converged, epa2Run tolerance m left right [a, b, c] = .ok (some (k, converged)) ∧
        (converged = true → ∀ x y, L x → R y → x.dot k.normal < (y + k.normal * (k.depth + tolerance)).dot k.normal) := by
  obtain ⟨s0, s1, s2, e, h0, h1, h2, hin, x0, x1, x2, _⟩ := gjkIntersect2_good hl hr h
  cases e
  obtain ⟨k, cv, hk, k1, k2, k3, k4, k5⟩ := c55_exact_2d L R hL hR hl hr htol m (s0 := a) (s1 := b) (s2 := c) (by
    intro p hp
    simp only [List.mem_cons, List.not_mem_nil, or_false] at hp
    rcases hp with rfl | rfl | rfl
    · exact ⟨h0, x0⟩
    · exact ⟨h1, x1⟩
    · exact ⟨h2, x2⟩) hin h01 h12 h20
  refine ⟨k, ?_, k1, k2, k3, k4, cv, hk, k5⟩
  unfold gjkIntersection
  rw [h, Res.bind_ok]
  dsimp only
  unfold epa2
  rw [hk, Res.bind_ok]
  rfl

/-- C55 for 2D primitives under similarity transforms. -/
theorem c55_prim2 (s t : Prim2) (hs : s.Ok) (ht : t.Ok) (D E : Dec2 ℝ) (hD : D.rot.Orthogonal) (hE : E.rot.Orthogonal) (hDs : D.scale ≠ 0) (hEs : E.scale ≠ 0)
    (tolerance : ℝ) (n m : Nat) {c : Contact (V2 ℝ) ℝ}
    (h : gjkIntersection reduce2 n (epa2 tolerance m (s.supportPoint D.tr) (t.supportPoint E.tr)) .fullResolution (s.supportPoint D.tr) (t.supportPoint E.tr)
      (D.tr.point 0) (E.tr.point 0) = .ok (some c)) :
    c.normal.norm = 1 ∧ 0 < c.depth ∧ Image D.tr s.Points c.point ∧
      ∃ simplex converged, gjkIntersect reduce2 n (s.supportPoint D.tr) (t.supportPoint E.tr) (D.tr.point 0) (E.tr.point 0) = .ok (some simplex) ∧
        epa2Run tolerance m (s.supportPoint D.tr) (t.supportPoint E.tr) simplex = .ok (some (c, converged)) ∧
        (converged = true → ∀ x y, Image D.tr s.Points x → Image E.tr t.Points y → x.dot c.normal < (y + c.normal * (c.depth + tolerance)).dot c.normal) :=
  c55_pipeline_2d _ _ (image_convex2 D (prim2_convex s)) (prim2_support s hs D hD hDs) (prim2_support t ht E hE hEs) _ _ _ _ _ h

/-- C70 for 2D primitives under similarity transforms. -/
theorem c70_prim2_partial (s t : Prim2) (hs : s.Ok) (ht : t.Ok) (D E : Dec2 ℝ) (hD : D.rot.Orthogonal) (hE : E.rot.Orthogonal) (hDs : D.scale ≠ 0) (hEs : E.scale ≠ 0)
    {tolerance : ℝ} (htol : 0 < tolerance) (n m : Nat) {a b c : SP (V2 ℝ)}
    (h : gjkIntersect reduce2 n (s.supportPoint D.tr) (t.supportPoint E.tr) (D.tr.point 0) (E.tr.point 0) = .ok (some [a, b, c]))
    (h01 : a.v.perpDot b.v ≠ 0) (h12 : b.v.perpDot c.v ≠ 0) (h20 : c.v.perpDot a.v ≠ 0) :
    ∃ k, gjkIntersection reduce2 n (epa2 tolerance m (s.supportPoint D.tr) (t.supportPoint E.tr)) .fullResolution (s.supportPoint D.tr) (t.supportPoint E.tr)
      (D.tr.point 0) (E.tr.point 0) = .ok (some k) ∧ k.normal.norm = 1 ∧ 0 < k.depth ∧ Image D.tr s.Points k.point ∧
      (∀ z : V2 ℝ, z.norm ≤ k.depth → ∃ x y, Image D.tr s.Points x ∧ Image E.tr t.Points y ∧ x = y + z) ∧
      ∃ converged, epa2Run tolerance m (s.supportPoint D.tr) (t.supportPoint E.tr) [a, b, c] = .ok (some (k, converged)) ∧
        (converged = true → ∀ x y, Image D.tr s.Points x → Image E.tr t.Points y → x.dot k.normal < (y + k.normal * (k.depth + tolerance)).dot k.normal) :=
  c70_2d_partial _ _ (image_convex2 D (prim2_convex s)) (image_convex2 E (prim2_convex t)) (prim2_support s hs D hD hDs) (prim2_support t ht E hE hEs) htol _ _ _ _ h h01 h12 h20

/-! ## A pair of rectangles for which the depth is not the penetration depth -/

/-- The translation by `(x, y)`. -/
def shift2 (x y : ℝ) : Dec2 ℝ := ⟨1, ⟨⟨1, 0⟩, ⟨0, 1⟩⟩, ⟨x, y⟩⟩
theorem shift2_orthogonal (x y : ℝ) : (shift2 x y).rot.Orthogonal := by
  refine ⟨?_, ?_, ?_⟩ <;> simp [shift2, V2.dot]

/-- C70 is false: a 2 by 2 rectangle at the origin and a 2 by 6 rectangle at (1, 2). The triangle of GJK has a side in line with the origin; EPA skips that side and returns depth 2
(by its tolerance test), although moving the right rectangle by 3/2 along the x axis separates them. -/
theorem c70_false {tolerance : ℝ} (htol : 0 < tolerance) (n m : Nat) :
    ∃ simplex c, gjkIntersect reduce2 (n + 2) ((Prim2.rectangle (Rectangle.new 2 2)).supportPoint (shift2 0 0).tr) ((Prim2.rectangle (Rectangle.new 2 6)).supportPoint (shift2 1 2).tr)
        ((shift2 0 0).tr.point 0) ((shift2 1 2).tr.point 0) = .ok (some simplex) ∧
      epa2Run tolerance (m + 1) ((Prim2.rectangle (Rectangle.new 2 2)).supportPoint (shift2 0 0).tr) ((Prim2.rectangle (Rectangle.new 2 6)).supportPoint (shift2 1 2).tr) simplex
        = .ok (some (c, true)) ∧ c.depth = 2 ∧
      ∀ x y, Image (shift2 0 0).tr (Prim2.rectangle (Rectangle.new 2 2)).Points x → Image (shift2 1 2).tr (Prim2.rectangle (Rectangle.new 2 6)).Points y →
        x.dot ⟨1, 0⟩ < (y + ⟨3 / 2, 0⟩).dot ⟨1, 0⟩ := by
  have l1 : ∀ d e, ∀ p q, (Rectangle.new 2 2).supportPoint (shift2 0 0).tr d = .ok p → (Rectangle.new 2 6).supportPoint (shift2 1 2).tr e = .ok q → e = -d →
      SP.fromMinkowski ((Prim2.rectangle (Rectangle.new 2 2)).supportPoint (shift2 0 0).tr) ((Prim2.rectangle (Rectangle.new 2 6)).supportPoint (shift2 1 2).tr) d
        = .ok ⟨p - q, p, q⟩ := by
    rintro d e p q h1 h2 rfl
    show (do let a ← (Rectangle.new 2 2).supportPoint (shift2 0 0).tr d; let b ← (Rectangle.new 2 6).supportPoint (shift2 1 2).tr (-d); pure (⟨a - b, a, b⟩ : SP (V2 ℝ)) : Res _) = _
    rw [h1, h2]; rfl
  have q0 := l1 ⟨1, 2⟩ ⟨-1, -2⟩ ⟨1, 1⟩ ⟨0, -1⟩ (by
    norm_num [Rectangle.supportPoint, support, shift2, Dec2.tr, Rectangle.new, Rectangle.newImpl, Rectangle.generateCorners, maxPoint2, V2.dot, M2.apply, M2.transpose, V2.ext_iff]) (by
    norm_num [Rectangle.supportPoint, support, shift2, Dec2.tr, Rectangle.new, Rectangle.newImpl, Rectangle.generateCorners, maxPoint2, V2.dot, M2.apply, M2.transpose, V2.ext_iff]) (by ext <;> simp)
  have q1 := l1 ⟨-1, -2⟩ ⟨1, 2⟩ ⟨-1, -1⟩ ⟨2, 5⟩ (by
    norm_num [Rectangle.supportPoint, support, shift2, Dec2.tr, Rectangle.new, Rectangle.newImpl, Rectangle.generateCorners, maxPoint2, V2.dot, M2.apply, M2.transpose, V2.ext_iff]) (by
    norm_num [Rectangle.supportPoint, support, shift2, Dec2.tr, Rectangle.new, Rectangle.newImpl, Rectangle.generateCorners, maxPoint2, V2.dot, M2.apply, M2.transpose, V2.ext_iff]) (by ext <;> simp)
  have q2 := l1 ⟨-8, 4⟩ ⟨8, -4⟩ ⟨-1, 1⟩ ⟨2, -1⟩ (by
    norm_num [Rectangle.supportPoint, support, shift2, Dec2.tr, Rectangle.new, Rectangle.newImpl, Rectangle.generateCorners, maxPoint2, V2.dot, M2.apply, M2.transpose, V2.ext_iff]) (by
    norm_num [Rectangle.supportPoint, support, shift2, Dec2.tr, Rectangle.new, Rectangle.newImpl, Rectangle.generateCorners, maxPoint2, V2.dot, M2.apply, M2.transpose, V2.ext_iff]) (by ext <;> simp)
  have q3 := l1 ⟨0, 1⟩ ⟨0, -1⟩ ⟨1, 1⟩ ⟨0, -1⟩ (by
    norm_num [Rectangle.supportPoint, support, shift2, Dec2.tr, Rectangle.new, Rectangle.newImpl, Rectangle.generateCorners, maxPoint2, V2.dot, M2.apply, M2.transpose, V2.ext_iff]) (by
    norm_num [Rectangle.supportPoint, support, shift2, Dec2.tr, Rectangle.new, Rectangle.newImpl, Rectangle.generateCorners, maxPoint2, V2.dot, M2.apply, M2.transpose, V2.ext_iff]) (by ext <;> simp)
  have v0 : (⟨1, 1⟩ - ⟨0, -1⟩ : V2 ℝ) = ⟨1, 2⟩ := by ext <;> norm_num
  have v1 : (⟨-1, -1⟩ - ⟨2, 5⟩ : V2 ℝ) = ⟨-3, -6⟩ := by ext <;> norm_num
  have v2 : (⟨-1, 1⟩ - ⟨2, -1⟩ : V2 ℝ) = ⟨-3, 2⟩ := by ext <;> norm_num
  rw [v0] at q0
  rw [v1] at q1
  rw [v2] at q2
  rw [v0] at q3
  have hp0 : (shift2 0 0).tr.point 0 = ⟨0, 0⟩ := by ext <;> simp [shift2, Dec2.tr, M2.apply]
  have hp1 : (shift2 1 2).tr.point 0 = ⟨1, 2⟩ := by ext <;> simp [shift2, Dec2.tr, M2.apply]
  have hd : firstDirection (⟨0, 0⟩ : V2 ℝ) ⟨1, 2⟩ = ⟨1, 2⟩ := by
    have e : (⟨1, 2⟩ - ⟨0, 0⟩ : V2 ℝ) = ⟨1, 2⟩ := by ext <;> simp
    unfold firstDirection
    rw [e]
    dsimp only
    rw [if_neg]
    intro h; have := congrArg V2.x h; norm_num at this
  have r1 : ∀ a b : SP (V2 ℝ), a.v = ⟨1, 2⟩ → b.v = ⟨-3, -6⟩ → ∀ d, reduce2 [a, b] d = (false, [a, b], ⟨-8, 4⟩) := by
    intro a b h1 h2 d
    unfold reduce2
    dsimp only
    rw [h1, h2]
    rw [if_pos (by ext <;> norm_num [tripleProduct])]
    congr 2
    ext <;> norm_num
  have r2 : ∀ a b c : SP (V2 ℝ), a.v = ⟨1, 2⟩ → b.v = ⟨-3, -6⟩ → c.v = ⟨-3, 2⟩ → ∀ d, reduce2 [a, b, c] d = (true, [a, b, c], d) := by
    intro a b c h1 h2 h3 d
    unfold reduce2
    dsimp only
    rw [h1, h2, h3]
    rw [if_neg (by norm_num [tripleProduct, V2.dot]), if_neg (by norm_num [tripleProduct, V2.dot])]
  have hneg : (-⟨1, 2⟩ : V2 ℝ) = ⟨-1, -2⟩ := by ext <;> simp
  set A : SP (V2 ℝ) := ⟨⟨1, 2⟩, ⟨1, 1⟩, ⟨0, -1⟩⟩ with hA
  set B : SP (V2 ℝ) := ⟨⟨-3, -6⟩, ⟨-1, -1⟩, ⟨2, 5⟩⟩ with hB
  set C : SP (V2 ℝ) := ⟨⟨-3, 2⟩, ⟨-1, 1⟩, ⟨2, -1⟩⟩ with hC
  refine ⟨[A, B, C], Contact.newWithPoint .fullResolution ⟨0, 1⟩ 2 ?_, ?_, ?_, rfl, ?_⟩
  · exact (⟨-1, 1⟩ : V2 ℝ) + ((⟨1, 1⟩ : V2 ℝ) - ⟨-1, 1⟩) * (3 / 4 : ℝ)
  · unfold gjkIntersect gjkRun
    rw [hp0, hp1, hd]
    dsimp only
    rw [q0, Res.bind_ok, if_neg (by simp only [hA, Inner.dot, V2.dot]; norm_num), hneg]
    unfold gjkLoop
    rw [q1, Res.bind_ok, if_neg (by simp only [hB, Inner.dot, V2.dot]; norm_num)]
    dsimp only [List.cons_append, List.nil_append]
    rw [r1 A B rfl rfl, if_neg (by simp)]
    unfold gjkLoop
    rw [q2, Res.bind_ok, if_neg (by simp only [hC, Inner.dot, V2.dot]; norm_num)]
    dsimp only [List.cons_append, List.nil_append]
    rw [r2 A B C rfl rfl rfl, if_pos rfl]
    rfl
  · have nrm : ∀ x y r : ℝ, 0 ≤ r → x * x + y * y = r ^ 2 → (⟨x, y⟩ : V2 ℝ).norm = r := by
      intro x y r hr h
      rw [V2.norm, show (⟨x, y⟩ : V2 ℝ).dot ⟨x, y⟩ = r ^ 2 from h, Real.sqrt_sq hr]
    have n1 : (⟨-192, 0⟩ : V2 ℝ).normalize = ⟨-1, 0⟩ := by
      unfold V2.normalize; rw [nrm _ _ 192 (by norm_num) (by norm_num)]; ext <;> norm_num
    have n2 : (⟨0, 32⟩ : V2 ℝ).normalize = ⟨0, 1⟩ := by
      unfold V2.normalize; rw [nrm _ _ 32 (by norm_num) (by norm_num)]; ext <;> norm_num
    have t1 : tripleProduct ((⟨-3, -6⟩ : V2 ℝ) - ⟨1, 2⟩) ⟨1, 2⟩ (⟨-3, -6⟩ - ⟨1, 2⟩) = 0 := by ext <;> norm_num [tripleProduct]
    have t2 : tripleProduct ((⟨-3, 2⟩ : V2 ℝ) - ⟨-3, -6⟩) ⟨-3, -6⟩ (⟨-3, 2⟩ - ⟨-3, -6⟩) = ⟨-192, 0⟩ := by ext <;> norm_num [tripleProduct]
    have t3 : tripleProduct ((⟨1, 2⟩ : V2 ℝ) - ⟨-3, 2⟩) ⟨-3, 2⟩ (⟨1, 2⟩ - ⟨-3, 2⟩) = ⟨0, 32⟩ := by ext <;> norm_num [tripleProduct]
    have hce : closestEdge [A, B, C] = .ok (some ⟨⟨0, 1⟩, 2, 0⟩) := by
      unfold closestEdge
      rw [if_neg (by simp)]
      have : closestEdgeLoop [⟨1, 2⟩, ⟨-3, -6⟩, ⟨-3, 2⟩] [0, 1, 2] none = .ok (some ⟨⟨0, 1⟩, 2, 0⟩) := by
        have z2 : (⟨-192, 0⟩ : V2 ℝ) ≠ 0 := by intro h; have := congrArg V2.x h; norm_num at this
        have z3 : (⟨0, 32⟩ : V2 ℝ) ≠ 0 := by intro h; have := congrArg V2.y h; norm_num at this
        have g0 : (Res.ofOption (some (⟨1, 2⟩ : V2 ℝ))) = .ok ⟨1, 2⟩ := rfl
        have k1 : closestEdgeLoop [⟨1, 2⟩, ⟨-3, -6⟩, ⟨-3, 2⟩] [0, 1, 2] none = closestEdgeLoop [⟨1, 2⟩, ⟨-3, -6⟩, ⟨-3, 2⟩] [1, 2] none := by
          show (if tripleProduct ((⟨-3, -6⟩ : V2 ℝ) - ⟨1, 2⟩) ⟨1, 2⟩ (⟨-3, -6⟩ - ⟨1, 2⟩) = 0 then _ else _) = _
          rw [if_pos t1]
        have k2 : closestEdgeLoop [⟨1, 2⟩, ⟨-3, -6⟩, ⟨-3, 2⟩] [1, 2] none = closestEdgeLoop [⟨1, 2⟩, ⟨-3, -6⟩, ⟨-3, 2⟩] [2] (some ⟨⟨-1, 0⟩, 3, 2⟩) := by
          show (if tripleProduct ((⟨-3, 2⟩ : V2 ℝ) - ⟨-3, -6⟩) ⟨-3, -6⟩ (⟨-3, 2⟩ - ⟨-3, -6⟩) = 0 then _ else
            closestEdgeLoop [⟨1, 2⟩, ⟨-3, -6⟩, ⟨-3, 2⟩] [2] (some ⟨(tripleProduct ((⟨-3, 2⟩ : V2 ℝ) - ⟨-3, -6⟩) ⟨-3, -6⟩ (⟨-3, 2⟩ - ⟨-3, -6⟩)).normalize,
              (tripleProduct ((⟨-3, 2⟩ : V2 ℝ) - ⟨-3, -6⟩) ⟨-3, -6⟩ (⟨-3, 2⟩ - ⟨-3, -6⟩)).normalize.dot ⟨-3, -6⟩, 2⟩)) = _
          rw [t2, if_neg z2, n1]
          congr 3
          norm_num [V2.dot]
        have k3 : closestEdgeLoop [⟨1, 2⟩, ⟨-3, -6⟩, ⟨-3, 2⟩] [2] (some ⟨⟨-1, 0⟩, 3, 2⟩) = .ok (some ⟨⟨0, 1⟩, 2, 0⟩) := by
          have e : (⟨0, 1⟩ : V2 ℝ).dot ⟨-3, 2⟩ = 2 := by norm_num [V2.dot]
          show (if tripleProduct ((⟨1, 2⟩ : V2 ℝ) - ⟨-3, 2⟩) ⟨-3, 2⟩ (⟨1, 2⟩ - ⟨-3, 2⟩) = 0 then _ else
            Res.ok (if (tripleProduct ((⟨1, 2⟩ : V2 ℝ) - ⟨-3, 2⟩) ⟨-3, 2⟩ (⟨1, 2⟩ - ⟨-3, 2⟩)).normalize.dot ⟨-3, 2⟩ < (3 : ℝ) then
              (some (EEdge.mk (tripleProduct ((⟨1, 2⟩ : V2 ℝ) - ⟨-3, 2⟩) ⟨-3, 2⟩ (⟨1, 2⟩ - ⟨-3, 2⟩)).normalize
                ((tripleProduct ((⟨1, 2⟩ : V2 ℝ) - ⟨-3, 2⟩) ⟨-3, 2⟩ (⟨1, 2⟩ - ⟨-3, 2⟩)).normalize.dot ⟨-3, 2⟩) 0)) else _)) = _
          rw [t3, if_neg z3, n2, e, if_pos (by norm_num)]
        rw [k1, k2, k3]
      show (closestEdgeLoop [⟨1, 2⟩, ⟨-3, -6⟩, ⟨-3, 2⟩] [0, 1, 2] none >>= fun e => match e with | none => .panic | some e => pure (some e) : Res _) = _
      rw [this]
      rfl
    unfold epa2Run
    rw [hce, Res.bind_ok]
    dsimp only
    unfold epa2Loop
    rw [q3, Res.bind_ok]
    dsimp only
    rw [if_pos (by norm_num [V2.dot, hA]; exact htol)]
    have hpt : epaPoint2 [A, B, C] ⟨⟨0, 1⟩, 2, 0⟩ = .ok ((⟨-1, 1⟩ : V2 ℝ) + ((⟨1, 1⟩ : V2 ℝ) - ⟨-1, 1⟩) * (3 / 4 : ℝ)) := by
      have e : (-⟨-3, 2⟩ : V2 ℝ).dot (⟨1, 2⟩ - ⟨-3, 2⟩) / ((⟨1, 2⟩ : V2 ℝ) - ⟨-3, 2⟩).dot (⟨1, 2⟩ - ⟨-3, 2⟩) = 3 / 4 := by norm_num [V2.dot]
      show (if (-⟨-3, 2⟩ : V2 ℝ).dot (⟨1, 2⟩ - ⟨-3, 2⟩) / ((⟨1, 2⟩ : V2 ℝ) - ⟨-3, 2⟩).dot (⟨1, 2⟩ - ⟨-3, 2⟩) < 0 then (pure _ : Res (V2 ℝ)) else
        if (-⟨-3, 2⟩ : V2 ℝ).dot (⟨1, 2⟩ - ⟨-3, 2⟩) / ((⟨1, 2⟩ : V2 ℝ) - ⟨-3, 2⟩).dot (⟨1, 2⟩ - ⟨-3, 2⟩) > 1 then pure _ else
          pure ((⟨-1, 1⟩ : V2 ℝ) + ((⟨1, 1⟩ : V2 ℝ) - ⟨-1, 1⟩) * ((-⟨-3, 2⟩ : V2 ℝ).dot (⟨1, 2⟩ - ⟨-3, 2⟩) / ((⟨1, 2⟩ : V2 ℝ) - ⟨-3, 2⟩).dot (⟨1, 2⟩ - ⟨-3, 2⟩)))) = _
      rw [e, if_neg (by norm_num), if_neg (by norm_num)]
      rfl
    show (epaPoint2 [A, B, C] ⟨⟨0, 1⟩, 2, 0⟩ >>= fun p => pure (some (Contact.newWithPoint .fullResolution ⟨0, 1⟩ 2 p, true)) : Res _) = _
    rw [hpt]
    rfl
  · rintro _ _ ⟨p, hp, rfl⟩ ⟨q, hq, rfl⟩
    have h1 : p.x ≤ 1 := by have := hp.1.2; simp [Rectangle.new, Rectangle.newImpl] at this; linarith
    have h2 : -1 ≤ q.x := by have := hq.1.1; simp [Rectangle.new, Rectangle.newImpl] at this; linarith
    simp [shift2, Dec2.tr, M2.apply, V2.dot]
    linarith

/-- The hypotheses of `c70_2d_partial` are met by two 2 by 2 rectangles at offset (1/2, 1). -/
example : (match gjkIntersect reduce2 100 ((Rectangle.new 2 2).supportPoint (⟨1, ⟨⟨1, 0⟩, ⟨0, 1⟩⟩, ⟨0, 0⟩⟩ : Dec2 ℚ).tr)
      ((Rectangle.new 2 2).supportPoint (⟨1, ⟨⟨1, 0⟩, ⟨0, 1⟩⟩, ⟨1 / 2, 1⟩⟩ : Dec2 ℚ).tr) ⟨0, 0⟩ ⟨1 / 2, 1⟩ with
    | .ok (some [a, b, c]) => decide (a.v.perpDot b.v ≠ 0 ∧ b.v.perpDot c.v ≠ 0 ∧ c.v.perpDot a.v ≠ 0)
    | _ => false) = true := by decide +kernel
end
end Verif.Minkowski
