import Verif.Minkowski.Epa2Shapes
/-!
# The contact point of EPA in 2D (C80)
-/
namespace Verif.Minkowski
open Verif Geom Primitive
set_option linter.unusedSectionVars false
noncomputable section

/-- What C80 says in 2D of a contact with normal `n`, depth `d` and point `x`: the contact point is in the left shape, a point `y` of the right shape lies `d` behind it along the normal,
and the two points are the nearest in the following sense: `x - y` is the point nearest to zero on a segment between two differences `a - b`, `a' - b'` of points of the shapes, both at `d`
along the normal. -/
def SegmentPoint (L R : V2 ℝ → Prop) (n : V2 ℝ) (d : ℝ) (x : V2 ℝ) : Prop :=
  L x ∧ ∃ y, R y ∧ (x - y).dot n = d ∧ ∃ a b a' b' : V2 ℝ, ∃ t : ℝ, L a ∧ R b ∧ L a' ∧ R b' ∧ (a - b).dot n = d ∧ (a' - b').dot n = d ∧ a - b ≠ a' - b' ∧ 0 ≤ t ∧ t ≤ 1 ∧
    x = a + (a' - a) * t ∧ y = b + (b' - b) * t ∧ ∀ s : ℝ, 0 ≤ s → s ≤ 1 → (x - y).norm ≤ ((a - b) + ((a' - b') - (a - b)) * s).norm

/-- the clamped foot of the perpendicular is the nearest point of the segment -/
theorem clamp_nearest (a b : V2 ℝ) (hab : a ≠ b) (t : ℝ) (ht : t = if (-a).dot (b - a) / (b - a).dot (b - a) < 0 then 0 else if (-a).dot (b - a) / (b - a).dot (b - a) > 1 then 1
    else (-a).dot (b - a) / (b - a).dot (b - a)) : 0 ≤ t ∧ t ≤ 1 ∧ ∀ s : ℝ, 0 ≤ s → s ≤ 1 → (a + (b - a) * t).norm ≤ (a + (b - a) * s).norm := by
  have hne : b - a ≠ 0 := by
    intro h; apply hab
    have h1 := congrArg V2.x h
    have h2 := congrArg V2.y h
    simp at h1 h2
    ext <;> linarith
  have hpos : 0 < (b - a).dot (b - a) := dot_self_pos2 hne
  set S := (b - a).dot (b - a) with hS
  set P := (-a).dot (b - a) with hP
  have hq : ∀ s : ℝ, (a + (b - a) * s).dot (a + (b - a) * s) = a.dot a - 2 * P * s + S * s ^ 2 := by
    intro s
    simp only [hS, hP, V2.dot, V2.add_x, V2.add_y, V2.mul_x, V2.mul_y, V2.sub_x, V2.sub_y, V2.neg_x, V2.neg_y]; ring
  have key : ∀ s t : ℝ, 0 ≤ (s - t) * (S * (s + t) - 2 * P) → (a + (b - a) * t).norm ≤ (a + (b - a) * s).norm := by
    intro s t h
    apply Real.sqrt_le_sqrt
    rw [hq, hq]
    nlinarith
  split at ht
  · rename_i h
    have hP0 : P < 0 := by
      by_contra hc
      exact absurd (div_nonneg (not_lt.1 hc) hpos.le) (not_le.2 h)
    subst ht
    refine ⟨le_refl _, zero_le_one, fun s h0 h1 => key s 0 ?_⟩
    apply mul_nonneg <;> nlinarith
  · split at ht
    · rename_i h
      have hP1 : S < P := by
        have h' : 1 < P / S := h
        rw [lt_div_iff₀ hpos] at h'; linarith
      subst ht
      refine ⟨zero_le_one, le_refl _, fun s h0 h1 => key s 1 ?_⟩
      apply mul_nonneg_of_nonpos_of_nonpos <;> nlinarith
    · rename_i h h'
      subst ht
      refine ⟨not_lt.1 h, not_lt.1 h', fun s h0 h1 => key s _ ?_⟩
      have e : S * (s + P / S) - 2 * P = S * (s - P / S) := by field_simp; ring
      rw [e]
      have : (s - P / S) * (S * (s - P / S)) = S * (s - P / S) ^ 2 := by ring
      rw [this]; positivity

theorem epaPoint2_segment {L R : V2 ℝ → Prop} (hL : Convex2 L) (hR : Convex2 R) {s : List (SP (V2 ℝ))} {e : EEdge} {i : Nat} {x : V2 ℝ} (hf : ∀ p ∈ s, FromShapes2 L R p)
    (he : EdgeOf (s.map SP.v) i e) (h : epaPoint2 s e = .ok x) : SegmentPoint L R e.normal e.distance x := by
  obtain ⟨va, vb, ⟨c1, c2⟩, hperp, -, -, da, db, hidx⟩ := edgeOf_iff he
  rw [List.length_map] at hidx c2
  rw [List.getElem?_map] at c1 c2
  obtain ⟨a, ha, rfl⟩ := Option.map_eq_some_iff.1 c1
  obtain ⟨b, hb, rfl⟩ := Option.map_eq_some_iff.1 c2
  rw [← hidx] at hb
  have hi : i < s.length := by
    by_contra hc
    rw [List.getElem?_eq_none (by omega)] at ha; cases ha
  -- the start of the edge is the vertex before `index`
  have hprev : (if e.index = 0 then Res.ofOption s[s.length - 1]? else Res.ofOption s[e.index - 1]?) = .ok a := by
    unfold nextIdx at hidx
    split at hidx
    · rw [if_pos hidx, show s.length - 1 = i by omega, ha]; rfl
    · rw [if_neg (by omega), show e.index - 1 = i by omega, ha]; rfl
  have hamem := hf a (List.mem_of_getElem? ha)
  have hbmem := hf b (List.mem_of_getElem? hb)
  obtain ⟨a1, a2, a3⟩ := hamem
  obtain ⟨b1, b2, b3⟩ := hbmem
  have hab : a.v ≠ b.v := by
    intro h; apply hperp; rw [h]; simp only [V2.perpDot]; ring
  obtain ⟨t, ht⟩ : ∃ t : ℝ, t = if (-a.v).dot (b.v - a.v) / (b.v - a.v).dot (b.v - a.v) < 0 then 0 else if (-a.v).dot (b.v - a.v) / (b.v - a.v).dot (b.v - a.v) > 1 then 1
    else (-a.v).dot (b.v - a.v) / (b.v - a.v).dot (b.v - a.v) := ⟨_, rfl⟩
  have hx : x = a.supA + (b.supA - a.supA) * t := by
    unfold epaPoint2 at h
    rw [hb] at h
    simp only [Res.ofOption_some, Res.bind_ok] at h
    have main : (if (-a.v).dot (b.v - a.v) / (b.v - a.v).dot (b.v - a.v) < 0 then (pure a.supA : Res (V2 ℝ)) else if (-a.v).dot (b.v - a.v) / (b.v - a.v).dot (b.v - a.v) > 1 then pure b.supA
        else pure (a.supA + (b.supA - a.supA) * ((-a.v).dot (b.v - a.v) / (b.v - a.v).dot (b.v - a.v)))) = .ok x → x = a.supA + (b.supA - a.supA) * t := by
      intro h
      split at h
      · rename_i hc
        rw [if_pos hc] at ht
        cases h; rw [ht]; ext <;> simp
      · rename_i hc
        rw [if_neg hc] at ht
        split at h
        · rename_i hc'
          rw [if_pos hc'] at ht
          cases h; rw [ht]; ext <;> simp
        · rename_i hc'
          rw [if_neg hc'] at ht
          cases h; rw [ht]
    split at h
    · rename_i h0
      rw [if_pos h0] at hprev
      rw [hprev, Res.bind_ok] at h
      exact main h
    · rename_i h0
      rw [if_neg h0] at hprev
      rw [hprev, Res.bind_ok] at h
      exact main h
  obtain ⟨t0, t1, tmin⟩ := clamp_nearest a.v b.v hab t ht
  have hxy : x - (a.supB + (b.supB - a.supB) * t) = a.v + (b.v - a.v) * t := by
    rw [hx, a3, b3]; ext <;> simp <;> ring
  refine ⟨by rw [hx]; exact hL _ _ _ a1 b1 t0 t1, a.supB + (b.supB - a.supB) * t, hR _ _ _ a2 b2 t0 t1, ?_, a.supA, a.supB, b.supA, b.supB, t, a1, a2, b1, b2, ?_, ?_, ?_, t0, t1, hx, rfl, ?_⟩
  · rw [hxy]
    have : (a.v + (b.v - a.v) * t).dot e.normal = a.v.dot e.normal + (b.v.dot e.normal - a.v.dot e.normal) * t := by
      simp only [V2.dot, V2.add_x, V2.add_y, V2.mul_x, V2.mul_y, V2.sub_x, V2.sub_y]; ring
    rw [this, da, db]; ring
  · rw [← a3]; exact da
  · rw [← b3]; exact db
  · rw [← a3, ← b3]; exact hab
  · intro s h0 h1
    rw [hxy, ← a3, ← b3]
    exact tmin s h0 h1

/-- C80 in 2D, every starting simplex made of points of the shapes. -/
theorem c80_2d (L R : V2 ℝ → Prop) (hL : Convex2 L) (hR : Convex2 R) {left right : V2 ℝ → Res (V2 ℝ)} (hl : SupportFn2 left L) (hr : SupportFn2 right R)
    (tolerance : ℝ) (maxIterations : Nat) {simplex : List (SP (V2 ℝ))} (hs : ∀ p ∈ simplex, L p.supA ∧ R p.supB ∧ p.v = p.supA - p.supB) {c : Contact (V2 ℝ) ℝ} {converged : Bool}
    (h : epa2Run tolerance maxIterations left right simplex = .ok (some (c, converged))) : SegmentPoint L R c.normal c.depth c.point := by
  unfold epa2Run at h
  rw [Res.bind_eq_ok] at h
  obtain ⟨o, ho, h⟩ := h
  cases o with
  | none => cases h
  | some e =>
    dsimp only at h
    rw [Res.bind_eq_ok] at h
    obtain ⟨r, hr', h⟩ := h
    rw [Res.bind_eq_ok] at h
    obtain ⟨pt, hpt, h⟩ := h
    cases h
    have h3 : 3 ≤ simplex.length := by
      by_contra hc
      unfold closestEdge at ho
      rw [if_pos (by omega)] at ho
      cases ho
    obtain ⟨e', h1, h2, h4⟩ := closestEdge_spec ho h3
    cases h1
    obtain ⟨k1, _, k2, ⟨i, k3⟩, _, k4⟩ := epa2Loop_spec hl hr (fun _ => True) (fun _ _ _ _ _ _ _ _ _ _ _ => trivial) maxIterations simplex e r h3 trivial hs h2 h4 hr'
    exact epaPoint2_segment hL hR k2 k3 hpt

/-- C80 for the full pipeline in 2D (`GJK2::intersection` with `FullResolution`), any convex shapes. -/
theorem c80_pipeline_2d (L R : V2 ℝ → Prop) (hL : Convex2 L) (hR : Convex2 R) {left right : V2 ℝ → Res (V2 ℝ)} (hl : SupportFn2 left L) (hr : SupportFn2 right R)
    (tolerance : ℝ) (n m : Nat) (lp rp : V2 ℝ) {c : Contact (V2 ℝ) ℝ}
    (h : gjkIntersection reduce2 n (epa2 tolerance m left right) .fullResolution left right lp rp = .ok (some c)) : SegmentPoint L R c.normal c.depth c.point := by
  obtain ⟨-, -, -, s, cv, h1, h2, -⟩ := c55_pipeline_2d L R hL hl hr tolerance n m lp rp h
  exact c80_2d L R hL hR hl hr tolerance m (gjkIntersect2_good hl hr h1).from h2

/-- C80 for 2D primitives under similarity transforms. -/
theorem c80_prim2 (s t : Prim2) (hs : s.Ok) (ht : t.Ok) (D E : Dec2 ℝ) (hD : D.rot.Orthogonal) (hE : E.rot.Orthogonal) (hDs : D.scale ≠ 0) (hEs : E.scale ≠ 0)
    (tolerance : ℝ) (n m : Nat) {c : Contact (V2 ℝ) ℝ}
    (h : gjkIntersection reduce2 n (epa2 tolerance m (s.supportPoint D.tr) (t.supportPoint E.tr)) .fullResolution (s.supportPoint D.tr) (t.supportPoint E.tr)
      (D.tr.point 0) (E.tr.point 0) = .ok (some c)) : SegmentPoint (Image D.tr s.Points) (Image E.tr t.Points) c.normal c.depth c.point :=
  c80_pipeline_2d _ _ (image_convex2 D (prim2_convex s)) (image_convex2 E (prim2_convex t)) (prim2_support s hs D hD hDs) (prim2_support t ht E hE hEs) _ _ _ _ _ h
end
end Verif.Minkowski
