import Verif.Minkowski.Complex
/-!
# Complex shapes (C56) end to end in 3D
-/
namespace Verif.Minkowski
open Verif Geom Primitive
set_option linter.unusedSectionVars false
noncomputable section
open Classical

theorem concat_orth3 {D E : Dec3 ℝ} (hD : D.rot.Orthogonal) (hE : E.rot.Orthogonal) : (Dec3.concat D E).rot.Orthogonal := by
  obtain ⟨⟨a, b, c, d, e, f⟩, hA⟩ := hD
  obtain ⟨⟨a', b', c', d', e', f'⟩, hB⟩ := hE
  have hdot : ∀ x y, (D.rot.apply x).dot (D.rot.apply y) = x.dot y := by
    intro x y
    simp only [M3.apply, V3.dot, V3.add_x, V3.add_y, V3.add_z, V3.mul_x, V3.mul_y, V3.mul_z] at *
    linear_combination x.x * y.x * a + x.y * y.y * b + x.z * y.z * c + (x.x * y.y + x.y * y.x) * d + (x.x * y.z + x.z * y.x) * e + (x.y * y.z + x.z * y.y) * f
  refine ⟨⟨?_, ?_, ?_, ?_, ?_, ?_⟩, ?_⟩ <;> simp only [Dec3.concat, hdot] <;> try assumption
  intro v
  have e1 : (M3.transpose ⟨D.rot.apply E.rot.c0, D.rot.apply E.rot.c1, D.rot.apply E.rot.c2⟩).apply v = E.rot.transpose.apply (D.rot.transpose.apply v) := by
    simp only [M3.apply, M3.transpose]
    ext <;> simp <;> ring
  have e2 : ∀ w, (M3.mk (D.rot.apply E.rot.c0) (D.rot.apply E.rot.c1) (D.rot.apply E.rot.c2)).apply w = D.rot.apply (E.rot.apply w) := by
    intro w
    simp only [M3.apply]
    ext <;> simp <;> ring
  rw [e1, e2, hB, hA]

theorem compound_image3 {shape : List (Prim3 × Dec3 ℝ)} {D : Dec3 ℝ} {x : V3 ℝ} :
    Compound3 shape D x ↔ ∃ s ∈ shape, Image (Dec3.concat D s.2).tr s.1.Points x := by
  constructor
  · rintro ⟨s, hs, p, hp, rfl⟩; exact ⟨s, hs, p, hp, (concat_point3 _ _ _).symm⟩
  · rintro ⟨s, hs, p, hp, rfl⟩; exact ⟨s, hs, p, hp, concat_point3 _ _ _⟩

/-- The primitives and local transforms of a compound shape are usable: sizes as the constructors make them, rotations, non-zero scales. -/
def CompoundOk3 (shape : List (Prim3 × Dec3 ℝ)) : Prop := ∀ s ∈ shape, s.1.Ok ∧ s.2.rot.Orthogonal ∧ s.2.scale ≠ 0

/-- C56 end to end, distance of 3D compound shapes: attained by points of the shapes, and no two points are closer than the tolerance allows. -/
theorem c56_distance_prim3 (left right : List (Prim3 × Dec3 ℝ)) (hl : CompoundOk3 left) (hr : CompoundOk3 right) (nz nz' : Prim3 → V3 ℝ → Bool) (D E : Dec3 ℝ) (hD : D.rot.Orthogonal)
    (hE : E.rot.Orthogonal) (hDs : D.scale ≠ 0) (hEs : E.scale ≠ 0) {tolerance : ℝ} (htol : 0 ≤ tolerance) (maxIterations : Nat) {δ : ℝ}
    {nan : (Prim3 × Dec3 ℝ) → (Prim3 × Dec3 ℝ) → Res (SP (V3 ℝ))} (hn : ∀ s t p, nan s t = .ok p → FromShapes3 (Image s.2.tr s.1.Points) (Image t.2.tr t.1.Points) p)
    (h : distanceComplex Dec3.concat Dec3.concat
      (fun s t => gjkDistance closest3 tolerance maxIterations (s.1.supportPoint (nz s.1) s.2.tr) (t.1.supportPoint (nz' t.1) t.2.tr) (nan s t) (s.2.tr.point 0) (t.2.tr.point 0))
      left D right E = .ok (some δ)) :
    0 < δ ∧ (∃ x y, Compound3 left D x ∧ Compound3 right E y ∧ (x - y).norm = δ) ∧
      ∀ x y, Compound3 left D x → Compound3 right E y → δ - tolerance / δ < (x - y).norm := by
  obtain ⟨h1, _⟩ := c56_distance h
  obtain ⟨⟨l, hl', r, hr', e⟩, h2⟩ := h1 δ rfl
  have key : ∀ l ∈ left, ∀ r ∈ right, ∀ {d : ℝ}, _ → _ := fun l hl' r hr' {d} e =>
    c54_prim3 l.1 r.1 (hl l hl').1 (hr r hr').1 (nz l.1) (nz' r.1) (Dec3.concat D l.2) (Dec3.concat E r.2) (concat_orth3 hD (hl l hl').2.1) (concat_orth3 hE (hr r hr').2.1)
      (mul_ne_zero hDs (hl l hl').2.2) (mul_ne_zero hEs (hr r hr').2.2) (hn (l.1, Dec3.concat D l.2) (r.1, Dec3.concat E r.2)) tolerance maxIterations (δ := d) e
  obtain ⟨k1, ⟨x, y, hx, hy, k2⟩, _⟩ := key l hl' r hr' e
  refine ⟨k1, ⟨x, y, compound_image3.mpr ⟨l, hl', hx⟩, compound_image3.mpr ⟨r, hr', hy⟩, k2⟩, ?_⟩
  intro x y hx hy
  obtain ⟨l', hl'', hx'⟩ := compound_image3.mp hx
  obtain ⟨r', hr'', hy'⟩ := compound_image3.mp hy
  obtain ⟨d', e', hle⟩ := h2 l' hl'' r' hr''
  obtain ⟨g1, _, g2⟩ := key l' hl'' r' hr'' e'
  have := g2 x y hx' hy'
  have hdiv : tolerance / d' ≤ tolerance / δ := div_le_div_of_nonneg_left htol k1 hle
  linarith

theorem concat_glide3 {D D' : Dec3 ℝ} (hr : D'.rot = D.rot) (hs : D'.scale = D.scale) (L : Dec3 ℝ) (t : ℝ) :
    Dec3.glide (Dec3.concat D L) (Dec3.concat D' L) t = Dec3.concat (Dec3.glide D D' t) L := by
  simp only [Dec3.glide, Dec3.concat, Dec3.tr, hr, hs]
  congr 1
  ext <;> simp <;> ring

/-- C56 end to end, time of impact of 3D compound shapes that translate without turning: `None` only if they never meet, else no meeting before the time reported, and at that
time two points of the shapes are as close as the reported depth, at most the square root of the tolerance. -/
theorem c56_toi_prim3 (left right : List (Prim3 × Dec3 ℝ)) (hl : CompoundOk3 left) (hr : CompoundOk3 right) (nz nz' : Prim3 → V3 ℝ → Bool) (D D' E E' : Dec3 ℝ) (hD : D.rot.Orthogonal)
    (hE : E.rot.Orthogonal) (hDs : D.scale ≠ 0) (hEs : E.scale ≠ 0) (hDr : D'.rot = D.rot) (hDsc : D'.scale = D.scale) (hEr : E'.rot = E.rot) (hEsc : E'.scale = E.scale)
    {tolerance : ℝ} (htol : 0 ≤ tolerance) (fuel : Nat) {o : Option (Contact (V3 ℝ) ℝ)}
    (h : toiComplex (fun (G : Dec3 ℝ × Dec3 ℝ) L => (Dec3.concat G.1 L, Dec3.concat G.2 L)) (fun (G : Dec3 ℝ × Dec3 ℝ) L => (Dec3.concat G.1 L, Dec3.concat G.2 L))
      (fun s t => gjkToi closest3 V3.normalize tolerance fuel (s.1.supportPoint (nz s.1) s.2.1.tr) (t.1.supportPoint (nz' t.1) t.2.1.tr) (s.2.1.tr.point 0) (s.2.2.tr.point 0)
        (t.2.1.tr.point 0) (t.2.2.tr.point 0) (fun u => (Dec3.translationInterpolate t.2.1 t.2.2 u).tr.point))
      .fullResolution left (D, D') right (E, E') = .ok o) :
    (o = none → ∀ t, 0 ≤ t → t ≤ 1 → ¬ ∃ z, Compound3 left (Dec3.glide D D' t) z ∧ Compound3 right (Dec3.glide E E' t) z) ∧
    ∀ c, o = some c → 0 ≤ c.toi ∧ c.toi ≤ 1 ∧
      (∀ t, 0 ≤ t → t < c.toi → ¬ ∃ z, Compound3 left (Dec3.glide D D' t) z ∧ Compound3 right (Dec3.glide E E' t) z) ∧
      c.depth * c.depth ≤ tolerance ∧
      (∃ x y, Compound3 left (Dec3.glide D D' c.toi) x ∧ Compound3 right (Dec3.glide E E' c.toi) y ∧ (x - y).norm = c.depth) := by
  have key : ∀ l ∈ left, ∀ r ∈ right, ∀ {o : Option (Contact (V3 ℝ) ℝ)}, _ → _ := fun l hl' r hr' {o} e =>
    c66_prim3 l.1 r.1 (hl l hl').1 (hr r hr').1 (nz l.1) (nz' r.1) (Dec3.concat D l.2) (Dec3.concat D' l.2) (Dec3.concat E r.2) (Dec3.concat E' r.2)
      (concat_orth3 hD (hl l hl').2.1) (concat_orth3 hE (hr r hr').2.1) (mul_ne_zero hDs (hl l hl').2.2) (mul_ne_zero hEs (hr r hr').2.2) htol fuel (r := o) e
  obtain ⟨k1, k2⟩ := c56_toi h
  constructor
  · rintro hn t t0 t1 ⟨z, hz1, hz2⟩
    obtain ⟨l, hl', hx⟩ := compound_image3.mp hz1
    obtain ⟨r, hr', hy⟩ := compound_image3.mp hz2
    have := (key l hl' r hr' (k1.mp hn l hl' r hr')).1 rfl t t0 t1
    apply this
    rw [concat_glide3 hDr hDsc, concat_glide3 hEr hEsc]
    exact ⟨z, hx, hy⟩
  · intro c hc
    obtain ⟨⟨l, hl', r, hr', e⟩, hmin⟩ := k2 c hc
    obtain ⟨g1, g2, g3, g4, g5, _⟩ := (key l hl' r hr' e).2 c rfl
    refine ⟨g1, g2, ?_, g4, ?_⟩
    · rintro t t0 t1 ⟨z, hz1, hz2⟩
      obtain ⟨l', hl'', hx⟩ := compound_image3.mp hz1
      obtain ⟨r', hr'', hy⟩ := compound_image3.mp hz2
      have hall : ∃ o', gjkToi closest3 V3.normalize tolerance fuel (l'.1.supportPoint (nz l'.1) (Dec3.concat D l'.2).tr) (r'.1.supportPoint (nz' r'.1) (Dec3.concat E r'.2).tr)
          ((Dec3.concat D l'.2).tr.point 0) ((Dec3.concat D' l'.2).tr.point 0) ((Dec3.concat E r'.2).tr.point 0) ((Dec3.concat E' r'.2).tr.point 0)
          (fun u => (Dec3.translationInterpolate (Dec3.concat E r'.2) (Dec3.concat E' r'.2) u).tr.point) = .ok o' := by
        unfold toiComplex at h
        rw [Res.bind_eq_ok] at h
        obtain ⟨s, hs, h⟩ := h
        obtain ⟨cs, _, h2, _⟩ := collect_full hs
        rcases h2 _ (mem_pairs.mpr ⟨l', hl'', r', hr'', rfl⟩) with h2 | ⟨c', _, h2⟩
        · exact ⟨_, h2⟩
        · exact ⟨_, h2⟩
      obtain ⟨o', ho'⟩ := hall
      have hz : ∃ z, Image (Dec3.glide (Dec3.concat D l'.2) (Dec3.concat D' l'.2) t).tr l'.1.Points z ∧
          Image (Dec3.glide (Dec3.concat E r'.2) (Dec3.concat E' r'.2) t).tr r'.1.Points z := by
        rw [concat_glide3 hDr hDsc, concat_glide3 hEr hEsc]
        exact ⟨z, hx, hy⟩
      obtain ⟨m1, m2⟩ := key l' hl'' r' hr'' ho'
      cases o' with
      | none => exact m1 rfl t t0 (by linarith) hz
      | some c' =>
        have := hmin l' hl'' r' hr'' c' ho'
        exact (m2 c' rfl).2.2.1 t t0 (by linarith) hz
    · obtain ⟨x, y, hx, hy, hd⟩ := g5
      rw [concat_glide3 hDr hDsc] at hx
      rw [concat_glide3 hEr hEsc] at hy
      exact ⟨x, y, compound_image3.mpr ⟨l, hl', hx⟩, compound_image3.mpr ⟨r, hr', hy⟩, hd⟩

/-- C56 end to end: in `CollisionOnly` mode, for 3D compound shapes of particles, quads, boxes and polyhedra, the loop does not panic and answers `Some` only if the compound
shapes share a point. -/
theorem c56_intersect_prim3 (left right : List (Prim3 × Dec3 ℝ)) (hl : CompoundOk3 left) (hr : CompoundOk3 right) (hlf : ∀ s ∈ left, Flat3 s.1)
    (hrf : ∀ s ∈ right, Flat3 s.1) (nz nz' : Prim3 → V3 ℝ → Bool) (D E : Dec3 ℝ) (hDs : D.scale ≠ 0) (hEs : E.scale ≠ 0) (maxIterations : Nat)
    (epa : (Prim3 × Dec3 ℝ) → (Prim3 × Dec3 ℝ) → List (SP (V3 ℝ)) → Res (Option (Contact (V3 ℝ) ℝ))) :
    ∃ o, intersectionComplex Dec3.concat Dec3.concat
      (fun strategy s t => gjkIntersection reduce3 maxIterations (epa s t) strategy (s.1.supportPoint (nz s.1) s.2.tr) (t.1.supportPoint (nz' t.1) t.2.tr)
        (s.2.tr.point 0) (t.2.tr.point 0))
      .collisionOnly left D right E = .ok o ∧ (o.isSome → ∃ x, Compound3 left D x ∧ Compound3 right E x) := by
  have key : ∀ l ∈ left, ∀ r ∈ right, ∃ o, gjkIntersection reduce3 maxIterations (epa (l.1, Dec3.concat D l.2) (r.1, Dec3.concat E r.2)) .collisionOnly
      (l.1.supportPoint (nz l.1) (Dec3.concat D l.2).tr) (r.1.supportPoint (nz' r.1) (Dec3.concat E r.2).tr) ((Dec3.concat D l.2).tr.point 0) ((Dec3.concat E r.2).tr.point 0) = .ok o ∧
      (o.isSome → ∃ p, Image (Dec3.concat D l.2).tr l.1.Points p ∧ Image (Dec3.concat E r.2).tr r.1.Points p) := by
    intro l hl' r hr'
    obtain ⟨o, h1, h2⟩ := c53_prim3 l.1 r.1 (hl l hl').1 (hr r hr').1 (hlf l hl') (hrf r hr') (nz l.1) (nz' r.1) (Dec3.concat D l.2) (Dec3.concat E r.2)
      (mul_ne_zero hDs (hl l hl').2.2) (mul_ne_zero hEs (hr r hr').2.2) maxIterations
    unfold gjkIntersection
    have h1' : ∀ (inst : DecidableEq (V3 ℝ)), @gjkIntersect (V3 ℝ) ℝ _ _ _ inst _ _ _ reduce3 maxIterations (l.1.supportPoint (nz l.1) (Dec3.concat D l.2).tr)
        (r.1.supportPoint (nz' r.1) (Dec3.concat E r.2).tr) ((Dec3.concat D l.2).tr.point 0) ((Dec3.concat E r.2).tr.point 0) = .ok o := by
      intro inst; rw [← h1]; congr; exact Subsingleton.elim _ _
    rw [h1', Res.bind_ok]
    cases o with
    | none => exact ⟨none, rfl, nofun⟩
    | some x => exact ⟨_, rfl, fun _ => (h2 x rfl).1⟩
  obtain ⟨o, ho⟩ := c56_total (concatL := Dec3.concat) (concatR := Dec3.concat) (left := left) (right := right) (leftT := D) (rightT := E) (K := ℝ) (V := V3 ℝ)
    (test := fun strategy s t => gjkIntersection reduce3 maxIterations (epa s t) strategy (s.1.supportPoint (nz s.1) s.2.tr) (t.1.supportPoint (nz' t.1) t.2.tr)
      (s.2.tr.point 0) (t.2.tr.point 0))
    .collisionOnly (fun l hl' r hr' => (key l hl' r hr').imp fun _ h => h.1)
  refine ⟨o, ho, ?_⟩
  obtain ⟨-, k2⟩ := c56_only ho
  intro hs
  obtain ⟨c, rfl⟩ := Option.isSome_iff_exists.mp hs
  obtain ⟨l, hl', r, hr', e⟩ := k2 c rfl
  obtain ⟨o', h1, h2⟩ := key l hl' r hr'
  rw [e] at h1
  cases h1
  obtain ⟨p, hp, hq⟩ := h2 rfl
  exact ⟨p, compound_image3.mpr ⟨l, hl', hp⟩, compound_image3.mpr ⟨r, hr', hq⟩⟩

/-- Usable compound shapes exist: a cuboid with a ball beside it, and a flat one of a quad and a cube. -/
example : CompoundOk3 [(.cuboid (Cuboid.new 2 1 1), ⟨1, ⟨⟨1, 0, 0⟩, ⟨0, 1, 0⟩, ⟨0, 0, 1⟩⟩, 0⟩), (.sphere ⟨1⟩, ⟨1, ⟨⟨0, 1, 0⟩, ⟨-1, 0, 0⟩, ⟨0, 0, 1⟩⟩, ⟨3, 0, 0⟩⟩)] ∧
    Flat3 (.quad (Quad.new 1 1)) ∧ Flat3 (.cube (Cube.new 2)) := by
  refine ⟨?_, trivial, trivial⟩
  intro s hs
  simp only [List.mem_cons, List.not_mem_nil, or_false] at hs
  rcases hs with rfl | rfl
  · refine ⟨⟨2, 1, 1, by norm_num, by norm_num, by norm_num, rfl⟩, ⟨by simp [V3.dot], ?_⟩, by simp⟩
    intro v; ext <;> simp [M3.apply, M3.transpose]
  · refine ⟨by simp [Prim3.Ok], ⟨by simp [V3.dot], ?_⟩, by simp⟩
    intro v; ext <;> simp [M3.apply, M3.transpose]
end
end Verif.Minkowski
