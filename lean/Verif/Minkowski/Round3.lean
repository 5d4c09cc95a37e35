import Verif.Minkowski.Epa3Point
import Verif.Minkowski.Epa2Total

/-!
# C53, C79, C86 in 3D for every pair of primitives, spheres and capsules included

A sphere or a capsule has no support point in direction zero: in the code the point is NaN, in the model the run ends there with `.panic` (`nanPoint`). This file shows that this is the only
way a run of GJK in 3D can fail to answer, that it happens only for shapes that share a point, and that every run that answers is right, with no condition on the first support points.
-/

set_option linter.unusedSectionVars false

namespace Verif.Minkowski
open Verif.Geom Verif.Primitive Verif

/-- In direction zero `f` answers with a point of `S` or (NaN in the code) not at all. -/
def ZeroOk3 (f : V3 ℝ → Res (V3 ℝ)) (S : V3 ℝ → Prop) : Prop := f 0 = .panic ∨ ∃ p, f 0 = .ok p ∧ S p

/-- `f` answers as `g` or not at all. -/
def Below (f g : V3 ℝ → Res (V3 ℝ)) : Prop := ∀ d, f d = .panic ∨ f d = g d

theorem mink_below {l l' r r' : V3 ℝ → Res (V3 ℝ)} (hl : Below l l') (hr : Below r r') (d : V3 ℝ) :
    SP.fromMinkowski l r d = .panic ∨ SP.fromMinkowski l r d = SP.fromMinkowski l' r' d := by
  unfold SP.fromMinkowski
  rcases hl d with h | h
  · left; rw [h]; rfl
  · rw [h]
    cases l' d with
    | panic => left; rfl
    | timeout => right; rfl
    | ok p =>
      rw [Res.bind_ok, Res.bind_ok]
      rcases hr (-d) with h | h
      · left; rw [h]; rfl
      · right; rw [h]

theorem loop_below {l l' r r' : V3 ℝ → Res (V3 ℝ)} (hl : Below l l') (hr : Below r r') : ∀ (n : Nat) (s : List (SP (V3 ℝ))) (d : V3 ℝ),
    gjkLoop reduce3 l r n s d = .panic ∨ gjkLoop reduce3 l r n s d = gjkLoop reduce3 l' r' n s d := by
  intro n
  induction n with
  | zero => intro s d; right; rfl
  | succ n ih =>
    intro s d
    unfold gjkLoop
    rcases mink_below hl hr d with h | h
    · left; rw [h]; rfl
    · rw [h]
      cases SP.fromMinkowski l' r' d with
      | panic => left; rfl
      | timeout => right; rfl
      | ok a =>
        rw [Res.bind_ok, Res.bind_ok]
        by_cases h1 : Inner.dot a.v d ≤ 0
        · right; rw [if_pos h1, if_pos h1]
        · rw [if_neg h1, if_neg h1]
          dsimp only
          by_cases h2 : (reduce3 (s ++ [a]) d).1 = true
          · right; rw [if_pos h2, if_pos h2]
          · rw [if_neg h2, if_neg h2]
            exact ih _ _

theorem run_below {l l' r r' : V3 ℝ → Res (V3 ℝ)} (hl : Below l l') (hr : Below r r') (n : Nat) (lp rp : V3 ℝ) :
    gjkRun reduce3 n l r lp rp = .panic ∨ gjkRun reduce3 n l r lp rp = gjkRun reduce3 n l' r' lp rp := by
  unfold gjkRun
  dsimp only
  rcases mink_below hl hr (firstDirection lp rp) with h | h
  · left; rw [h]; rfl
  · rw [h]
    cases SP.fromMinkowski l' r' (firstDirection lp rp) with
    | panic => left; rfl
    | timeout => right; rfl
    | ok a =>
      rw [Res.bind_ok, Res.bind_ok]
      by_cases h1 : Inner.dot a.v (firstDirection lp rp) ≤ 0
      · right; rw [if_pos h1, if_pos h1]
      · rw [if_neg h1, if_neg h1]
        exact loop_below hl hr _ _ _

/-- A support function completed in direction zero. -/
theorem complete3 {f : V3 ℝ → Res (V3 ℝ)} {S : V3 ℝ → Prop} (hf : SupportFn3 f S) (h0 : ZeroOk3 f S) : ∃ g, Below f g ∧ PointsOf3 g S := by
  classical
  obtain ⟨q, -, hq, -⟩ := hf ⟨1, 0, 0⟩ (by intro h; have := congrArg V3.x h; norm_num at this)
  refine ⟨fun d => if f d = .panic then .ok q else f d, ?_, ?_⟩
  · intro d
    by_cases h : f d = .panic
    · left; exact h
    · right; dsimp only; rw [if_neg h]
  · intro d
    dsimp only
    by_cases h : f d = .panic
    · rw [if_pos h]; exact ⟨q, rfl, hq⟩
    · rw [if_neg h]
      by_cases hd : d = 0
      · rw [hd] at h ⊢
        rcases h0 with h1 | h1
        · exact absurd h1 h
        · exact h1
      · obtain ⟨p, h1, h2, -⟩ := hf d hd
        exact ⟨p, h1, h2⟩

/-- Two differences of points of convex shapes on both sides of the origin, in line with it: the shapes share a point. -/
theorem meet_of_line {L R : V3 ℝ → Prop} (hL : Convex3 L) (hR : Convex3 R) {p q : SP (V3 ℝ)} (hp : FromShapes3 L R p) (hq : FromShapes3 L R q) {d : V3 ℝ}
    (h1 : 0 < p.v.dot d) (h2 : q.v.dot d < 0) (hc : p.v.cross q.v = 0) : ∃ x, L x ∧ R x := by
  obtain ⟨pa, pb, pv⟩ := hp
  obtain ⟨qa, qb, qv⟩ := hq
  set a := p.v.dot d with ha
  set b := q.v.dot d with hb
  have hab : 0 < a - b := by linarith
  have hx := congrArg V3.x hc
  have hy := congrArg V3.y hc
  have hz := congrArg V3.z hc
  simp only [V3.cross, V3.zero_x, V3.zero_y, V3.zero_z] at hx hy hz
  -- q a - p b = 0 : the point of the segment at parameter a / (a - b) is the origin
  have e : q.v * a = p.v * b := by
    ext <;> simp only [V3.mul_x, V3.mul_y, V3.mul_z, ha, hb, V3.dot]
    · linear_combination -d.y * hz + d.z * hy
    · linear_combination d.x * hz - d.z * hx
    · linear_combination -d.x * hy + d.y * hx
  have ex := congrArg V3.x e
  have ey := congrArg V3.y e
  have ez := congrArg V3.z e
  simp only [V3.mul_x, V3.mul_y, V3.mul_z] at ex ey ez
  have t0 : 0 ≤ a / (a - b) := by positivity
  have t1 : a / (a - b) ≤ 1 := by rw [div_le_one hab]; linarith
  refine ⟨p.supA + (q.supA - p.supA) * (a / (a - b)), hL _ _ _ pa qa t0 t1, ?_⟩
  have : p.supA + (q.supA - p.supA) * (a / (a - b)) = p.supB + (q.supB - p.supB) * (a / (a - b)) := by
    have px := congrArg V3.x pv
    have py := congrArg V3.y pv
    have pz := congrArg V3.z pv
    have qx := congrArg V3.x qv
    have qy := congrArg V3.y qv
    have qz := congrArg V3.z qv
    simp only [V3.sub_x, V3.sub_y, V3.sub_z] at px py pz qx qy qz
    have key : ∀ u v w z m n : ℝ, m = u - v → n = w - z → n * a = m * b → u + (w - u) * (a / (a - b)) = v + (z - v) * (a / (a - b)) := by
      intro u v w z m n hm hn hmn
      field_simp
      rw [hm, hn] at hmn
      linear_combination hmn
    ext <;> simp only [V3.add_x, V3.add_y, V3.add_z, V3.mul_x, V3.mul_y, V3.mul_z, V3.sub_x, V3.sub_y, V3.sub_z]
    · exact key _ _ _ _ _ _ px qx ex
    · exact key _ _ _ _ _ _ py qy ey
    · exact key _ _ _ _ _ _ pz qz ez
  rw [this]
  exact hR _ _ _ pb qb t0 t1

/-- Every run of GJK in 3D: it answers, a simplex being one of support points around the origin, or it asks a shape for its support point in direction zero that has none; and then the shapes
share a point. -/
theorem gjk3_run_all {L R : V3 ℝ → Prop} (hL : Convex3 L) (hR : Convex3 R) {left right : V3 ℝ → Res (V3 ℝ)} (hl : SupportFn3 left L) (hr : SupportFn3 right R)
    (hl0 : ZeroOk3 left L) (hr0 : ZeroOk3 right R) (n : Nat) (lp rp : V3 ℝ) :
    (∃ o, gjkRun reduce3 n left right lp rp = .ok o ∧ ∀ s, o = .hit s → GoodHit3 L R s) ∨
    (gjkRun reduce3 n left right lp rp = .panic ∧ (left 0 = .panic ∨ right 0 = .panic) ∧ ∃ x, L x ∧ R x) := by
  obtain ⟨l', bl, pl⟩ := complete3 hl hl0
  obtain ⟨r', br, pr⟩ := complete3 hr hr0
  obtain ⟨o, h1, -, h3⟩ := gjk3_runA pl pr n lp rp
  rcases run_below bl br n lp rp with h | h
  · right
    refine ⟨h, ?_, ?_⟩
    · by_contra hno
      rw [not_or] at hno
      have ql : PointsOf3 left L := by
        intro d
        by_cases hd : d = 0
        · rw [hd]; rcases hl0 with h | h
          · exact absurd h hno.1
          · exact h
        · obtain ⟨p, h1, h2, -⟩ := hl d hd; exact ⟨p, h1, h2⟩
      have qr : PointsOf3 right R := by
        intro d
        by_cases hd : d = 0
        · rw [hd]; rcases hr0 with h | h
          · exact absurd h hno.2
          · exact h
        · obtain ⟨p, h1, h2, -⟩ := hr d hd; exact ⟨p, h1, h2⟩
      obtain ⟨o, h2, -⟩ := gjk3_runA ql qr n lp rp
      rw [h] at h2; cases h2
    · by_cases hcol : ∀ p q, SP.fromMinkowski left right (firstDirection lp rp) = .ok p → SP.fromMinkowski left right (-firstDirection lp rp) = .ok q → p.v.cross q.v ≠ 0
      · obtain ⟨o, h2, -⟩ := gjk3_run hl hr n lp rp hcol
        rw [h] at h2; cases h2
      · push Not at hcol
        obtain ⟨p, q, hp, hq, hc⟩ := hcol
        have hd := firstDirection_ne3 lp rp
        obtain ⟨p', hp', fp, -⟩ := minkowski3 hl hr hd
        obtain ⟨q', hq', fq, -⟩ := minkowski3 hl hr (neg_ne3 hd)
        rw [hp] at hp'; cases hp'
        rw [hq] at hq'; cases hq'
        unfold gjkRun at h
        dsimp only at h
        rw [hp, Res.bind_ok] at h
        by_cases h4 : Inner.dot p.v (firstDirection lp rp) ≤ 0
        · rw [if_pos h4] at h; cases h
        · rw [if_neg h4] at h
          cases n with
          | zero => cases h
          | succ n =>
            unfold gjkLoop at h
            rw [hq, Res.bind_ok] at h
            by_cases h5 : Inner.dot q.v (-firstDirection lp rp) ≤ 0
            · rw [if_pos h5] at h; cases h
            · have h4' : 0 < p.v.dot (firstDirection lp rp) := not_le.mp h4
              have h5' : 0 < q.v.dot (-firstDirection lp rp) := not_le.mp h5
              rw [dot_neg3] at h5'
              exact meet_of_line hL hR fp fq h4' (by linarith) hc
  · left
    exact ⟨o, h.trans h1, h3⟩

/-- **C53 in 3D, all convex shapes.** If GJK returns a simplex, it is a tetrahedron of differences of points of the shapes that encloses the origin, and the shapes share a point. -/
theorem c53_3d_all (L R : V3 ℝ → Prop) (hL : Convex3 L) (hR : Convex3 R) {left right : V3 ℝ → Res (V3 ℝ)} (hl : SupportFn3 left L) (hr : SupportFn3 right R)
    (hl0 : ZeroOk3 left L) (hr0 : ZeroOk3 right R) (n : Nat) (lp rp : V3 ℝ) {s : List (SP (V3 ℝ))} (h : gjkIntersect reduce3 n left right lp rp = .ok (some s)) :
    (∃ x, L x ∧ R x) ∧ ∃ s0 s1 s2 s3, s = [s0, s1, s2, s3] ∧ (∀ p ∈ s, FromShapes3 L R p) ∧ InTetrahedron s0.v s1.v s2.v s3.v := by
  rcases gjk3_run_all hL hR hl hr hl0 hr0 n lp rp with ⟨o, h1, h2⟩ | ⟨h1, -⟩
  · rw [gjkIntersect_hit h] at h1
    cases h1
    obtain ⟨s0, s1, s2, s3, rfl, ⟨f0, f1, f2, f3⟩, ht, -⟩ := h2 s rfl
    refine ⟨meet_of_tetrahedron hL hR f0 f1 f2 f3 ht, s0, s1, s2, s3, rfl, ?_, ht⟩
    simp [f0, f1, f2, f3]
  · rw [gjkIntersect_hit h] at h1
    cases h1

/-- A run of GJK in 3D that does not answer (NaN in the code) is one about shapes that share a point. -/
theorem c53_3d_nan (L R : V3 ℝ → Prop) (hL : Convex3 L) (hR : Convex3 R) {left right : V3 ℝ → Res (V3 ℝ)} (hl : SupportFn3 left L) (hr : SupportFn3 right R)
    (hl0 : ZeroOk3 left L) (hr0 : ZeroOk3 right R) (n : Nat) (lp rp : V3 ℝ) :
    (∃ o, gjkIntersect reduce3 n left right lp rp = .ok o) ∨ (gjkIntersect reduce3 n left right lp rp = .panic ∧ ∃ x, L x ∧ R x) := by
  unfold gjkIntersect
  rcases gjk3_run_all hL hR hl hr hl0 hr0 n lp rp with ⟨o, h1, -⟩ | ⟨h1, -, h2⟩
  · left; exact ⟨o.toOption, by rw [h1]; rfl⟩
  · right; exact ⟨by rw [h1]; rfl, h2⟩

/-- **C79 in 3D, all convex shapes.** For every simplex that GJK returns, EPA returns a contact (no panic, no NaN), exact up to the tolerance. -/
theorem c79_3d_all (L R : V3 ℝ → Prop) (hL : Convex3 L) (hR : Convex3 R) {left right : V3 ℝ → Res (V3 ℝ)} (hl : SupportFn3 left L) (hr : SupportFn3 right R)
    (hl0 : ZeroOk3 left L) (hr0 : ZeroOk3 right R) (tolerance : ℝ) (n m : Nat) (lp rp : V3 ℝ) {simplex : List (SP (V3 ℝ))}
    (h : gjkIntersect reduce3 n left right lp rp = .ok (some simplex)) :
    ∃ k converged, epa3 tolerance m left right simplex = .ok (some (.contact k converged)) ∧ ExactContact L R tolerance k converged := by
  rcases gjk3_run_all hL hR hl hr hl0 hr0 n lp rp with ⟨o, h1, h2⟩ | ⟨h1, -⟩
  · rw [gjkIntersect_hit h] at h1
    cases h1
    obtain ⟨k, cv, e1, e2, e3, e4, e5, -⟩ := epa3_exact hL hR hl hr tolerance m (h2 _ rfl)
    exact ⟨k, cv, e1, e2, e3, e4, e5⟩
  · rw [gjkIntersect_hit h] at h1
    cases h1

/-- **C86 in 3D, all convex shapes.** Whenever GJK answers, full resolution answers too, with a contact exactly when there is a simplex, and never with NaN. -/
theorem c86_3d_all (L R : V3 ℝ → Prop) (hL : Convex3 L) (hR : Convex3 R) {left right : V3 ℝ → Res (V3 ℝ)} (hl : SupportFn3 left L) (hr : SupportFn3 right R)
    (hl0 : ZeroOk3 left L) (hr0 : ZeroOk3 right R) (tolerance : ℝ) (n m : Nat) (lp rp : V3 ℝ) {o : Option (List (SP (V3 ℝ)))}
    (h : gjkIntersect reduce3 n left right lp rp = .ok o) :
    ∃ f, full3 tolerance n m left right lp rp = .ok f ∧ (f.isSome ↔ o.isSome) ∧ f ≠ some .nan := by
  cases o with
  | none => exact ⟨none, by unfold full3; rw [h]; rfl, Iff.rfl, nofun⟩
  | some s =>
    obtain ⟨k, cv, e1, -⟩ := c79_3d_all L R hL hR hl hr hl0 hr0 tolerance n m lp rp h
    exact ⟨some (.contact k cv), by unfold full3; rw [h]; exact e1, by simp, nofun⟩

/-! ## Primitives -/

theorem prim3_zero_ok (s : Prim3) (hs : s.Ok) (nz : V3 ℝ → Bool) (D : Dec3 ℝ) (hsc : D.scale ≠ 0) : ZeroOk3 (s.supportPoint nz D.tr) (Image D.tr s.Points) := by
  by_cases hf : Flat3 s
  · right
    exact prim3_points s hs hf nz D hsc 0
  · left
    have hz : D.tr.invVector 0 = some 0 := by simp [Dec3.tr, hsc, M3.apply, M3.transpose, V3.ext_iff]
    cases s with
    | sphere s =>
      show s.supportPoint D.tr 0 = .panic
      unfold Ball.supportPoint supportRound
      rw [hz]
      simp [nanPoint]
    | capsule s =>
      simp only [Prim3.supportPoint]
      unfold Capsule.supportPoint supportRound
      rw [hz]
      simp [nanPoint]
    | _ => exact absurd trivial hf

section
variable (s t : Prim3) (hs : s.Ok) (ht : t.Ok) (nz nz' : V3 ℝ → Bool) (D E : Dec3 ℝ) (hD : D.rot.Orthogonal) (hE : E.rot.Orthogonal) (hDs : D.scale ≠ 0) (hEs : E.scale ≠ 0)
include hs ht hD hE hDs hEs

/-- **C53 for every pair of 3D primitives**: a simplex is returned only for primitives that share a point; and if the run meets NaN (spheres and capsules only: the model stops there, the code
goes on and reports a collision), they share a point as well. -/
theorem c53_prim3_all (n : Nat) :
    (∀ x, gjkIntersect reduce3 n (s.supportPoint nz D.tr) (t.supportPoint nz' E.tr) (D.tr.point 0) (E.tr.point 0) = .ok (some x) →
      (∃ p, Image D.tr s.Points p ∧ Image E.tr t.Points p) ∧
        ∃ a b c d, x = [a, b, c, d] ∧ (∀ p ∈ x, FromShapes3 (Image D.tr s.Points) (Image E.tr t.Points) p) ∧ InTetrahedron a.v b.v c.v d.v) ∧
    ((∃ o, gjkIntersect reduce3 n (s.supportPoint nz D.tr) (t.supportPoint nz' E.tr) (D.tr.point 0) (E.tr.point 0) = .ok o) ∨
      (gjkIntersect reduce3 n (s.supportPoint nz D.tr) (t.supportPoint nz' E.tr) (D.tr.point 0) (E.tr.point 0) = .panic ∧ (¬ Flat3 s ∨ ¬ Flat3 t) ∧
        ∃ p, Image D.tr s.Points p ∧ Image E.tr t.Points p)) := by
  have a1 := image_convex3 D (prim3_convex s)
  have a2 := image_convex3 E (prim3_convex t)
  have b1 := prim3_support s hs nz D hD hDs
  have b2 := prim3_support t ht nz' E hE hEs
  have c1 := prim3_zero_ok s hs nz D hDs
  have c2 := prim3_zero_ok t ht nz' E hEs
  refine ⟨fun x hx => c53_3d_all _ _ a1 a2 b1 b2 c1 c2 n _ _ hx, ?_⟩
  rcases c53_3d_nan _ _ a1 a2 b1 b2 c1 c2 n (D.tr.point 0) (E.tr.point 0) with h | ⟨h1, h2⟩
  · left; exact h
  · right
    refine ⟨h1, ?_, h2⟩
    by_contra hno
    rw [not_or, not_not, not_not] at hno
    obtain ⟨o, ho, -⟩ := c53_prim3 s t hs ht hno.1 hno.2 nz nz' D E hDs hEs n
    rw [h1] at ho
    cases ho

/-- **C79 for every pair of 3D primitives**: for every simplex GJK returns, EPA returns a contact, exact up to the tolerance. -/
theorem c79_prim3_all (tolerance : ℝ) (n m : Nat) {simplex : List (SP (V3 ℝ))}
    (h : gjkIntersect reduce3 n (s.supportPoint nz D.tr) (t.supportPoint nz' E.tr) (D.tr.point 0) (E.tr.point 0) = .ok (some simplex)) :
    ∃ k converged, epa3 tolerance m (s.supportPoint nz D.tr) (t.supportPoint nz' E.tr) simplex = .ok (some (.contact k converged)) ∧
      ExactContact (Image D.tr s.Points) (Image E.tr t.Points) tolerance k converged :=
  c79_3d_all _ _ (image_convex3 D (prim3_convex s)) (image_convex3 E (prim3_convex t)) (prim3_support s hs nz D hD hDs) (prim3_support t ht nz' E hE hEs)
    (prim3_zero_ok s hs nz D hDs) (prim3_zero_ok t ht nz' E hEs) tolerance n m _ _ h

/-- **C86 for every pair of 3D primitives**: whenever the collision test answers, full resolution answers too, with a contact exactly when there is a collision, and never NaN. -/
theorem c86_prim3_all (tolerance : ℝ) (n m : Nat) {o : Option (List (SP (V3 ℝ)))}
    (h : gjkIntersect reduce3 n (s.supportPoint nz D.tr) (t.supportPoint nz' E.tr) (D.tr.point 0) (E.tr.point 0) = .ok o) :
    ∃ f, full3 tolerance n m (s.supportPoint nz D.tr) (t.supportPoint nz' E.tr) (D.tr.point 0) (E.tr.point 0) = .ok f ∧ (f.isSome ↔ o.isSome) ∧ f ≠ some .nan :=
  c86_3d_all _ _ (image_convex3 D (prim3_convex s)) (image_convex3 E (prim3_convex t)) (prim3_support s hs nz D hD hDs) (prim3_support t ht nz' E hE hEs)
    (prim3_zero_ok s hs nz D hDs) (prim3_zero_ok t ht nz' E hEs) tolerance n m _ _ h

/-- C80 for every pair of 3D primitives, the part that holds: the contact point is an affine combination of points of the left shape, and at depth along the normal one of the right shape. -/
theorem c80_prim3_all_partial (tolerance : ℝ) (n m : Nat) {simplex : List (SP (V3 ℝ))}
    (h : gjkIntersect reduce3 n (s.supportPoint nz D.tr) (t.supportPoint nz' E.tr) (D.tr.point 0) (E.tr.point 0) = .ok (some simplex)) :
    ∃ k converged, epa3 tolerance m (s.supportPoint nz D.tr) (t.supportPoint nz' E.tr) simplex = .ok (some (.contact k converged)) ∧
      AffinePoint (Image D.tr s.Points) (Image E.tr t.Points) k.normal k.depth k.point := by
  obtain ⟨k, cv, h1, -⟩ := c79_prim3_all s t hs ht nz nz' D E hD hE hDs hEs tolerance n m h
  obtain ⟨-, a, b, c, d, rfl, h2, -⟩ := (c53_prim3_all s t hs ht nz nz' D E hD hE hDs hEs n).1 _ h
  exact ⟨k, cv, h1, c80_3d_partial _ _ (prim3_support s hs nz D hD hDs) (prim3_support t ht nz' E hE hEs) tolerance m (fun p hp => h2 p hp) h1⟩

end

/-- The run that meets NaN exists: unit spheres at the origin and at (1, 0, 0) (`c87_false`). A run with a sphere that answers: `c87_spheres_example`. The hypotheses on a sphere and a capsule: -/
example : (Prim3.sphere ⟨1⟩).Ok ∧ (Prim3.capsule ⟨1, 1⟩).Ok ∧ ¬ Flat3 (Prim3.sphere ⟨1⟩) ∧ (shift3 1 0 0).rot.Orthogonal ∧ (shift3 1 0 0).scale ≠ 0 := by
  refine ⟨?_, ?_, fun h => h, shift3_orthogonal _ _ _, one_ne_zero⟩ <;> simp [Prim3.Ok]

end Verif.Minkowski
