import Verif.Minkowski.Distance
/-!
# Distance in 2D can run in circles (C68)

A trapezoid and a particle, two units apart, the nearest point in the middle of a side: the simplices of `GJK2::distance` repeat after four steps, and the answer is
`None` for every limit on the number of iterations.
-/
namespace Verif.Minkowski
open Verif Geom Primitive
set_option linter.unusedSectionVars false
noncomputable section
open Classical

/-- The point of a segment nearest to the origin is the only point of the segment with both ends beyond it. -/
theorem closestOnEdge2_eq {a b v : V2 ℝ} (hab : a ≠ b) (hv : OnSeg2 a b v) (h1 : v.dot v ≤ a.dot v) (h2 : v.dot v ≤ b.dot v) :
    closestOnEdge2 a b = some v := by
  have hne : b - a ≠ 0 := by
    intro e
    apply hab
    have hx := congrArg V2.x e
    have hy := congrArg V2.y e
    simp at hx hy
    ext <;> linarith
  obtain ⟨c, hc⟩ : ∃ c, closestOnEdge2 a b = some c := by
    unfold closestOnEdge2
    simp only [hne, if_false]
    exact ⟨_, rfl⟩
  rw [hc]
  congr 1
  obtain ⟨-, ⟨t, t0, t1, h3⟩, h4, h5⟩ := closestOnEdge2_spec hc
  obtain ⟨u, u0, u1, h6⟩ := hv
  have e1 : c.dot c ≤ v.dot c := by
    have : v.dot c = a.dot c * (1 - u) + b.dot c * u := by rw [h6]; simp [V2.dot]; ring
    nlinarith
  have e2 : v.dot v ≤ c.dot v := by
    have : c.dot v = a.dot v * (1 - t) + b.dot v * t := by rw [h3]; simp [V2.dot]; ring
    nlinarith
  have e3 : (c.x - v.x) ^ 2 + (c.y - v.y) ^ 2 ≤ 0 := by simp only [V2.dot] at e1 e2; nlinarith
  have hx : c.x - v.x = 0 := by nlinarith [sq_nonneg (c.x - v.x), sq_nonneg (c.y - v.y)]
  have hy : c.y - v.y = 0 := by nlinarith [sq_nonneg (c.x - v.x), sq_nonneg (c.y - v.y)]
  ext <;> linarith

/-- A trapezoid with the vertices `(2, -2)`, `(3, -4)`, `(3, 4)`, `(2, 2)` when it is placed at `(3, 1)`. -/
def trapezoid : Prim2 := .polygon ⟨[⟨-1, -3⟩, ⟨0, -5⟩, ⟨0, 3⟩, ⟨-1, 1⟩]⟩

theorem trapezoid_support (d : V2 ℝ) : trapezoid.supportPoint (at2 ⟨3, 1⟩).tr d = .ok (maxPoint2 [⟨-1, -3⟩, ⟨0, -5⟩, ⟨0, 3⟩, ⟨-1, 1⟩] d + ⟨3, 1⟩) := by
  have : (at2 ⟨3, 1⟩).tr.invVector d = some d := by
    have h1 : (at2 ⟨3, 1⟩).scale ≠ 0 := one_ne_zero
    simp only [Dec2.tr, h1, if_false]
    congr 1
    ext <;> simp [at2, M2.transpose, M2.apply]
  simp only [trapezoid, Prim2.supportPoint, Polygon.supportPoint, support, at2_point, this, Res.ofOption_some, Res.bind_ok, Res.pure_eq, List.length_cons,
    List.length_nil]
  norm_num

/-- The support point of the pair. -/
def spOf (m : V2 ℝ) : SP (V2 ℝ) := ⟨m, m, 0⟩

theorem trapezoid_mink (d m : V2 ℝ) (h : maxPoint2 [⟨-1, -3⟩, ⟨0, -5⟩, ⟨0, 3⟩, ⟨-1, 1⟩] d + ⟨3, 1⟩ = m) :
    SP.fromMinkowski (trapezoid.supportPoint (at2 ⟨3, 1⟩).tr) (Prim2.particle.supportPoint (at2 0).tr) d = .ok (spOf m) := by
  have hl : ∀ d, Prim2.particle.supportPoint (at2 0).tr d = .ok 0 := by
    intro d
    simp only [Prim2.supportPoint, at2_point]
    congr 1
    ext <;> simp
  simp only [SP.fromMinkowski, trapezoid_support, hl, Res.bind_ok, Res.pure_eq, h, spOf]
  congr 2
  ext <;> simp

/-- One step of the loop: the closest point `v` of the simplex that is kept, and the support point `p` against it. -/
theorem distance_step {tolerance : ℝ} {left right : V2 ℝ → Res (V2 ℝ)} {nan : Res (SP (V2 ℝ))} {n : Nat} {s t : List (SP (V2 ℝ))} {s0 p : SP (V2 ℝ)} {v : V2 ℝ}
    (hc : closest2 s = .ok (some v, s0 :: t)) (hv : v ≠ 0) (hp : SP.fromMinkowski left right (-v) = .ok p) (ht : tolerance ≤ s0.v.dot v - p.v.dot v) :
    distanceLoop closest2 tolerance left right nan (n + 1) s = distanceLoop closest2 tolerance left right nan n (s0 :: t ++ [p]) := by
  conv_lhs => unfold distanceLoop
  simp only [hc, Res.bind_ok, if_neg hv, hp, List.getElem?_cons_zero, Res.ofOption_some]
  rw [if_neg]
  simp only [Inner.dot, V2.dot, V2.neg_x, V2.neg_y] at ht ⊢
  linarith

/-- Keep the edge with the newest point. -/
theorem closest2_keep {s0 s1 s2 : SP (V2 ℝ)} {v : V2 ℝ} (h : (tripleProduct (s0.v - s2.v) (s1.v - s2.v) (s1.v - s2.v)).dot (-s2.v) > 0)
    (hv : closestOnEdge2 s2.v s1.v = some v) : closest2 [s0, s1, s2] = .ok (some v, [s1, s2]) := by
  simp only [closest2, reduce2, if_pos h, hv, Bool.false_eq_true, if_false]

theorem closest2_edge {s0 s1 : SP (V2 ℝ)} {v : V2 ℝ} (hv : closestOnEdge2 s1.v s0.v = some v) : closest2 [s0, s1] = .ok (some v, [s0, s1]) := by
  simp only [closest2, reduce2, hv, Bool.false_eq_true, if_false]

/-- The side points of the trapezoid, `σ = 1` above and `σ = -1` below. -/
theorem trapezoid_long {σ : ℝ} (hσ : σ = 1 ∨ σ = -1) :
    closestOnEdge2 ⟨3, 4 * σ⟩ ⟨2, -2 * σ⟩ = some (⟨84 / 37, -14 / 37 * σ⟩ : V2 ℝ) ∧
    SP.fromMinkowski (trapezoid.supportPoint (at2 ⟨3, 1⟩).tr) (Prim2.particle.supportPoint (at2 0).tr) (-⟨84 / 37, -14 / 37 * σ⟩) = .ok (spOf ⟨2, 2 * σ⟩) := by
  constructor
  · refine closestOnEdge2_eq (fun e => ?_) ⟨27 / 37, by norm_num, by norm_num, ?_⟩ ?_ ?_
    · have := congrArg V2.x e; norm_num at this
    · ext <;> norm_num
      ring
    · rcases hσ with rfl | rfl <;> norm_num [V2.dot]
    · rcases hσ with rfl | rfl <;> norm_num [V2.dot]
  · refine trapezoid_mink _ _ ?_
    rcases hσ with rfl | rfl <;> norm_num [maxPoint2, V2.dot] <;> ext <;> norm_num

theorem trapezoid_short {σ : ℝ} (hσ : σ = 1 ∨ σ = -1) :
    closestOnEdge2 ⟨2, 2 * σ⟩ ⟨3, 4 * σ⟩ = some (⟨2, 2 * σ⟩ : V2 ℝ) ∧
    SP.fromMinkowski (trapezoid.supportPoint (at2 ⟨3, 1⟩).tr) (Prim2.particle.supportPoint (at2 0).tr) (-⟨2, 2 * σ⟩) = .ok (spOf ⟨3, -4 * σ⟩) := by
  constructor
  · refine closestOnEdge2_eq (fun e => ?_) ⟨0, by norm_num, by norm_num, ?_⟩ ?_ ?_
    · have := congrArg V2.x e; norm_num at this
    · ext <;> norm_num
    · rcases hσ with rfl | rfl <;> norm_num [V2.dot]
    · rcases hσ with rfl | rfl <;> norm_num [V2.dot]
  · refine trapezoid_mink _ _ ?_
    rcases hσ with rfl | rfl <;> norm_num [maxPoint2, V2.dot] <;> ext <;> norm_num

theorem trapezoid_cycle (tolerance : ℝ) (ht : tolerance ≤ 1) (nan : Res (SP (V2 ℝ))) (n : Nat) : ∀ σ : ℝ, (σ = 1 ∨ σ = -1) →
    distanceLoop closest2 tolerance (trapezoid.supportPoint (at2 ⟨3, 1⟩).tr) (Prim2.particle.supportPoint (at2 0).tr) nan n
      [spOf ⟨2, -2 * σ⟩, spOf ⟨3, 4 * σ⟩, spOf ⟨2, 2 * σ⟩] = .ok none := by
  induction n using Nat.strong_induction_on with
  | _ n ih =>
  intro σ hσ
  rcases n with _ | _ | n
  · rfl
  · rw [distance_step (v := ⟨2, 2 * σ⟩) (closest2_keep ?_ (trapezoid_short hσ).1) ?_ (trapezoid_short hσ).2 ?_]
    · rfl
    · rcases hσ with rfl | rfl <;> norm_num [spOf, tripleProduct, V2.dot]
    · intro e; have := congrArg V2.x e; norm_num at this
    · rcases hσ with rfl | rfl <;> norm_num [spOf, V2.dot] <;> linarith
  · rw [distance_step (v := ⟨2, 2 * σ⟩) (closest2_keep ?_ (trapezoid_short hσ).1) ?_ (trapezoid_short hσ).2 ?_]
    · have hσ' : -σ = 1 ∨ -σ = -1 := by rcases hσ with rfl | rfl <;> simp
      have e1 : (⟨2, 2 * σ⟩ : V2 ℝ) = ⟨2, -2 * -σ⟩ := by ext <;> ring
      have e2 : (⟨3, -4 * σ⟩ : V2 ℝ) = ⟨3, 4 * -σ⟩ := by ext <;> ring
      rw [e1, e2]
      obtain ⟨h1, h2⟩ := trapezoid_long hσ'
      show distanceLoop _ _ _ _ _ _ [_, _, _] = _
      rw [distance_step (closest2_keep ?_ h1) ?_ h2 ?_]
      · exact ih n (by omega) (-σ) hσ'
      · rcases hσ with rfl | rfl <;> norm_num [spOf, tripleProduct, V2.dot]
      · intro e; have := congrArg V2.x e; norm_num at this
      · rcases hσ with rfl | rfl <;> norm_num [spOf, V2.dot] <;> linarith
    · rcases hσ with rfl | rfl <;> norm_num [spOf, tripleProduct, V2.dot]
    · intro e; have := congrArg V2.x e; norm_num at this
    · rcases hσ with rfl | rfl <;> norm_num [spOf, V2.dot] <;> linarith

/-- **C68 is false, also away from the corners.** The trapezoid with the vertices `(2, -2)`, `(3, -4)`, `(3, 4)`, `(2, 2)` and a particle at the origin are two units apart, the
nearest point `(2, 0)` in the middle of a side. The simplices of the search repeat after four steps: the answer is `None`, whatever the limit on the number of iterations. -/
theorem c68_cycle_false (tolerance : ℝ) (ht : tolerance ≤ 1) (n : Nat) (nan : Res (SP (V2 ℝ))) :
    gjkDistance closest2 tolerance n (trapezoid.supportPoint (at2 ⟨3, 1⟩).tr) (Prim2.particle.supportPoint (at2 0).tr) nan
      ((at2 ⟨3, 1⟩).tr.point 0) ((at2 0).tr.point 0) = .ok none ∧
    (∀ x y, Image (at2 ⟨3, 1⟩).tr trapezoid.Points x → Image (at2 0).tr Prim2.particle.Points y → 2 ≤ (x - y).norm) ∧
    Image (at2 ⟨3, 1⟩).tr trapezoid.Points ⟨2, 0⟩ ∧ Image (at2 0).tr Prim2.particle.Points 0 := by
  refine ⟨?_, ?_, ?_, ?_⟩
  · have e0 := firstDirection_eqC2 (fun a b => propDecidable (a = b)) ((at2 ⟨3, 1⟩).tr.point 0) ((at2 0).tr.point 0) ⟨-3, -1⟩
      (by simp only [at2_point]; ext <;> simp) (by intro h; have := congrArg V2.x h; simp at this)
    have h1 : SP.fromMinkowski (trapezoid.supportPoint (at2 ⟨3, 1⟩).tr) (Prim2.particle.supportPoint (at2 0).tr) ⟨-3, -1⟩ = .ok (spOf ⟨2, -2 * 1⟩) := by
      refine trapezoid_mink _ _ ?_
      norm_num [maxPoint2, V2.dot]
      ext <;> norm_num
    have h2 : SP.fromMinkowski (trapezoid.supportPoint (at2 ⟨3, 1⟩).tr) (Prim2.particle.supportPoint (at2 0).tr) (-⟨-3, -1⟩) = .ok (spOf ⟨3, 4 * 1⟩) := by
      refine trapezoid_mink _ _ ?_
      norm_num [maxPoint2, V2.dot]
      ext <;> norm_num
    unfold gjkDistance
    simp only [e0, h1, h2, Res.bind_ok]
    cases n with
    | zero => rfl
    | succ n =>
      obtain ⟨h3, h4⟩ := trapezoid_long (σ := 1) (Or.inl rfl)
      rw [distance_step (closest2_edge h3) ?_ h4 ?_]
      · exact trapezoid_cycle tolerance ht nan n 1 (Or.inl rfl)
      · intro e; have := congrArg V2.x e; norm_num at this
      · norm_num [spOf, V2.dot]; linarith
  · rintro _ _ ⟨x, hx, rfl⟩ ⟨y, rfl, rfl⟩
    have h0 : -1 ≤ x.x := by
      induction hx with
      | vertex hv =>
        simp only [List.mem_cons, List.not_mem_nil, or_false] at hv
        rcases hv with rfl | rfl | rfl | rfl <;> norm_num
      | seg _ _ t0 t1 ih1 ih2 =>
        simp only [V2.add_x, V2.mul_x, V2.sub_x]
        nlinarith
    have h1 := V2.cauchy ((at2 ⟨3, 1⟩).tr.point x - (at2 0).tr.point 0) ⟨1, 0⟩
    have h2 : V2.norm ⟨1, 0⟩ = 1 := by simp [V2.norm, V2.dot]
    rw [h2, mul_one] at h1
    refine le_trans ?_ h1
    simp only [at2_point, V2.dot, V2.sub_x, V2.add_x]
    norm_num
    linarith
  · refine ⟨⟨-1, -1⟩, ?_, ?_⟩
    · have := Hull2.seg (vs := [⟨-1, -3⟩, ⟨0, -5⟩, ⟨0, 3⟩, ⟨-1, 1⟩]) (K := ℝ) (t := 1 / 2) (Hull2.vertex (v := ⟨-1, -3⟩) (by simp)) (Hull2.vertex (v := ⟨-1, 1⟩) (by simp))
        (by norm_num) (by norm_num)
      have e : (⟨-1, -3⟩ : V2 ℝ) + ((⟨-1, 1⟩ : V2 ℝ) - ⟨-1, -3⟩) * (1 / 2 : ℝ) = ⟨-1, -1⟩ := by ext <;> norm_num
      rw [e] at this
      exact this
    · rw [at2_point]; ext <;> norm_num
  · exact ⟨0, rfl, by rw [at2_point]; ext <;> simp⟩
end
end Verif.Minkowski
