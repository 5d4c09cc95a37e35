import Verif.Minkowski.Epa2Total
import Verif.Minkowski.Gjk2Bound
import Verif.Minkowski.Balls
import Mathlib.Algebra.Order.Round
import Mathlib.Data.Int.Interval
import Mathlib.Order.Interval.Finset.Basic
/-!
# How many iterations EPA needs in 2D (C92)

A point that EPA adds is beyond the line of the closest edge by at least the tolerance, and all points it has are on the other side of that line. So the points it adds are pairwise at least
the tolerance apart, and only so many of them fit into a disc.
-/
namespace Verif.Minkowski
open Verif Geom Primitive
set_option linter.unusedSectionVars false
noncomputable section

/-- The number of cells of side `t / 2` in a square of side `2 w`. -/
def cells (w t : ℝ) : Nat := (2 * ⌈2 * w / t⌉₊ + 1) * (2 * ⌈2 * w / t⌉₊ + 1)

theorem coord_le (v : V2 ℝ) : |v.x| ≤ v.norm ∧ |v.y| ≤ v.norm := by
  constructor
  · exact Real.abs_le_sqrt (by simp only [V2.dot]; nlinarith [mul_self_nonneg v.y])
  · exact Real.abs_le_sqrt (by simp only [V2.dot]; nlinarith [mul_self_nonneg v.x])

/-- Points of a disc of radius `w` that are pairwise at least `t` apart: at most `cells w t` of them. -/
theorem packing {w t : ℝ} (ht : 0 < t) {l : List (V2 ℝ)} (hw : ∀ v ∈ l, v.norm ≤ w) (hs : l.Pairwise fun u v => t ≤ (u - v).norm) : l.length ≤ cells w t := by
  obtain ⟨k, hk⟩ : ∃ k, k = ⌈2 * w / t⌉₊ := ⟨_, rfl⟩
  have hkle : 2 * w / t ≤ k := hk ▸ Nat.le_ceil _
  let g : V2 ℝ → ℤ × ℤ := fun v => (⌊v.x / (t / 2)⌋, ⌊v.y / (t / 2)⌋)
  have close : ∀ u v : V2 ℝ, g u = g v → (u - v).norm < t := by
    intro u v h
    have h1 := congrArg Prod.fst h
    have h2 := congrArg Prod.snd h
    have h3 := Int.abs_sub_lt_one_of_floor_eq_floor h1
    have h4 := Int.abs_sub_lt_one_of_floor_eq_floor h2
    rw [← sub_div, abs_div, abs_of_pos (by linarith : 0 < t / 2), div_lt_one (by linarith)] at h3 h4
    show Real.sqrt _ < t
    rw [Real.sqrt_lt' ht]
    simp only [V2.dot, V2.sub_x, V2.sub_y]
    have h5 := mul_self_lt_mul_self (abs_nonneg _) h3
    have h6 := mul_self_lt_mul_self (abs_nonneg _) h4
    rw [abs_mul_abs_self] at h5 h6
    nlinarith
  have hnd : (l.map g).Nodup := by
    rw [List.Nodup, List.pairwise_map]
    refine hs.imp ?_
    intro a b h he
    linarith [close a b he]
  have rng : ∀ z : ℝ, |z| ≤ w → ⌊z / (t / 2)⌋ ∈ Finset.Icc (-(k : ℤ)) k := by
    intro z hz
    obtain ⟨h1, h2⟩ := abs_le.1 hz
    rw [Finset.mem_Icc]
    have e : z / (t / 2) = 2 * z / t := by field_simp
    rw [e]
    constructor
    · rw [Int.le_floor]
      push_cast
      have : -(2 * w / t) ≤ 2 * z / t := by
        rw [← neg_div]
        exact div_le_div_of_nonneg_right (by linarith) ht.le
      linarith
    · have h3 : (⌊2 * z / t⌋ : ℝ) ≤ 2 * z / t := Int.floor_le _
      have h4 : 2 * z / t ≤ 2 * w / t := div_le_div_of_nonneg_right (by linarith) ht.le
      exact_mod_cast (h3.trans (h4.trans hkle))
  have hcard := Finset.card_le_card (s := (l.map g).toFinset) (t := Finset.Icc (-(k : ℤ)) k ×ˢ Finset.Icc (-(k : ℤ)) k) (by
    intro x hx
    obtain ⟨v, hv, rfl⟩ := List.mem_map.1 (List.mem_toFinset.1 hx)
    obtain ⟨h1, h2⟩ := coord_le v
    exact Finset.mem_product.2 ⟨rng _ (h1.trans (hw v hv)), rng _ (h2.trans (hw v hv))⟩)
  rw [List.toFinset_card_of_nodup hnd, List.length_map, Finset.card_product, Int.card_Icc] at hcard
  have e : ((k : ℤ) + 1 - -(k : ℤ)).toNat = 2 * k + 1 := by omega
  rw [e] at hcard
  unfold cells
  rw [← hk]
  exact hcard

/-- All vertices are on the inner side of every edge. -/
theorem fan_level {L R : V2 ℝ → Prop} {vs : List (V2 ℝ)} (hA : Around L R vs) (hF : Fan vs) {i : Nat} {e : EEdge} (he : EdgeOf vs i e) {v : V2 ℝ} (hv : v ∈ vs) : v.dot e.normal ≤ e.distance := by
  obtain ⟨a, b, hab, hc, hn, hd, hda, hdb, hidx⟩ := edgeOf_iff he
  obtain ⟨ham, hbm⟩ := cedge_mem ⟨i, hab⟩
  by_contra h
  push Not at h
  exact hF.free a b v ⟨i, hab⟩ hv (around_sector hA ham hbm hc hd hda hdb (hA.mem v hv) h)

theorem epa2Loop_bound {L R : V2 ℝ → Prop} {left right : V2 ℝ → Res (V2 ℝ)} (hl : SupportFn2 left L) (hr : SupportFn2 right R) {tolerance w : ℝ} (htol : 0 < tolerance) (hw : Within2 L R w) :
    ∀ n s e r (T : List (V2 ℝ)), 3 ≤ s.length → Around L R (s.map SP.v) → Fan (s.map SP.v) → (∀ v ∈ T, v ∈ s.map SP.v) → T.Pairwise (fun u v => tolerance ≤ (u - v).norm) →
      cells w tolerance < T.length + n → (∃ i, EdgeOf (s.map SP.v) i e) → epa2Loop tolerance left right n s e = .ok r → r.2.2 = true := by
  have hmem : ∀ v, Mink2 L R v → v.norm ≤ w := by
    rintro _ ⟨x, y, hx, hy, rfl⟩
    exact hw x y hx hy
  intro n
  induction n with
  | zero =>
    intro s e r T _ hA _ hT hp hlen _ _
    have := packing htol (fun v hv => hmem v (hA.mem v (hT v hv))) hp
    omega
  | succ n ih =>
    rintro s e r T h3 hA hF hT hp hlen ⟨i, hei⟩ h
    obtain ⟨a, b, hab, hc, hn, hd, hda, hdb, hidx⟩ := edgeOf_iff hei
    have hne : e.normal ≠ 0 := by
      intro h0
      rw [h0] at hn
      simp [V2.norm, V2.dot] at hn
    obtain ⟨q, hq, hqf, hqs⟩ := minkowski2 hl hr hne
    unfold epa2Loop at h
    rw [hq, Res.bind_ok] at h
    dsimp only at h
    split at h
    · cases h; rfl
    · rename_i hlt
      have hlt1 : tolerance ≤ q.v.dot e.normal - e.distance := not_lt.mp hlt
      have hlt' : e.distance < q.v.dot e.normal := by linarith
      obtain ⟨ham, hbm⟩ := cedge_mem ⟨i, hab⟩
      have hsec := around_sector hA ham hbm hc hd hda hdb hqf.mink hlt'
      obtain ⟨hfresh, hF'⟩ := fan_insert hF hA.ne hab hsec
      rw [← hidx] at hF'
      have hA' : Around L R ((s.take e.index ++ q :: s.drop e.index).map SP.v) := by
        rw [map_insert]
        exact around_insert hA hei hqf.mink hqs hlt'
      rw [← map_insert] at hF'
      have hlen1 : (s.take e.index ++ q :: s.drop e.index).length = s.length + 1 := by
        simp only [List.length_append, List.length_take, List.length_cons, List.length_drop]
        omega
      rw [Res.bind_eq_ok] at h
      obtain ⟨o, ho, h⟩ := h
      obtain ⟨e', rfl, he', -⟩ := closestEdge_spec ho (by omega)
      rw [Res.ofOption_some, Res.bind_ok] at h
      refine ih _ _ _ (q.v :: T) (by omega) hA' hF' ?_ ?_ (by simp only [List.length_cons]; omega) he' h
      · intro v hv
        rw [map_insert, mem_insert]
        rcases List.mem_cons.1 hv with rfl | hv
        · exact Or.inl rfl
        · exact Or.inr (hT v hv)
      · refine List.pairwise_cons.2 ⟨fun v hv => ?_, hp⟩
        have h5 := fan_level hA hF hei (hT v hv)
        have h6 := V2.cauchy (q.v - v) e.normal
        rw [hn, mul_one, sub_dot2] at h6
        linarith

/-- C92. Two shapes with correct support functions, no point of one farther than `w` from a point of the other, no side of the triangle of GJK in line with the origin: EPA ends by the tolerance
test if it may do more than `cells w tolerance` iterations. -/
theorem epa2_bound (L R : V2 ℝ → Prop) {left right : V2 ℝ → Res (V2 ℝ)} (hl : SupportFn2 left L) (hr : SupportFn2 right R) {tolerance w : ℝ} (htol : 0 < tolerance) (hw : Within2 L R w)
    (n m : Nat) (hm : cells w tolerance < m) (lp rp : V2 ℝ) {a b c : SP (V2 ℝ)} (h : gjkIntersect reduce2 n left right lp rp = .ok (some [a, b, c]))
    (h01 : a.v.perpDot b.v ≠ 0) (h12 : b.v.perpDot c.v ≠ 0) (h20 : c.v.perpDot a.v ≠ 0)
    {k : Contact (V2 ℝ) ℝ} {converged : Bool} (hk : epa2Run tolerance m left right [a, b, c] = .ok (some (k, converged))) : converged = true := by
  obtain ⟨s0, s1, s2, e, f0, f1, f2, hin, x0, x1, x2, -⟩ := gjkIntersect2_good hl hr h
  cases e
  have hA : Around L R ([a, b, c].map SP.v) := by
    refine around_triangle hin h01 h12 h20 ?_ ?_ <;> intro x hx <;> simp only [List.mem_cons, List.not_mem_nil, or_false] at hx <;> rcases hx with rfl | rfl | rfl
    exacts [f0.mink, f1.mink, f2.mink, x0, x1, x2]
  unfold epa2Run at hk
  rw [Res.bind_eq_ok] at hk
  obtain ⟨o, ho, hk⟩ := hk
  obtain ⟨e, rfl, he, -⟩ := closestEdge_spec ho (le_refl _)
  dsimp only at hk
  rw [Res.bind_eq_ok] at hk
  obtain ⟨r, hr', hk⟩ := hk
  rw [Res.bind_eq_ok] at hk
  obtain ⟨q, -, hk⟩ := hk
  cases hk
  exact epa2Loop_bound hl hr htol hw m _ _ _ [] (le_refl _) hA (fan_triangle hin h01 h12 h20) (by simp) List.Pairwise.nil (by simpa using hm) he hr'

/-- C92 with what it means for the answer: the depth is the penetration depth up to the tolerance, for every pair of convex shapes. -/
theorem c92_2d_partial (L R : V2 ℝ → Prop) (hL : Convex2 L) (hR : Convex2 R) {left right : V2 ℝ → Res (V2 ℝ)} (hl : SupportFn2 left L) (hr : SupportFn2 right R)
    {tolerance w : ℝ} (htol : 0 < tolerance) (hw : Within2 L R w) (n m : Nat) (hm : cells w tolerance < m) (lp rp : V2 ℝ)
    {a b c : SP (V2 ℝ)} (h : gjkIntersect reduce2 n left right lp rp = .ok (some [a, b, c])) (h01 : a.v.perpDot b.v ≠ 0) (h12 : b.v.perpDot c.v ≠ 0) (h20 : c.v.perpDot a.v ≠ 0) :
    ∃ k, gjkIntersection reduce2 n (epa2 tolerance m left right) .fullResolution left right lp rp = .ok (some k) ∧ k.normal.norm = 1 ∧ 0 < k.depth ∧ L k.point ∧
      (∀ z : V2 ℝ, z.norm ≤ k.depth → ∃ x y, L x ∧ R y ∧ x = y + z) ∧
      ∀ x y, L x → R y → x.dot k.normal < (y + k.normal * (k.depth + tolerance)).dot k.normal := by
  obtain ⟨k, k1, k2, k3, k4, k5, cv, k6, k7⟩ := c70_2d_partial L R hL hR hl hr htol n m lp rp h h01 h12 h20
  exact ⟨k, k1, k2, k3, k4, k5, k7 (epa2_bound L R hl hr htol hw n m hm lp rp h h01 h12 h20 k6)⟩

/-- C92 for all 2D primitives, circles included. -/
theorem c92_prim2_partial (s t : Prim2) (hs : s.Ok) (ht : t.Ok) (D E : Dec2 ℝ) (hD : D.rot.Orthogonal)
    (hE : E.rot.Orthogonal) (hDs : D.scale ≠ 0) (hEs : E.scale ≠ 0) {tolerance w : ℝ} (htol : 0 < tolerance) (hw : Within2 (Image D.tr s.Points) (Image E.tr t.Points) w) (n m : Nat)
    (hm : cells w tolerance < m) {a b c : SP (V2 ℝ)}
    (h : gjkIntersect reduce2 n (s.supportPoint D.tr) (t.supportPoint E.tr) (D.tr.point 0) (E.tr.point 0) = .ok (some [a, b, c]))
    (h01 : a.v.perpDot b.v ≠ 0) (h12 : b.v.perpDot c.v ≠ 0) (h20 : c.v.perpDot a.v ≠ 0) :
    ∃ k, gjkIntersection reduce2 n (epa2 tolerance m (s.supportPoint D.tr) (t.supportPoint E.tr)) .fullResolution (s.supportPoint D.tr) (t.supportPoint E.tr)
      (D.tr.point 0) (E.tr.point 0) = .ok (some k) ∧ k.normal.norm = 1 ∧ 0 < k.depth ∧ Image D.tr s.Points k.point ∧
      (∀ z : V2 ℝ, z.norm ≤ k.depth → ∃ x y, Image D.tr s.Points x ∧ Image E.tr t.Points y ∧ x = y + z) ∧
      ∀ x y, Image D.tr s.Points x → Image E.tr t.Points y → x.dot k.normal < (y + k.normal * (k.depth + tolerance)).dot k.normal :=
  c92_2d_partial _ _ (image_convex2 D (prim2_convex s)) (image_convex2 E (prim2_convex t)) (prim2_support s hs D hD hDs) (prim2_support t ht E hE hEs) htol hw n m hm _ _ h h01 h12 h20

/-- C92 is false when a side of the triangle of GJK is in line with the origin: a 2 by 2 rectangle at the origin and a 2 by 6 rectangle at (1, 2). Whatever the number of iterations and the
tolerance, the contact has depth 2, and there is a move of length 3/2 that separates the rectangles, so the depth is off by at least 1/2. -/
theorem c92_false {tolerance : ℝ} (htol : 0 < tolerance) (n m : Nat) :
    ∃ k, gjkIntersection reduce2 (n + 2) (epa2 tolerance (m + 1) ((Prim2.rectangle (Rectangle.new 2 2)).supportPoint (shift2 0 0).tr) ((Prim2.rectangle (Rectangle.new 2 6)).supportPoint (shift2 1 2).tr))
        .fullResolution ((Prim2.rectangle (Rectangle.new 2 2)).supportPoint (shift2 0 0).tr) ((Prim2.rectangle (Rectangle.new 2 6)).supportPoint (shift2 1 2).tr)
        ((shift2 0 0).tr.point 0) ((shift2 1 2).tr.point 0) = .ok (some k) ∧ k.depth = 2 ∧
      ∃ z : V2 ℝ, z.norm = 3 / 2 ∧ ¬ ∃ x y, Image (shift2 0 0).tr (Prim2.rectangle (Rectangle.new 2 2)).Points x ∧ Image (shift2 1 2).tr (Prim2.rectangle (Rectangle.new 2 6)).Points y ∧ x = y + z := by
  obtain ⟨s, c, h1, h2, h3, h4⟩ := c70_false htol n m
  refine ⟨c, ?_, h3, ⟨3 / 2, 0⟩, ?_, ?_⟩
  · unfold gjkIntersection
    rw [h1, Res.bind_ok]
    show epa2 _ _ _ _ _ = _
    unfold epa2
    rw [h2]
    rfl
  · rw [show (⟨3 / 2, 0⟩ : V2 ℝ) = (⟨1, 0⟩ : V2 ℝ) * (3 / 2 : ℝ) from by ext <;> simp, V2.norm_smul]
    have : (⟨1, 0⟩ : V2 ℝ).norm = 1 := by simp [V2.norm, V2.dot]
    rw [this]
    norm_num
  · rintro ⟨x, y, hx, hy, rfl⟩
    exact lt_irrefl _ (h4 _ _ hx hy)

/-- A circle and a rectangle that meet the conditions of C92: the unit circle at the origin and a 14/5 by 7/5 rectangle at (3/5, 4/5); the triangle of GJK has no side in line with the origin. -/
theorem c92_example (n : Nat) : ∃ a b c, gjkIntersect reduce2 (n + 2) ((Prim2.circle ⟨1⟩).supportPoint (shift2 0 0).tr)
      ((Prim2.rectangle (Rectangle.new (14 / 5) (7 / 5))).supportPoint (shift2 (3 / 5) (4 / 5)).tr) ((shift2 0 0).tr.point 0) ((shift2 (3 / 5) (4 / 5)).tr.point 0) = .ok (some [a, b, c]) ∧
    a.v.perpDot b.v ≠ 0 ∧ b.v.perpDot c.v ≠ 0 ∧ c.v.perpDot a.v ≠ 0 := by
  have nrm : ∀ x y r : ℝ, 0 ≤ r → x * x + y * y = r ^ 2 → (⟨x, y⟩ : V2 ℝ).norm = r := by
    intro x y r hr h
    rw [V2.norm, show (⟨x, y⟩ : V2 ℝ).dot ⟨x, y⟩ = r ^ 2 from h, Real.sqrt_sq hr]
  have circ : ∀ x y r : ℝ, 0 < r → x * x + y * y = r ^ 2 → (Prim2.circle ⟨1⟩).supportPoint (shift2 0 0).tr ⟨x, y⟩ = .ok ⟨x / r, y / r⟩ := by
    intro x y r hr h
    have h1 := circle_disc ⟨1⟩ (shift2 0 0) (shift2_orthogonal 0 0) (by simp [shift2]) ⟨x, y⟩ (by
      intro h0
      have h1 := congrArg V2.x h0
      have h2 := congrArg V2.y h0
      simp at h1 h2
      rw [h1, h2] at h
      nlinarith)
    rw [nrm x y r hr.le h] at h1
    refine Eq.trans h1 ?_
    congr 1
    ext <;> simp [shift2] <;> ring
  have l1 : ∀ d e, ∀ p q, (Prim2.circle ⟨1⟩).supportPoint (shift2 0 0).tr d = .ok p → (Rectangle.new (14 / 5) (7 / 5)).supportPoint (shift2 (3 / 5) (4 / 5)).tr e = .ok q → e = -d →
      SP.fromMinkowski ((Prim2.circle ⟨1⟩).supportPoint (shift2 0 0).tr) ((Prim2.rectangle (Rectangle.new (14 / 5) (7 / 5))).supportPoint (shift2 (3 / 5) (4 / 5)).tr) d
        = .ok ⟨p - q, p, q⟩ := by
    rintro d e p q h1 h2 rfl
    show (do let a ← (Prim2.circle ⟨1⟩).supportPoint (shift2 0 0).tr d; let b ← (Rectangle.new (14 / 5) (7 / 5)).supportPoint (shift2 (3 / 5) (4 / 5)).tr (-d); pure (⟨a - b, a, b⟩ : SP (V2 ℝ)) : Res _) = _
    rw [h1, h2]; rfl
  have q0 := l1 ⟨3 / 5, 4 / 5⟩ ⟨-3 / 5, -4 / 5⟩ _ ⟨-4 / 5, 1 / 10⟩ (circ _ _ 1 (by norm_num) (by norm_num)) (by
    norm_num [Rectangle.supportPoint, support, shift2, Dec2.tr, Rectangle.new, Rectangle.newImpl, Rectangle.generateCorners, maxPoint2, V2.dot, M2.apply, M2.transpose, V2.ext_iff]) (by ext <;> norm_num)
  have q1 := l1 ⟨-3 / 5, -4 / 5⟩ ⟨3 / 5, 4 / 5⟩ _ ⟨2, 3 / 2⟩ (circ _ _ 1 (by norm_num) (by norm_num)) (by
    norm_num [Rectangle.supportPoint, support, shift2, Dec2.tr, Rectangle.new, Rectangle.newImpl, Rectangle.generateCorners, maxPoint2, V2.dot, M2.apply, M2.transpose, V2.ext_iff]) (by ext <;> norm_num)
  have q2 := l1 ⟨-21 / 5, 28 / 5⟩ ⟨21 / 5, -28 / 5⟩ _ ⟨2, 1 / 10⟩ (circ _ _ 7 (by norm_num) (by norm_num)) (by
    norm_num [Rectangle.supportPoint, support, shift2, Dec2.tr, Rectangle.new, Rectangle.newImpl, Rectangle.generateCorners, maxPoint2, V2.dot, M2.apply, M2.transpose, V2.ext_iff]) (by ext <;> norm_num)
  have v0 : (⟨3 / 5 / 1, 4 / 5 / 1⟩ - ⟨-4 / 5, 1 / 10⟩ : V2 ℝ) = ⟨7 / 5, 7 / 10⟩ := by ext <;> norm_num
  have v1 : (⟨-3 / 5 / 1, -4 / 5 / 1⟩ - ⟨2, 3 / 2⟩ : V2 ℝ) = ⟨-13 / 5, -23 / 10⟩ := by ext <;> norm_num
  have v2 : (⟨-21 / 5 / 7, 28 / 5 / 7⟩ - ⟨2, 1 / 10⟩ : V2 ℝ) = ⟨-13 / 5, 7 / 10⟩ := by ext <;> norm_num
  rw [v0] at q0
  rw [v1] at q1
  rw [v2] at q2
  have hp0 : (shift2 0 0).tr.point 0 = ⟨0, 0⟩ := by ext <;> simp [shift2, Dec2.tr, M2.apply]
  have hp1 : (shift2 (3 / 5) (4 / 5)).tr.point 0 = ⟨3 / 5, 4 / 5⟩ := by ext <;> simp [shift2, Dec2.tr, M2.apply]
  have hd : firstDirection (⟨0, 0⟩ : V2 ℝ) ⟨3 / 5, 4 / 5⟩ = ⟨3 / 5, 4 / 5⟩ := by
    have e : (⟨3 / 5, 4 / 5⟩ - ⟨0, 0⟩ : V2 ℝ) = ⟨3 / 5, 4 / 5⟩ := by ext <;> simp
    unfold firstDirection
    rw [e]
    dsimp only
    rw [if_neg]
    intro h; have := congrArg V2.x h; norm_num at this
  have r1 : ∀ a b : SP (V2 ℝ), a.v = ⟨7 / 5, 7 / 10⟩ → b.v = ⟨-13 / 5, -23 / 10⟩ → ∀ d, reduce2 [a, b] d = (false, [a, b], ⟨-21 / 5, 28 / 5⟩) := by
    intro a b h1 h2 d
    have e : tripleProduct ((⟨7 / 5, 7 / 10⟩ : V2 ℝ) - ⟨-13 / 5, -23 / 10⟩) (-⟨-13 / 5, -23 / 10⟩) (⟨7 / 5, 7 / 10⟩ - ⟨-13 / 5, -23 / 10⟩) = ⟨-21 / 5, 28 / 5⟩ := by
      ext <;> norm_num [tripleProduct]
    unfold reduce2
    dsimp only
    rw [h1, h2, e]
    rw [if_neg (by intro h; have := congrArg V2.x h; norm_num at this)]
  have r2 : ∀ a b c : SP (V2 ℝ), a.v = ⟨7 / 5, 7 / 10⟩ → b.v = ⟨-13 / 5, -23 / 10⟩ → c.v = ⟨-13 / 5, 7 / 10⟩ → ∀ d, reduce2 [a, b, c] d = (true, [a, b, c], d) := by
    intro a b c h1 h2 h3 d
    unfold reduce2
    dsimp only
    rw [h1, h2, h3]
    rw [if_neg (by norm_num [tripleProduct, V2.dot]), if_neg (by norm_num [tripleProduct, V2.dot])]
  have hneg : (-⟨3 / 5, 4 / 5⟩ : V2 ℝ) = ⟨-3 / 5, -4 / 5⟩ := by ext <;> norm_num
  obtain ⟨A, hA⟩ : ∃ A : SP (V2 ℝ), A = ⟨⟨7 / 5, 7 / 10⟩, ⟨3 / 5 / 1, 4 / 5 / 1⟩, ⟨-4 / 5, 1 / 10⟩⟩ := ⟨_, rfl⟩
  obtain ⟨B, hB⟩ : ∃ B : SP (V2 ℝ), B = ⟨⟨-13 / 5, -23 / 10⟩, ⟨-3 / 5 / 1, -4 / 5 / 1⟩, ⟨2, 3 / 2⟩⟩ := ⟨_, rfl⟩
  obtain ⟨C, hC⟩ : ∃ C : SP (V2 ℝ), C = ⟨⟨-13 / 5, 7 / 10⟩, ⟨-21 / 5 / 7, 28 / 5 / 7⟩, ⟨2, 1 / 10⟩⟩ := ⟨_, rfl⟩
  rw [← hA] at q0
  rw [← hB] at q1
  rw [← hC] at q2
  have eA : A.v = ⟨7 / 5, 7 / 10⟩ := by rw [hA]
  have eB : B.v = ⟨-13 / 5, -23 / 10⟩ := by rw [hB]
  have eC : C.v = ⟨-13 / 5, 7 / 10⟩ := by rw [hC]
  refine ⟨A, B, C, ?_, ?_, ?_, ?_⟩
  · unfold gjkIntersect gjkRun
    rw [hp0, hp1, hd]
    dsimp only
    rw [q0, Res.bind_ok, if_neg (by rw [eA]; simp only [Inner.dot, V2.dot]; norm_num), hneg]
    unfold gjkLoop
    rw [q1, Res.bind_ok, if_neg (by rw [eB]; simp only [Inner.dot, V2.dot]; norm_num)]
    dsimp only [List.cons_append, List.nil_append]
    rw [r1 A B eA eB, if_neg (by simp)]
    unfold gjkLoop
    rw [q2, Res.bind_ok, if_neg (by rw [eC]; simp only [Inner.dot, V2.dot]; norm_num)]
    dsimp only [List.cons_append, List.nil_append]
    rw [r2 A B C eA eB eC, if_pos rfl]
    rfl
  · rw [eA, eB]; norm_num [V2.perpDot]
  · rw [eB, eC]; norm_num [V2.perpDot]
  · rw [eC, eA]; norm_num [V2.perpDot]
end
end Verif.Minkowski
