import Verif.Minkowski.Gjk2Bound
import Verif.Minkowski.Balls
/-!
# No limit on the iterations of GJK is enough for every overlap of a circle (C90, C91)

C91 bounds the number of iterations by the depth of the overlap. Here is the other side: for every limit there is a circle and a triangle that overlap (so little that the limit is too low),
and GJK answers that they do not collide. On the round part of the Minkowski difference every iteration halves the arc; the origin is put a third of the way along the arc, just inside.
-/
namespace Verif.Minkowski
open Verif Geom Primitive
set_option linter.unusedSectionVars false
noncomputable section

/-- The unit vector at an angle. -/
def unitAt (a : ℝ) : V2 ℝ := ⟨Real.cos a, Real.sin a⟩

/-- The half angle of the arc after `k` iterations on it (signed: the direction of the arc alternates). -/
def halfArc (k : Nat) : ℝ := Real.pi / 4 * (-1 / 2) ^ k

theorem halfArc_succ (k : Nat) : halfArc (k + 1) = -(halfArc k / 2) := by
  unfold halfArc; rw [pow_succ]; ring

theorem halfArc_abs (k : Nat) : |halfArc k| = Real.pi / 4 * (1 / 2) ^ k := by
  unfold halfArc
  rw [abs_mul, abs_pow, abs_of_pos (by positivity : 0 < Real.pi / 4), abs_div, abs_neg, abs_one, abs_two]

theorem halfArc_abs_le {k n : Nat} (h : k ≤ n) : |halfArc n| ≤ |halfArc k| := by
  rw [halfArc_abs, halfArc_abs]
  apply mul_le_mul_of_nonneg_left _ (by positivity)
  exact pow_le_pow_of_le_one (by norm_num) (by norm_num) h

theorem halfArc_abs_pos (k : Nat) : 0 < |halfArc k| := by rw [halfArc_abs]; positivity

theorem halfArc_abs_max (k : Nat) : |halfArc k| ≤ Real.pi / 4 := by
  have := halfArc_abs_le (Nat.zero_le k)
  rw [halfArc_abs 0] at this
  simpa using this

/-- The middle of the arc after `k` iterations: the origin is a third of the half arc from it. -/
def midArc (k : Nat) : ℝ := Real.pi / 3 - halfArc k / 3

theorem midArc_succ (k : Nat) : midArc (k + 1) = midArc k + halfArc k / 2 := by
  unfold midArc; rw [halfArc_succ]; ring

/-- How far from the centre of the circle the corner of the triangle is. -/
def reach (n : Nat) : ℝ := Real.cos (halfArc n / 3)

theorem reach_pos (n : Nat) : 0 < reach n := by
  apply Real.cos_pos_of_mem_Ioo
  have := halfArc_abs_max n
  rw [abs_le] at this
  have := Real.pi_pos
  constructor <;> linarith

theorem reach_lt (n : Nat) : reach n < 1 := by
  unfold reach
  rw [← Real.cos_abs, ← Real.cos_zero]
  have h1 := halfArc_abs_max n
  have h2 := halfArc_abs_pos n
  have := Real.pi_pos
  apply Real.cos_lt_cos_of_nonneg_of_le_pi le_rfl
  · rw [abs_div]; norm_num; linarith
  · rw [abs_div]; norm_num; exact abs_pos.mp h2

/-- The origin is beyond the new edge, on every iteration up to the `n`-th. -/
theorem reach_beyond {k n : Nat} (h : k ≤ n) : Real.cos (halfArc k / 2) < reach n * Real.cos (halfArc k / 6) := by
  have h1 := halfArc_abs_le h
  have h2 := halfArc_abs_pos n
  have h3 := halfArc_abs_max k
  have hpi := Real.pi_pos
  have e1 : Real.cos (halfArc k / 2) = 4 * Real.cos (halfArc k / 6) ^ 3 - 3 * Real.cos (halfArc k / 6) := by
    rw [← Real.cos_three_mul]; congr 1; ring
  have e2 : reach n = 2 * Real.cos (halfArc n / 6) ^ 2 - 1 := by
    unfold reach; rw [← Real.cos_two_mul]; congr 1; ring
  have abs6 : ∀ x : ℝ, |x / 6| = |x| / 6 := fun x => by rw [abs_div]; norm_num
  have c1 : Real.cos (halfArc k / 6) ≤ Real.cos (halfArc n / 6) := by
    rw [← Real.cos_abs (halfArc k / 6), ← Real.cos_abs (halfArc n / 6), abs6, abs6]
    apply Real.cos_le_cos_of_nonneg_of_le_pi <;> linarith
  have c2 : Real.cos (halfArc n / 6) < 1 := by
    rw [← Real.cos_abs, ← Real.cos_zero, abs6]
    apply Real.cos_lt_cos_of_nonneg_of_le_pi le_rfl
    · have := halfArc_abs_max n; linarith
    · linarith
  have c3 : 0 < Real.cos (halfArc k / 6) := by
    apply Real.cos_pos_of_mem_Ioo
    rw [abs_le] at h3
    constructor <;> linarith
  rw [e1, e2]
  have : 4 * Real.cos (halfArc k / 6) ^ 2 - 3 < 2 * Real.cos (halfArc n / 6) ^ 2 - 1 := by nlinarith
  nlinarith

/-- What is needed of the second shape: towards the circle its farthest point is `w`. -/
def CornerFn (right : V2 ℝ → Res (V2 ℝ)) (w : V2 ℝ) : Prop := ∀ e : V2 ℝ, e.x ≤ 0 → e.y ≤ 0 → e ≠ 0 → right e = .ok w

theorem unitAt_dot (a b : ℝ) : (unitAt a).dot (unitAt b) = Real.cos (a - b) := by
  simp only [unitAt, V2.dot]; rw [Real.cos_sub]

theorem unitAt_norm (a : ℝ) : (unitAt a).norm = 1 := by
  unfold V2.norm; rw [unitAt_dot, sub_self, Real.cos_zero, Real.sqrt_one]

theorem unitAt_ne (a : ℝ) : unitAt a ≠ 0 := by
  intro h
  have := unitAt_norm a
  rw [h] at this
  simp [V2.norm, V2.dot] at this

theorem arc_point {left right : V2 ℝ → Res (V2 ℝ)} {w : V2 ℝ} (hl : DiscFn left 0 1) (hr : CornerFn right w) {a c : ℝ} (hc : 0 < c) (h0 : 0 ≤ Real.cos a) (h1 : 0 ≤ Real.sin a) :
    SP.fromMinkowski left right (unitAt a * c) = .ok ⟨unitAt a - w, unitAt a, w⟩ := by
  have hne : unitAt a * c ≠ 0 := by
    intro h
    have h2 : (unitAt a * c).norm = 0 := by rw [h]; simp [V2.norm, V2.dot]
    rw [V2.norm_smul, unitAt_norm, abs_of_pos hc] at h2
    linarith
  have e1 : left (unitAt a * c) = .ok (unitAt a) := by
    rw [hl _ hne, V2.norm_smul, unitAt_norm, abs_of_pos hc]
    congr 1
    ext <;> simp <;> field_simp
  have e2 : right (-(unitAt a * c)) = .ok w := by
    apply hr
    · simp [unitAt]; positivity
    · simp [unitAt]; positivity
    · exact neg_ne2 hne
  unfold SP.fromMinkowski
  rw [e1, e2]
  rfl

theorem mid_quadrant (k : Nat) : 0 ≤ Real.cos (midArc k) ∧ 0 ≤ Real.sin (midArc k) := by
  have h := halfArc_abs_max k
  rw [abs_le] at h
  have := Real.pi_pos
  unfold midArc
  exact ⟨Real.cos_nonneg_of_neg_pi_div_two_le_of_le (by linarith) (by linarith), Real.sin_nonneg_of_nonneg_of_le_pi (by linarith) (by linarith)⟩

/-- The new direction: perpendicular to the new edge, pointing outwards. -/
theorem arc_normal (m h : ℝ) : tripleProduct (unitAt (m - h) - unitAt m) (unitAt (m + h) - unitAt m) (unitAt (m + h) - unitAt m) =
    unitAt (m + h / 2) * (8 * Real.sin (h / 2) ^ 3 * Real.sin h) := by
  obtain ⟨x, y, hm, hh⟩ : ∃ x y, m = y - x ∧ h = 2 * x := ⟨h / 2, m + h / 2, by ring, by ring⟩
  subst hm hh
  have e1 : unitAt (y - x + 2 * x) - unitAt (y - x) = ⟨-Real.sin y * (2 * Real.sin x), Real.cos y * (2 * Real.sin x)⟩ := by
    rw [show y - x + 2 * x = y + x from by ring]
    ext <;> simp only [unitAt, V2.sub_x, V2.sub_y]
    · rw [Real.cos_add, Real.cos_sub]; ring
    · rw [Real.sin_add, Real.sin_sub]; ring
  have e2 : unitAt (y - x - 2 * x) - unitAt (y - x) = ⟨Real.sin (y - 2 * x) * (2 * Real.sin x), -Real.cos (y - 2 * x) * (2 * Real.sin x)⟩ := by
    rw [show y - x - 2 * x = (y - 2 * x) - x from by ring, show y - x = (y - 2 * x) + x from by ring]
    ext <;> simp only [unitAt, V2.sub_x, V2.sub_y]
    · rw [Real.cos_add, Real.cos_sub (y - 2 * x)]; ring
    · rw [Real.sin_add, Real.sin_sub (y - 2 * x)]; ring
  rw [e1, e2, show y - x + 2 * x / 2 = y from by ring, show 2 * x / 2 = x from by ring, Real.cos_sub, Real.sin_sub]
  have hy := Real.sin_sq_add_cos_sq y
  unfold tripleProduct unitAt
  ext <;> simp only [V2.mul_x, V2.mul_y]
  · linear_combination (8 * Real.sin x ^ 3 * Real.sin (2 * x) * Real.cos y) * hy
  · linear_combination (8 * Real.sin x ^ 3 * Real.sin (2 * x) * Real.sin y) * hy

theorem arc_factor {h : ℝ} (h0 : h ≠ 0) (h1 : |h| ≤ Real.pi / 4) : 0 < 8 * Real.sin (h / 2) ^ 3 * Real.sin h := by
  have hpi := Real.pi_pos
  have e : Real.sin h = 2 * Real.sin (h / 2) * Real.cos (h / 2) := by rw [← Real.sin_two_mul]; congr 1; ring
  rw [abs_le] at h1
  have hc : 0 < Real.cos (h / 2) := Real.cos_pos_of_mem_Ioo ⟨by linarith, by linarith⟩
  have hs : Real.sin (h / 2) ≠ 0 := by
    intro h2
    rw [Real.sin_eq_zero_iff_of_lt_of_lt (by linarith) (by linarith)] at h2
    apply h0; linarith
  have h4 : 0 < Real.sin (h / 2) ^ 4 := by positivity
  rw [e]
  nlinarith [mul_pos h4 hc]

/-- The state after `k` iterations on the arc: the two ends of the arc and a direction towards its middle. -/
def arcState (w : V2 ℝ) (k : Nat) : List (SP (V2 ℝ)) :=
  [⟨unitAt (midArc k - halfArc k) - w, unitAt (midArc k - halfArc k), w⟩, ⟨unitAt (midArc k + halfArc k) - w, unitAt (midArc k + halfArc k), w⟩]

/-- From the `k`-th state on GJK does `j` more iterations without a decision, as long as that is not beyond the `n`-th. -/
theorem arc_loop {left right : V2 ℝ → Res (V2 ℝ)} {n : Nat} (hl : DiscFn left 0 1) (hr : CornerFn right (unitAt (Real.pi / 3) * reach n)) :
    ∀ (j k : Nat), k + j ≤ n + 1 → ∀ c : ℝ, 0 < c → gjkLoop reduce2 left right j (arcState (unitAt (Real.pi / 3) * reach n) k) (unitAt (midArc k) * c) = .ok .exhausted := by
  intro j
  induction j with
  | zero => intro k _ c _; rfl
  | succ j ih =>
    intro k hk c hc
    obtain ⟨q1, q2⟩ := mid_quadrant k
    unfold gjkLoop
    rw [arc_point hl hr hc q1 q2, Res.bind_ok]
    have hneg : ¬ Inner.dot (unitAt (midArc k) - unitAt (Real.pi / 3) * reach n) (unitAt (midArc k) * c) ≤ 0 := by
      show ¬ (unitAt (midArc k) - unitAt (Real.pi / 3) * reach n).dot (unitAt (midArc k) * c) ≤ 0
      have e : (unitAt (midArc k) - unitAt (Real.pi / 3) * reach n).dot (unitAt (midArc k) * c) =
          c * ((unitAt (midArc k)).dot (unitAt (midArc k)) - reach n * (unitAt (Real.pi / 3)).dot (unitAt (midArc k))) := by
        simp only [V2.dot, V2.sub_x, V2.sub_y, V2.mul_x, V2.mul_y]; ring
      rw [e, unitAt_dot, unitAt_dot, sub_self, Real.cos_zero, not_le]
      apply mul_pos hc
      have a1 := Real.cos_le_one (Real.pi / 3 - midArc k)
      have a2 := reach_lt n
      have a3 := reach_pos n
      nlinarith
    dsimp only
    rw [if_neg hneg]
    have hred : reduce2 (arcState (unitAt (Real.pi / 3) * reach n) k ++ [⟨unitAt (midArc k) - unitAt (Real.pi / 3) * reach n, unitAt (midArc k), unitAt (Real.pi / 3) * reach n⟩])
        (unitAt (midArc k) * c) =
        (false, arcState (unitAt (Real.pi / 3) * reach n) (k + 1), unitAt (midArc (k + 1)) * (8 * Real.sin (halfArc k / 2) ^ 3 * Real.sin (halfArc k))) := by
      have eb : ∀ p q w : V2 ℝ, (p - w) - (q - w) = p - q := by intro p q w; ext <;> simp
      have en : tripleProduct (unitAt (midArc k - halfArc k) - unitAt (Real.pi / 3) * reach n - (unitAt (midArc k) - unitAt (Real.pi / 3) * reach n))
          (unitAt (midArc k + halfArc k) - unitAt (Real.pi / 3) * reach n - (unitAt (midArc k) - unitAt (Real.pi / 3) * reach n))
          (unitAt (midArc k + halfArc k) - unitAt (Real.pi / 3) * reach n - (unitAt (midArc k) - unitAt (Real.pi / 3) * reach n)) =
          unitAt (midArc (k + 1)) * (8 * Real.sin (halfArc k / 2) ^ 3 * Real.sin (halfArc k)) := by
        rw [eb, eb, arc_normal, midArc_succ]
      have hpos : 0 < 8 * Real.sin (halfArc k / 2) ^ 3 * Real.sin (halfArc k) := arc_factor (abs_pos.mp (halfArc_abs_pos k)) (halfArc_abs_max k)
      have hb : (unitAt (midArc (k + 1)) * (8 * Real.sin (halfArc k / 2) ^ 3 * Real.sin (halfArc k))).dot (-(unitAt (midArc k) - unitAt (Real.pi / 3) * reach n)) > 0 := by
        have e : ∀ f : ℝ, (unitAt (midArc (k + 1)) * f).dot (-(unitAt (midArc k) - unitAt (Real.pi / 3) * reach n)) =
            f * (reach n * (unitAt (Real.pi / 3)).dot (unitAt (midArc (k + 1))) - (unitAt (midArc (k + 1))).dot (unitAt (midArc k))) := by
          intro f
          simp only [V2.dot, V2.neg_x, V2.neg_y, V2.sub_x, V2.sub_y, V2.mul_x, V2.mul_y]; ring
        rw [e, unitAt_dot, unitAt_dot]
        apply mul_pos hpos
        have e1 : Real.pi / 3 - midArc (k + 1) = -(halfArc k / 6) := by rw [midArc_succ]; unfold midArc; ring
        have e2 : midArc (k + 1) - midArc k = halfArc k / 2 := by rw [midArc_succ]; ring
        rw [e1, e2, Real.cos_neg]
        have := reach_beyond (show k ≤ n by omega)
        linarith
      unfold arcState reduce2
      simp only [List.cons_append, List.nil_append]
      rw [en, if_pos hb]
      have e3 : midArc (k + 1) - halfArc (k + 1) = midArc k + halfArc k := by rw [midArc_succ, halfArc_succ]; ring
      have e4 : midArc (k + 1) + halfArc (k + 1) = midArc k := by rw [midArc_succ, halfArc_succ]; ring
      rw [e3, e4]
    rw [hred]
    dsimp only
    rw [if_neg (by simp)]
    exact ih (k + 1) (by omega) _ (arc_factor (abs_pos.mp (halfArc_abs_pos k)) (halfArc_abs_max k))

/-- The whole run. `far` is the point of the second shape farthest from the circle. -/
theorem arc_run {left right : V2 ℝ → Res (V2 ℝ)} {n : Nat} (hl : DiscFn left 0 1) (hr : CornerFn right (unitAt (Real.pi / 3) * reach n))
    (hfar : right ⟨1, 0⟩ = .ok (unitAt (Real.pi / 3) * reach n + ⟨4, 0⟩)) : gjkRun reduce2 n left right 0 ⟨1, 0⟩ = .ok .exhausted := by
  set w := unitAt (Real.pi / 3) * reach n with hw
  have r0 := reach_pos n
  have r1 := reach_lt n
  have h3 : Real.sqrt 3 ^ 2 = 3 := Real.sq_sqrt (by norm_num)
  have h30 : 0 < Real.sqrt 3 := Real.sqrt_pos.mpr (by norm_num)
  have h32 : Real.sqrt 3 < 2 := by nlinarith
  have wx : w.x = reach n / 2 := by rw [hw]; simp [unitAt]; ring
  have wy : w.y = reach n * (Real.sqrt 3 / 2) := by rw [hw]; simp [unitAt]; ring
  have wy0 : 0 < w.y := by rw [wy]; positivity
  have wy1 : w.y < 1 := by rw [wy]; nlinarith
  have wx0 : 0 < w.x := by rw [wx]; positivity
  have wx1 : w.x < 1 := by rw [wx]; linarith
  have hsum : 1 < w.x + w.y := by
    have hb : 1 - (halfArc n / 3) ^ 2 / 2 ≤ reach n := Real.one_sub_sq_div_two_le_cos
    have h7 := halfArc_abs_max n
    have hp := Real.pi_lt_d2
    have h8 : halfArc n ^ 2 ≤ 1 := by
      rw [← sq_abs]
      have := abs_nonneg (halfArc n)
      nlinarith
    have h9 : 17 / 10 < Real.sqrt 3 := by nlinarith
    rw [wx, wy]
    nlinarith
  have u0 : unitAt 0 = ⟨1, 0⟩ := by simp [unitAt]
  have u1 : unitAt (Real.pi / 2) = ⟨0, 1⟩ := by simp [unitAt]
  have p0 : SP.fromMinkowski left right ⟨1, 0⟩ = .ok ⟨unitAt 0 - w, unitAt 0, w⟩ := by
    have := arc_point hl hr (a := 0) one_pos (by simp) (by simp)
    rw [← this]
    congr 1
    rw [u0]; ext <;> simp
  have p1 : SP.fromMinkowski left right (-⟨1, 0⟩) = .ok ⟨⟨-1, 0⟩ - (w + ⟨4, 0⟩), ⟨-1, 0⟩, w + ⟨4, 0⟩⟩ := by
    have e1 : left (-⟨1, 0⟩) = .ok ⟨-1, 0⟩ := by
      rw [hl _ (by intro h; have := congrArg V2.x h; norm_num at this)]
      have : (-⟨1, 0⟩ : V2 ℝ).norm = 1 := by simp [V2.norm, V2.dot]
      rw [this]
      congr 1
      ext <;> simp
    have e2 : (- -⟨1, 0⟩ : V2 ℝ) = ⟨1, 0⟩ := by ext <;> simp
    unfold SP.fromMinkowski
    rw [e1, e2, hfar]
    rfl
  have hf : firstDirection (0 : V2 ℝ) ⟨1, 0⟩ = ⟨1, 0⟩ := by
    unfold firstDirection
    have e : (⟨1, 0⟩ : V2 ℝ) - 0 = ⟨1, 0⟩ := by ext <;> simp
    rw [e]
    exact if_neg (by intro h; have := congrArg V2.x h; norm_num at this)
  unfold gjkRun
  dsimp only
  rw [hf, p0, Res.bind_ok]
  have n0 : ¬ Inner.dot (unitAt 0 - w) (⟨1, 0⟩ : V2 ℝ) ≤ 0 := by
    show ¬ (unitAt 0 - w).dot (⟨1, 0⟩ : V2 ℝ) ≤ 0
    rw [u0]
    simp only [V2.dot, V2.sub_x, V2.sub_y]
    linarith
  dsimp only
  rw [if_neg n0]
  cases n with
  | zero => rfl
  | succ n =>
    unfold gjkLoop
    rw [p1, Res.bind_ok]
    have n1 : ¬ Inner.dot (⟨-1, 0⟩ - (w + ⟨4, 0⟩)) (-⟨1, 0⟩ : V2 ℝ) ≤ 0 := by
      show ¬ (⟨-1, 0⟩ - (w + ⟨4, 0⟩) : V2 ℝ).dot (-⟨1, 0⟩ : V2 ℝ) ≤ 0
      simp only [V2.dot, V2.sub_x, V2.sub_y, V2.add_x, V2.add_y, V2.neg_x, V2.neg_y]
      linarith
    dsimp only
    rw [if_neg n1]
    have r1 : reduce2 ([⟨unitAt 0 - w, unitAt 0, w⟩] ++ [⟨⟨-1, 0⟩ - (w + ⟨4, 0⟩), ⟨-1, 0⟩, w + ⟨4, 0⟩⟩]) (-⟨1, 0⟩ : V2 ℝ) =
        (false, [⟨unitAt 0 - w, unitAt 0, w⟩, ⟨⟨-1, 0⟩ - (w + ⟨4, 0⟩), ⟨-1, 0⟩, w + ⟨4, 0⟩⟩], unitAt (Real.pi / 2) * (36 * w.y)) := by
      have e : tripleProduct (unitAt 0 - w - (⟨-1, 0⟩ - (w + ⟨4, 0⟩))) (-(⟨-1, 0⟩ - (w + ⟨4, 0⟩))) (unitAt 0 - w - (⟨-1, 0⟩ - (w + ⟨4, 0⟩))) = unitAt (Real.pi / 2) * (36 * w.y) := by
        rw [u0, u1]
        unfold tripleProduct
        ext <;> simp <;> ring
      unfold reduce2
      simp only [List.cons_append, List.nil_append]
      rw [e, if_neg]
      intro h
      have := congrArg V2.y h
      rw [u1] at this
      simp at this
      linarith
    rw [r1]
    dsimp only
    rw [if_neg (by simp)]
    cases n with
    | zero => rfl
    | succ n =>
      unfold gjkLoop
      rw [arc_point hl hr (a := Real.pi / 2) (show 0 < 36 * w.y by linarith) (by simp) (by simp), Res.bind_ok]
      have n2 : ¬ Inner.dot (unitAt (Real.pi / 2) - w) (unitAt (Real.pi / 2) * (36 * w.y)) ≤ 0 := by
        show ¬ (unitAt (Real.pi / 2) - w).dot (unitAt (Real.pi / 2) * (36 * w.y)) ≤ 0
        rw [u1]
        simp only [V2.dot, V2.sub_x, V2.sub_y, V2.mul_x, V2.mul_y]
        nlinarith
      dsimp only
      rw [if_neg n2]
      have r2 : reduce2 ([⟨unitAt 0 - w, unitAt 0, w⟩, ⟨⟨-1, 0⟩ - (w + ⟨4, 0⟩), ⟨-1, 0⟩, w + ⟨4, 0⟩⟩] ++ [⟨unitAt (Real.pi / 2) - w, unitAt (Real.pi / 2), w⟩])
          (unitAt (Real.pi / 2) * (36 * w.y)) = (false, arcState w 0, unitAt (midArc 0) * (6 * Real.sqrt 2)) := by
        have m0 : midArc 0 = Real.pi / 4 := by unfold midArc halfArc; ring
        have h0 : halfArc 0 = Real.pi / 4 := by unfold halfArc; ring
        unfold arcState
        rw [m0, h0, show Real.pi / 4 - Real.pi / 4 = 0 from by ring, show Real.pi / 4 + Real.pi / 4 = Real.pi / 2 from by ring]
        have e2 : unitAt (Real.pi / 4) * (6 * Real.sqrt 2) = ⟨6, 6⟩ := by
          have : Real.sqrt 2 ^ 2 = 2 := Real.sq_sqrt (by norm_num)
          ext <;> simp [unitAt] <;> linear_combination 3 * this
        rw [e2]
        unfold reduce2
        simp only [List.cons_append, List.nil_append]
        rw [if_neg, if_pos]
        · congr 2
          rw [u0, u1]
          unfold tripleProduct
          ext <;> simp <;> ring
        · rw [u0, u1]
          unfold tripleProduct
          simp only [V2.dot, V2.sub_x, V2.sub_y, V2.add_x, V2.add_y, V2.neg_x, V2.neg_y]
          nlinarith
        · rw [u0, u1]
          unfold tripleProduct
          simp only [V2.dot, V2.sub_x, V2.sub_y, V2.add_x, V2.add_y, V2.neg_x, V2.neg_y]
          nlinarith
      rw [r2]
      dsimp only
      rw [if_neg (by simp)]
      exact arc_loop hl hr n 0 (by omega) _ (by positivity)

/-- The corner of the triangle that reaches into the unit circle. -/
def tip (n : Nat) : V2 ℝ := unitAt (Real.pi / 3) * reach n

/-- A right triangle with its corner at `tip n` (its own origin is put at `(1, 0)`). -/
def spike (n : Nat) : Polygon ℝ := Polygon.new [tip n - ⟨1, 0⟩, tip n - ⟨1, 0⟩ + ⟨4, 0⟩, tip n - ⟨1, 0⟩ + ⟨4, 4⟩]

theorem spike_support (n : Nat) (e : V2 ℝ) : (spike n).supportPoint (at2 ⟨1, 0⟩).tr e =
    .ok (maxPoint2 [tip n - ⟨1, 0⟩, tip n - ⟨1, 0⟩ + ⟨4, 0⟩, tip n - ⟨1, 0⟩ + ⟨4, 4⟩] e + ⟨1, 0⟩) := by
  have h : (at2 ⟨1, 0⟩).tr.invVector e = some e := by simp [at2, Dec2.tr, M2.apply, M2.transpose, V2.ext_iff]
  unfold Polygon.supportPoint support
  rw [if_pos (by simp [spike, Polygon.new]), h]
  show Res.ok _ = _
  congr 1
  ext <;> simp [at2, Dec2.tr, M2.apply, spike, Polygon.new]

theorem spike_corner (n : Nat) : CornerFn ((spike n).supportPoint (at2 ⟨1, 0⟩).tr) (tip n) := by
  intro e hx hy _
  rw [spike_support]
  congr 1
  have h1 : ¬ (tip n - ⟨1, 0⟩ + ⟨4, 0⟩).dot e > (tip n - ⟨1, 0⟩).dot e := by
    simp only [V2.dot, V2.add_x, V2.add_y]; linarith
  have h2 : ¬ (tip n - ⟨1, 0⟩ + ⟨4, 4⟩).dot e > (tip n - ⟨1, 0⟩).dot e := by
    simp only [V2.dot, V2.add_x, V2.add_y]; linarith
  simp only [maxPoint2, List.foldl_cons, List.foldl_nil, if_neg h1, if_neg h2]
  ext <;> simp

theorem spike_far (n : Nat) : (spike n).supportPoint (at2 ⟨1, 0⟩).tr ⟨1, 0⟩ = .ok (tip n + ⟨4, 0⟩) := by
  rw [spike_support]
  congr 1
  have h1 : (tip n - ⟨1, 0⟩ + ⟨4, 0⟩).dot ⟨1, 0⟩ > (tip n - ⟨1, 0⟩).dot ⟨1, 0⟩ := by
    simp only [V2.dot, V2.add_x, V2.add_y]; linarith
  have h2 : ¬ (tip n - ⟨1, 0⟩ + ⟨4, 4⟩).dot ⟨1, 0⟩ > (tip n - ⟨1, 0⟩ + ⟨4, 0⟩).dot ⟨1, 0⟩ := by
    simp only [V2.dot, V2.add_x, V2.add_y]; linarith
  simp only [maxPoint2, List.foldl_cons, List.foldl_nil, if_pos h1, if_neg h2]
  ext <;> simp; ring

/-- **No limit is enough (C91).** For every limit `n` on the iterations there are a unit circle and a triangle that overlap (they share a point however the triangle is moved by at most
`r`, with some `r > 0`), and with `n` iterations GJK comes to no decision and reports no collision. -/
theorem c91_no_limit (n : Nat) : (Prim2.circle ⟨1⟩).Ok ∧ (Prim2.polygon (spike n)).Ok ∧
    (∃ r, 0 < r ∧ Deep2 (Image (at2 ⟨0, 0⟩).tr (Prim2.circle ⟨1⟩).Points) (Image (at2 ⟨1, 0⟩).tr (Prim2.polygon (spike n)).Points) r) ∧
    gjkRun reduce2 n ((Prim2.circle ⟨1⟩).supportPoint (at2 ⟨0, 0⟩).tr) ((Prim2.polygon (spike n)).supportPoint (at2 ⟨1, 0⟩).tr) ((at2 ⟨0, 0⟩).tr.point 0) ((at2 ⟨1, 0⟩).tr.point 0)
      = .ok .exhausted ∧
    gjkIntersect reduce2 n ((Prim2.circle ⟨1⟩).supportPoint (at2 ⟨0, 0⟩).tr) ((Prim2.polygon (spike n)).supportPoint (at2 ⟨1, 0⟩).tr) ((at2 ⟨0, 0⟩).tr.point 0) ((at2 ⟨1, 0⟩).tr.point 0)
      = .ok none := by
  have hrun : gjkRun reduce2 n ((Prim2.circle ⟨1⟩).supportPoint (at2 ⟨0, 0⟩).tr) ((Prim2.polygon (spike n)).supportPoint (at2 ⟨1, 0⟩).tr) ((at2 ⟨0, 0⟩).tr.point 0)
      ((at2 ⟨1, 0⟩).tr.point 0) = .ok .exhausted := by
    have a0 : (at2 ⟨0, 0⟩).tr.point 0 = 0 := by ext <;> simp [at2, Dec2.tr, M2.apply]
    have a1 : (at2 ⟨1, 0⟩).tr.point 0 = ⟨1, 0⟩ := by ext <;> simp [at2, Dec2.tr, M2.apply]
    rw [a0, a1]
    have hd : DiscFn ((Prim2.circle ⟨1⟩).supportPoint (at2 ⟨0, 0⟩).tr) 0 1 := by
      have := circle_disc ⟨1⟩ (at2 ⟨0, 0⟩) (by simp [at2, M2.Orthogonal, V2.dot]) (by simp [at2])
      have e0 : (at2 ⟨0, 0⟩).disp = 0 := rfl
      have e1 : (1 : ℝ) * |(at2 ⟨0, 0⟩).scale| = 1 := by simp [at2]
      rw [e0, e1] at this
      exact this
    exact arc_run hd (spike_corner n) (spike_far n)
  refine ⟨zero_le_one, ⟨by simp [spike, Polygon.new], by simp [spike, Polygon.new]⟩, ?_, hrun, by unfold gjkIntersect; rw [hrun]; rfl⟩
  refine ⟨1 - reach n, by have := reach_lt n; linarith, ?_⟩
  intro t ht
  refine ⟨tip n + t, tip n, ⟨tip n + t, ?_, ?_⟩, ⟨tip n - ⟨1, 0⟩, ?_, ?_⟩, ?_⟩
  · show (tip n + t).norm ≤ 1
    have h1 := V2.norm_add_le (tip n) t
    have h2 : (tip n).norm = reach n := by
      unfold tip
      rw [V2.norm_smul, unitAt_norm, abs_of_pos (reach_pos n), one_mul]
    linarith
  · ext <;> simp [at2, Dec2.tr, M2.apply]
  · exact Hull2.vertex (by simp [spike, Polygon.new])
  · ext <;> simp [at2, Dec2.tr, M2.apply]
  · ext <;> simp

end
end Verif.Minkowski
