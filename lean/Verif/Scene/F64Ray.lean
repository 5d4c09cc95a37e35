import Verif.Scene.F64Culling
import Verif.Scene.F64Pipeline
import Verif.Scene.F64Nan
/-!
# Rays and boxes in rounded arithmetic (C110)

The parameters at which a ray passes the sides of a box are rounded quotients. At such a parameter the exact ray is within a rounding error of the side. So a reported hit is one of the box enlarged by the
error, a ray that passes through the box shrunk by the error is not missed, and the returned point is near to the place where the ray enters (or, from inside, leaves) the box.
-/
namespace Verif.Scene
open Verif Geom Dbvt Minkowski BroadPhase
set_option linter.unusedSectionVars false
noncomputable section
open Classical
variable {F : Type} [LinearOrder F] {R : Rounding F} {u η Ω M D δ : ℝ}

/-- The bound on the rounding error, for coordinates of at most `M`. -/
def rayErr (u η M : ℝ) : ℝ := 9 * (u * M) + 5 * (M * η) + 5 * η
theorem rayErr_nonneg (h : Std R u η Ω) (hM : 1 ≤ M) : 0 ≤ rayErr u η M := by
  have := mul_nonneg h.u0 (by linarith : (0 : ℝ) ≤ M)
  have := mul_nonneg (by linarith : (0 : ℝ) ≤ M) h.η0
  have := h.η0
  unfold rayErr
  linarith

/-! ## One side -/

theorem num_sub {x y : ℝ} (hx : Rep R x) (hy : Rep R y) : R.sub (numR R x) (numR R y) = numR R (x - y) := toF_sub hx hy
theorem num_add {x y : ℝ} (hx : Rep R x) (hy : Rep R y) : R.add (numR R x) (numR R y) = numR R (x + y) := toF_add hx hy
theorem num_mul {x y : ℝ} (hx : Rep R x) (hy : Rep R y) : R.mul (numR R x) (numR R y) = numR R (x * y) := toF_mul hx hy
theorem num_div {x y : ℝ} (hx : Rep R x) (hy : Rep R y) : R.div (numR R x) (numR R y) = numR R (x / y) := toF_div hx hy
theorem num_fl (h : Std R u η Ω) {x : ℝ} (hx : |x| ≤ Ω) : ∃ y, Rep R y ∧ numR R x = numR R y ∧ |y - x| ≤ u * |x| + η := h.err x hx
theorem num_le {x y : ℝ} (hx : Rep R x) (hy : Rep R y) : numR R x ≤ numR R y ↔ x ≤ y := toF_le hx hy
theorem num_inj {x y : ℝ} (hx : Rep R x) (hy : Rep R y) : numR R x = numR R y ↔ x = y := toF_inj hx hy
theorem num_zero : R.zero = numR R 0 := (toF_zero (R := R)).symm
theorem num_one : R.one = numR R 1 := (toF_one (R := R)).symm

theorem num_sign {x y : ℝ} (hy : Rep R y) (e : numR R x = numR R y) : (0 ≤ x → 0 ≤ y) ∧ (x ≤ 0 → y ≤ 0) := by
  have e' : toF R x = toF R y := e
  constructor
  · intro h
    have : toF R 0 ≤ toF R x := toF_monotone h
    rw [e'] at this
    exact (toF_le rep_zero hy).1 this
  · intro h
    have : toF R x ≤ toF R 0 := toF_monotone h
    rw [e'] at this
    exact (toF_le hy rep_zero).1 this
/-- The signs of a difference and of a divisor or factor determine the sign of the parameter. -/
theorem side_sign {s m o d w t : ℝ} (hd : d ≠ 0) (h1 : (0 ≤ m - o → 0 ≤ s) ∧ (m - o ≤ 0 → s ≤ 0)) (hw : 0 ≤ w * d) (h2 : (0 ≤ s * w → 0 ≤ t) ∧ (s * w ≤ 0 → t ≤ 0)) :
    (0 ≤ (m - o) * d → 0 ≤ t) ∧ ((m - o) * d ≤ 0 → t ≤ 0) := by
  rcases lt_or_gt_of_ne hd with hd' | hd'
  · have hw' : w ≤ 0 := by
      by_contra hc
      push Not at hc
      linarith [mul_neg_of_pos_of_neg hc hd']
    constructor
    · intro q
      have : m - o ≤ 0 := by
        by_contra hc
        push Not at hc
        linarith [mul_neg_of_pos_of_neg hc hd']
      exact h2.1 (mul_nonneg_of_nonpos_of_nonpos (h1.2 this) hw')
    · intro q
      have : 0 ≤ m - o := by
        by_contra hc
        push Not at hc
        linarith [mul_pos_of_neg_of_neg hc hd']
      exact h2.2 (mul_nonpos_of_nonneg_of_nonpos (h1.1 this) hw')
  · have hw' : 0 ≤ w := by
      by_contra hc
      push Not at hc
      linarith [mul_neg_of_neg_of_pos hc hd']
    constructor
    · intro q
      have : 0 ≤ m - o := by
        by_contra hc
        push Not at hc
        linarith [mul_neg_of_neg_of_pos hc hd']
      exact h2.1 (mul_nonneg (h1.1 this) hw')
    · intro q
      have : m - o ≤ 0 := by
        by_contra hc
        push Not at hc
        linarith [mul_pos hc hd']
      exact h2.2 (mul_nonpos_of_nonpos_of_nonneg (h1.2 this) hw')

/-- The difference of a side and the origin. -/
theorem side_sub (h : Std R u η Ω) (hM : 1 ≤ M) (hΩ : 4 * M ≤ Ω) {m o : ℝ} (rm : Rep R m) (ro : Rep R o) (sm : |m| ≤ M) (so : |o| ≤ M) :
    ∃ s, Rep R s ∧ R.sub (numR R m) (numR R o) = numR R s ∧ (|s - (m - o)| ≤ 2 * (u * M) + η ∧ |s| ≤ 17 / 8 * M + η) ∧ ((0 ≤ m - o → 0 ≤ s) ∧ (m - o ≤ 0 → s ≤ 0)) := by
  have b : |m - o| ≤ 2 * M := by
    rw [abs_le] at sm so ⊢
    constructor <;> linarith
  obtain ⟨s, rs, e, d⟩ := num_fl h (b.trans (by linarith))
  have hd : u * |m - o| ≤ u * (2 * M) := mul_le_mul_of_nonneg_left b h.u0
  have hu : u * M ≤ 1 / 16 * M := mul_le_mul_of_nonneg_right h.u1 (by linarith)
  refine ⟨s, rs, (num_sub rm ro).trans e, ⟨d.trans (by linarith), ?_⟩, num_sign rs e⟩
  rw [abs_le] at d b ⊢
  constructor <;> linarith

/-- 2D: the parameter is a rounded quotient. -/
theorem slab_div (h : Std R u η Ω) (hM : 1 ≤ M) (hD : 0 < D) (hΩ1 : 4 * M ≤ Ω) (hΩ2 : 4 * M / D ≤ Ω) {m o d : ℝ} (rm : Rep R m) (ro : Rep R o) (rd : Rep R d) (sm : |m| ≤ M) (so : |o| ≤ M)
    (hd : D ≤ |d|) (hd2 : |d| ≤ 2) : ∃ t, Rep R t ∧ R.div (R.sub (numR R m) (numR R o)) (numR R d) = numR R t ∧ |o + d * t - m| ≤ rayErr u η M ∧ ((0 ≤ (m - o) * d → 0 ≤ t) ∧ ((m - o) * d ≤ 0 → t ≤ 0)) := by
  obtain ⟨s, rs, e, ⟨es, bs⟩, ss⟩ := side_sub h hM hΩ1 rm ro sm so
  have hu := h.u0
  have hη := h.η0
  have hη1 := h.η1
  have hd0 : d ≠ 0 := fun q => by rw [q, abs_zero] at hd; linarith
  have q1 : |s / d| ≤ 4 * M / D := by
    rw [abs_div]
    exact div_le_div₀ (by linarith) (by linarith) hD hd
  obtain ⟨t, rt, et, bt⟩ := num_fl h (q1.trans hΩ2)
  refine ⟨t, rt, by rw [e, num_div rs rd, et], ?_, side_sign (w := d⁻¹) hd0 ss (by rw [inv_mul_cancel₀ hd0]; exact zero_le_one) (by rw [← div_eq_mul_inv]; exact num_sign rt et)⟩
  have q2 : |d * t - s| ≤ u * |s| + 2 * η := by
    have : d * t - s = d * (t - s / d) := by field_simp
    rw [this, abs_mul]
    have q3 : |d| * |t - s / d| ≤ |d| * (u * |s / d| + η) := mul_le_mul_of_nonneg_left bt (abs_nonneg _)
    have q4 : |d| * (u * |s / d| + η) = u * |s| + |d| * η := by
      rw [abs_div]
      field_simp
    have q5 : |d| * η ≤ 2 * η := mul_le_mul_of_nonneg_right hd2 hη
    linarith
  have q6 : u * |s| ≤ u * (17 / 8 * M + η) := mul_le_mul_of_nonneg_left bs hu
  have q7 : u * η ≤ 1 / 16 * η := mul_le_mul_of_nonneg_right h.u1 hη
  have q8 : 0 ≤ u * M := mul_nonneg hu (by linarith)
  have q9 : 0 ≤ M * η := mul_nonneg (by linarith) hη
  unfold rayErr
  rw [abs_le] at es q2 ⊢
  constructor <;> linarith

/-- 3D: the parameter is a rounded product with a rounded inverse. -/
theorem slab_mul (h : Std R u η Ω) (hM : 1 ≤ M) (hD : 0 < D) (hD1 : D ≤ 1) (hΩ2 : 4 * M / D ≤ Ω) {m o d : ℝ} (rm : Rep R m) (ro : Rep R o) (rd : Rep R d) (sm : |m| ≤ M) (so : |o| ≤ M)
    (hd : D ≤ |d|) (hd2 : |d| ≤ 2) : ∃ t, Rep R t ∧ R.mul (R.sub (numR R m) (numR R o)) (R.div R.one (numR R d)) = numR R t ∧ |o + d * t - m| ≤ rayErr u η M ∧ ((0 ≤ (m - o) * d → 0 ≤ t) ∧ ((m - o) * d ≤ 0 → t ≤ 0)) := by
  have hM4 : 4 * M ≤ 4 * M / D := by
    rw [le_div_iff₀ hD]
    have : 4 * M * D ≤ 4 * M * 1 := mul_le_mul_of_nonneg_left hD1 (by linarith)
    linarith
  obtain ⟨s, rs, e, ⟨es, bs⟩, ss⟩ := side_sub h hM (hM4.trans hΩ2) rm ro sm so
  have hu := h.u0
  have hu1 := h.u1
  have hη := h.η0
  have hη1 := h.η1
  have hd0 : d ≠ 0 := fun q => by rw [q, abs_zero] at hd; linarith
  have hdp : 0 < |d| := abs_pos.2 hd0
  have q1 : |1 / d| ≤ 4 * M / D := by
    rw [abs_div, abs_one]
    exact div_le_div₀ (by linarith) (by linarith) hD hd
  obtain ⟨v, rv, ev, bv⟩ := num_fl h (q1.trans hΩ2)
  -- the inverse
  have q2 : |d * v - 1| ≤ u + 2 * η := by
    have : d * v - 1 = d * (v - 1 / d) := by field_simp
    rw [this, abs_mul]
    have q3 : |d| * |v - 1 / d| ≤ |d| * (u * |1 / d| + η) := mul_le_mul_of_nonneg_left bv (abs_nonneg _)
    have q4 : |d| * (u * |1 / d| + η) = u + |d| * η := by
      rw [abs_div, abs_one]
      field_simp
    have q5 : |d| * η ≤ 2 * η := mul_le_mul_of_nonneg_right hd2 hη
    linarith
  have q2' : |d * v| ≤ 19 / 16 := by
    rw [abs_le] at q2 ⊢
    constructor <;> linarith
  have bs' : |s| ≤ 3 * M := bs.trans (by linarith)
  -- the product
  have q6 : |d| * |s * v| ≤ |s| * (19 / 16) := by
    have : |d| * |s * v| = |s| * |d * v| := by rw [abs_mul, abs_mul]; ring
    rw [this]
    exact mul_le_mul_of_nonneg_left q2' (abs_nonneg _)
  have q7 : |s * v| ≤ 4 * M / D := by
    rw [le_div_iff₀ hD]
    have : |s * v| * D ≤ |s * v| * |d| := mul_le_mul_of_nonneg_left hd (abs_nonneg _)
    have : |s * v| * |d| = |d| * |s * v| := mul_comm _ _
    linarith
  obtain ⟨t, rt, et, bt⟩ := num_fl h (q7.trans hΩ2)
  refine ⟨t, rt, by rw [e, num_one, num_div rep_one rd, ev, num_mul rs rv, et], ?_, side_sign (w := v) hd0 ss ?_ (num_sign rt et)⟩
  swap
  · have sv := num_sign rv ev
    rcases lt_or_gt_of_ne hd0 with hd' | hd'
    · exact mul_nonneg_of_nonpos_of_nonpos (sv.2 (div_nonpos_of_nonneg_of_nonpos zero_le_one hd'.le)) hd'.le
    · exact mul_nonneg (sv.1 (div_nonneg zero_le_one hd'.le)) hd'.le
  have q8 : |d * t - s| ≤ u * (|s| * (19 / 16)) + 2 * η + |s| * (u + 2 * η) := by
    have : d * t - s = d * (t - s * v) + s * (d * v - 1) := by ring
    rw [this]
    refine (abs_add_le _ _).trans ?_
    rw [abs_mul, abs_mul]
    have q9 : |d| * |t - s * v| ≤ |d| * (u * |s * v| + η) := mul_le_mul_of_nonneg_left bt (abs_nonneg _)
    have q10 : |d| * (u * |s * v| + η) = u * (|d| * |s * v|) + |d| * η := by ring
    have q11 : u * (|d| * |s * v|) ≤ u * (|s| * (19 / 16)) := mul_le_mul_of_nonneg_left q6 hu
    have q12 : |d| * η ≤ 2 * η := mul_le_mul_of_nonneg_right hd2 hη
    have q13 : |s| * |d * v - 1| ≤ |s| * (u + 2 * η) := mul_le_mul_of_nonneg_left q2 (abs_nonneg _)
    linarith
  have q14 : |s| * (35 / 16 * u + 2 * η) ≤ (17 / 8 * M + η) * (35 / 16 * u + 2 * η) := mul_le_mul_of_nonneg_right bs (by linarith)
  have q15 : η * u ≤ η * (1 / 16) := mul_le_mul_of_nonneg_left hu1 hη
  have q16 : η * η ≤ η * (1 / 16) := mul_le_mul_of_nonneg_left hη1 hη
  have q17 : 0 ≤ u * M := mul_nonneg hu (by linarith)
  have q18 : 0 ≤ M * η := mul_nonneg (by linarith) hη
  unfold rayErr
  rw [abs_le] at es q8 ⊢
  constructor <;> linarith

/-! ## One axis -/

/-- The parameters from `l` to `h` are those at which the ray is between the sides, up to `δ`. -/
structure Ax (δ lo hi o d l h : ℝ) : Prop where
  near : ∀ s, l ≤ s → s ≤ h → lo - δ ≤ o + d * s ∧ o + d * s ≤ hi + δ
  deep : ∀ s, lo + δ ≤ o + d * s → o + d * s ≤ hi - δ → l ≤ s ∧ s ≤ h
  out : o < lo ∨ hi < o → 0 ≤ l ∨ h ≤ 0
theorem ax_of {lo hi o d t1 t2 : ℝ} (hd : d ≠ 0) (hv : lo ≤ hi) (h1 : |o + d * t1 - lo| ≤ δ) (h2 : |o + d * t2 - hi| ≤ δ)
    (g1 : (0 ≤ (lo - o) * d → 0 ≤ t1) ∧ ((lo - o) * d ≤ 0 → t1 ≤ 0)) (g2 : (0 ≤ (hi - o) * d → 0 ≤ t2) ∧ ((hi - o) * d ≤ 0 → t2 ≤ 0)) : Ax δ lo hi o d (min t1 t2) (max t1 t2) := by
  rw [abs_le] at h1 h2
  constructor
  · intro s a b
    have key : (o + d * t1 ≤ o + d * s ∧ o + d * s ≤ o + d * t2) ∨ (o + d * t2 ≤ o + d * s ∧ o + d * s ≤ o + d * t1) := by
      rcases le_total t1 t2 with h | h
      · rw [min_eq_left h] at a
        rw [max_eq_right h] at b
        rcases le_total 0 d with hd' | hd'
        · exact Or.inl ⟨by linarith [mul_le_mul_of_nonneg_left a hd'], by linarith [mul_le_mul_of_nonneg_left b hd']⟩
        · exact Or.inr ⟨by linarith [mul_le_mul_of_nonpos_left b hd'], by linarith [mul_le_mul_of_nonpos_left a hd']⟩
      · rw [min_eq_right h] at a
        rw [max_eq_left h] at b
        rcases le_total 0 d with hd' | hd'
        · exact Or.inr ⟨by linarith [mul_le_mul_of_nonneg_left a hd'], by linarith [mul_le_mul_of_nonneg_left b hd']⟩
        · exact Or.inl ⟨by linarith [mul_le_mul_of_nonpos_left b hd'], by linarith [mul_le_mul_of_nonpos_left a hd']⟩
    rcases key with k | k <;> constructor <;> linarith
  · intro s a b
    rcases lt_or_gt_of_ne hd with hd' | hd'
    · have k1 : s ≤ t1 := by
        by_contra hc
        push Not at hc
        linarith [mul_lt_mul_of_neg_left hc hd']
      have k2 : t2 ≤ s := by
        by_contra hc
        push Not at hc
        linarith [mul_lt_mul_of_neg_left hc hd']
      exact ⟨(min_le_right _ _).trans k2, k1.trans (le_max_left _ _)⟩
    · have k1 : t1 ≤ s := by
        by_contra hc
        push Not at hc
        linarith [mul_lt_mul_of_pos_left hc hd']
      have k2 : s ≤ t2 := by
        by_contra hc
        push Not at hc
        linarith [mul_lt_mul_of_pos_left hc hd']
      exact ⟨(min_le_left _ _).trans k1, k2.trans (le_max_right _ _)⟩
  · rintro (q | q)
    · rcases le_total 0 d with hd' | hd'
      · exact Or.inl (le_min (g1.1 (mul_nonneg (by linarith) hd')) (g2.1 (mul_nonneg (by linarith) hd')))
      · exact Or.inr (max_le (g1.2 (mul_nonpos_of_nonneg_of_nonpos (by linarith) hd')) (g2.2 (mul_nonpos_of_nonneg_of_nonpos (by linarith) hd')))
    · rcases le_total 0 d with hd' | hd'
      · exact Or.inr (max_le (g1.2 (mul_nonpos_of_nonpos_of_nonneg (by linarith) hd')) (g2.2 (mul_nonpos_of_nonpos_of_nonneg (by linarith) hd')))
      · exact Or.inl (le_min (g1.1 (mul_nonneg_of_nonpos_of_nonpos (by linarith) hd')) (g2.1 (mul_nonneg_of_nonpos_of_nonpos (by linarith) hd')))

theorem rep_min {x y : ℝ} (hx : Rep R x) (hy : Rep R y) : Rep R (min x y) ∧ min (numR R x) (numR R y) = numR R (min x y) := by
  rcases le_total x y with h | h
  · rw [min_eq_left h, min_eq_left ((num_le hx hy).2 h)]; exact ⟨hx, rfl⟩
  · rw [min_eq_right h, min_eq_right ((num_le hy hx).2 h)]; exact ⟨hy, rfl⟩
theorem rep_max {x y : ℝ} (hx : Rep R x) (hy : Rep R y) : Rep R (max x y) ∧ max (numR R x) (numR R y) = numR R (max x y) := by
  rcases le_total x y with h | h
  · rw [max_eq_right h, max_eq_right ((num_le hx hy).2 h)]; exact ⟨hy, rfl⟩
  · rw [max_eq_left h, max_eq_left ((num_le hy hx).2 h)]; exact ⟨hx, rfl⟩

/-- A component of a direction: zero, or not so small that a quotient by it overflows. -/
def DirOk (R : Rounding F) (D d : ℝ) : Prop := Rep R d ∧ |d| ≤ 2 ∧ (d = 0 ∨ D ≤ |d|)

/-- The outcome for one axis of the 2D test. -/
theorem axis_cases (h : Std R u η Ω) (hM : 1 ≤ M) (hD : 0 < D) (hΩ1 : 4 * M ≤ Ω) (hΩ2 : 4 * M / D ≤ Ω) {lo hi o d : ℝ} (rl : Rep R lo) (rh : Rep R hi) (ro : Rep R o) (sl : |lo| ≤ M) (sh : |hi| ≤ M) (so : |o| ≤ M)
    (hv : lo ≤ hi) (hd : DirOk R D d) (acc : F × F) :
    (d = 0 ∧ (o ≤ lo ∨ hi ≤ o) ∧ axisF R (numR R lo) (numR R hi) (numR R o) (numR R d) acc = none) ∨
    (d = 0 ∧ lo < o ∧ o < hi ∧ axisF R (numR R lo) (numR R hi) (numR R o) (numR R d) acc = some acc) ∨
    (d ≠ 0 ∧ ∃ l k, Rep R l ∧ Rep R k ∧ Ax (rayErr u η M) lo hi o d l k ∧ axisF R (numR R lo) (numR R hi) (numR R o) (numR R d) acc = some (max acc.1 (numR R l), min acc.2 (numR R k))) := by
  by_cases h0 : d = 0
  · by_cases hc : o ≤ lo ∨ hi ≤ o
    · refine Or.inl ⟨h0, hc, ?_⟩
      unfold axisF
      rw [if_neg (by rw [h0, ← num_zero]; simp), if_pos (by rwa [num_le ro rl, num_le rh ro])]
    · refine Or.inr (Or.inl ⟨h0, ?_, ?_, ?_⟩)
      · push Not at hc; exact hc.1
      · push Not at hc; exact hc.2
      · unfold axisF
        rw [if_neg (by rw [h0, ← num_zero]; simp), if_neg (by rwa [num_le ro rl, num_le rh ro])]
  · refine Or.inr (Or.inr ⟨h0, ?_⟩)
    have hd' := hd.2.2.resolve_left h0
    obtain ⟨t1, r1, e1, b1, g1⟩ := slab_div h hM hD hΩ1 hΩ2 rl ro hd.1 sl so hd' hd.2.1
    obtain ⟨t2, r2, e2, b2, g2⟩ := slab_div h hM hD hΩ1 hΩ2 rh ro hd.1 sh so hd' hd.2.1
    refine ⟨min t1 t2, max t1 t2, (rep_min r1 r2).1, (rep_max r1 r2).1, ax_of h0 hv b1 b2 g1 g2, ?_⟩
    unfold axisF
    rw [if_pos (by rw [num_zero]; exact fun q => h0 ((num_inj hd.1 rep_zero).1 q)), e1, e2]
    dsimp only
    rw [(rep_min r1 r2).2, (rep_max r1 r2).2]

/-! ## The 2D test -/

variable (R) in
def vecR2 (v : V2 ℝ) : V2 F := ⟨numR R v.x, numR R v.y⟩
variable (R) in
def boxR2 (b : Aabb2 ℝ) : Aabb2 F := ⟨vecR2 R b.min, vecR2 R b.max⟩
/-- The point is in the box enlarged by `δ` on all sides (for negative `δ`: shrunk). -/
def Around2 (b : Aabb2 ℝ) (δ : ℝ) (p : V2 ℝ) : Prop := (b.min.x - δ ≤ p.x ∧ p.x ≤ b.max.x + δ) ∧ (b.min.y - δ ≤ p.y ∧ p.y ≤ b.max.y + δ)
/-- The point on the ray. -/
def along2 (o d : V2 ℝ) (t : ℝ) : V2 ℝ := ⟨o.x + d.x * t, o.y + d.y * t⟩
variable (R) in
/-- The origin, the direction and the box are representable; the coordinates are at most `M`; the components of the direction are at most 2 and not extremely small, and not both are zero. -/
structure FitsRay2 (M D : ℝ) (o d : V2 ℝ) (b : Aabb2 ℝ) : Prop where
  ro : Rp R o
  so : Sz M o
  dx : DirOk R D d.x
  dy : DirOk R D d.y
  ne : d.x ≠ 0 ∨ d.y ≠ 0
  box : RpBox R M b
  valid : b.Valid

theorem max_ninf (x : F) : max R.ninf x = x := max_eq_right ((R.val_le _ _).1 (by rw [R.val_ninf]; exact bot_le))
theorem min_inf (x : F) : min R.inf x = x := min_eq_right ((R.val_le _ _).1 (by rw [R.val_inf]; exact le_top))

/-- The outcome of both axes: no parameter, and the ray does not pass through the shrunk box; or the parameters from `l` to `k`, at which it is in the box, up to `δ`. -/
theorem slabs_cases2 (h : Std R u η Ω) (hM : 1 ≤ M) (hD : 0 < D) (hu : 0 < u) (hΩ1 : 4 * M ≤ Ω) (hΩ2 : 4 * M / D ≤ Ω) {o d : V2 ℝ} {b : Aabb2 ℝ} (hf : FitsRay2 R M D o d b) :
    (slabsF2 R (vecR2 R o) (vecR2 R d) (boxR2 R b) = none ∧ ∀ s, ¬ Around2 b (-rayErr u η M) (along2 o d s)) ∨
    ∃ l k, Rep R l ∧ Rep R k ∧ slabsF2 R (vecR2 R o) (vecR2 R d) (boxR2 R b) = some (numR R l, numR R k) ∧
      (∀ s, l ≤ s → s ≤ k → Around2 b (rayErr u η M) (along2 o d s)) ∧ (∀ s, Around2 b (-rayErr u η M) (along2 o d s) → l ≤ s ∧ s ≤ k) ∧ (¬ b.Mem o → 0 ≤ l ∨ k ≤ 0) := by
  have hδ : 0 < rayErr u η M := by
    have := mul_pos hu (by linarith : (0 : ℝ) < M)
    have := mul_nonneg (by linarith : (0 : ℝ) ≤ M) h.η0
    have := h.η0
    unfold rayErr
    linarith
  set δ := rayErr u η M
  have cx := axis_cases h hM hD hΩ1 hΩ2 hf.box.1.1.1 hf.box.2.1.1 hf.ro.1 hf.box.1.2.1 hf.box.2.2.1 hf.so.1 hf.valid.1 hf.dx (R.ninf, R.inf)
  have sl : slabsF2 R (vecR2 R o) (vecR2 R d) (boxR2 R b) = (axisF R (numR R b.min.x) (numR R b.max.x) (numR R o.x) (numR R d.x) (R.ninf, R.inf)).bind
    (axisF R (numR R b.min.y) (numR R b.max.y) (numR R o.y) (numR R d.y)) := rfl
  rw [sl]
  have cy := fun acc => axis_cases h hM hD hΩ1 hΩ2 hf.box.1.1.2 hf.box.2.1.2 hf.ro.2 hf.box.1.2.2 hf.box.2.2.2 hf.so.2 hf.valid.2 hf.dy acc
  rcases cx with ⟨z, hc, e⟩ | ⟨z, c1, c2, e⟩ | ⟨z, l, k, rl, rk, ax, e⟩
  · rw [e]
    refine Or.inl ⟨rfl, fun s hs => ?_⟩
    have := hs.1
    simp only [along2, z, zero_mul, add_zero, sub_neg_eq_add] at this
    rcases hc with hc | hc <;> linarith
  · rw [e, Option.bind_some]
    rcases cy (R.ninf, R.inf) with ⟨z', hc, e'⟩ | ⟨z', c1', c2', e'⟩ | ⟨z', l', k', rl', rk', ax', e'⟩
    · exact absurd hf.ne (by simp [z, z'])
    · exact absurd hf.ne (by simp [z, z'])
    · rw [e']
      refine Or.inr ⟨l', k', rl', rk', by rw [max_ninf, min_inf], fun s a b' => ⟨?_, ax'.near s a b'⟩, fun s hs => ax'.deep s ?_ ?_, fun hm => ax'.out ?_⟩
      · simp only [along2, z, zero_mul, add_zero]
        constructor <;> linarith
      · have := hs.2.1; simp only [along2] at this; linarith
      · have := hs.2.2; simp only [along2] at this; linarith
      · by_contra hc
        push Not at hc
        exact hm ⟨⟨c1.le, c2.le⟩, hc⟩
  · rw [e, Option.bind_some]
    rcases cy (max R.ninf (numR R l), min R.inf (numR R k)) with ⟨z', hc, e'⟩ | ⟨z', c1', c2', e'⟩ | ⟨z', l', k', rl', rk', ax', e'⟩
    · rw [e']
      refine Or.inl ⟨rfl, fun s hs => ?_⟩
      have := hs.2
      simp only [along2, z', zero_mul, add_zero, sub_neg_eq_add] at this
      rcases hc with hc | hc <;> linarith
    · rw [e']
      refine Or.inr ⟨l, k, rl, rk, by rw [max_ninf, min_inf], fun s a b' => ⟨ax.near s a b', ?_⟩, fun s hs => ax.deep s ?_ ?_, fun hm => ax.out ?_⟩
      · simp only [along2, z', zero_mul, add_zero]
        constructor <;> linarith
      · have := hs.1.1; simp only [along2] at this; linarith
      · have := hs.1.2; simp only [along2] at this; linarith
      · by_contra hc
        push Not at hc
        exact hm ⟨hc, c1'.le, c2'.le⟩
    · rw [e']
      refine Or.inr ⟨max l l', min k k', (rep_max rl rl').1, (rep_min rk rk').1, ?_, ?_, ?_, ?_⟩
      · simp only [max_ninf, min_inf, (rep_max rl rl').2, (rep_min rk rk').2]
      · intro s a b'
        exact ⟨ax.near s ((le_max_left _ _).trans a) (b'.trans (min_le_left _ _)), ax'.near s ((le_max_right _ _).trans a) (b'.trans (min_le_right _ _))⟩
      · intro s hs
        have h1 := ax.deep s (by have := hs.1.1; simp only [along2] at this; linarith) (by have := hs.1.2; simp only [along2] at this; linarith)
        have h2 := ax'.deep s (by have := hs.2.1; simp only [along2] at this; linarith) (by have := hs.2.2; simp only [along2] at this; linarith)
        exact ⟨max_le h1.1 h2.1, le_min h1.2 h2.2⟩
      · intro hm
        by_cases hx : o.x < b.min.x ∨ b.max.x < o.x
        · exact (ax.out hx).imp (fun q => q.trans (le_max_left _ _)) (fun q => (min_le_left _ _).trans q)
        · push Not at hx
          refine (ax'.out ?_).imp (fun q => q.trans (le_max_right _ _)) (fun q => (min_le_right _ _).trans q)
          by_contra hc
          push Not at hc
          exact hm ⟨hx, hc⟩

/-- The rounded point on the ray. -/
theorem along_err (h : Std R u η Ω) (hM : 1 ≤ M) (hΩ : 4 * M ≤ Ω) {o d t lo hi : ℝ} (ro : Rep R o) (rd : Rep R d) (rt : Rep R t) (so : |o| ≤ M) (sl : |lo| ≤ M) (sh : |hi| ≤ M)
    (h1 : lo - rayErr u η M ≤ o + d * t) (h2 : o + d * t ≤ hi + rayErr u η M) :
    ∃ q, Rep R q ∧ R.add (numR R o) (R.mul (numR R d) (numR R t)) = numR R q ∧ |q - (o + d * t)| ≤ rayErr u η M := by
  have hu := h.u0
  have hη := h.η0
  have hη1 := h.η1
  have hM0 : (0 : ℝ) ≤ M := by linarith
  have q1 : u * M ≤ 1 / 16 * M := mul_le_mul_of_nonneg_right h.u1 hM0
  have q2 : M * η ≤ M * (1 / 16) := mul_le_mul_of_nonneg_left hη1 hM0
  have q3 : 0 ≤ u * M := mul_nonneg hu hM0
  have q4 : 0 ≤ M * η := mul_nonneg hM0 hη
  have hδ : rayErr u η M ≤ 19 / 16 * M := by unfold rayErr; linarith
  have b1 : |d * t| ≤ 51 / 16 * M := by
    rw [abs_le] at so sl sh ⊢
    constructor <;> linarith
  obtain ⟨x, rx, ex, bx⟩ := num_fl h (b1.trans (by linarith))
  have c1 : u * |d * t| ≤ u * (51 / 16 * M) := mul_le_mul_of_nonneg_left b1 hu
  have b2 : |o + x| ≤ 5 / 2 * M := by
    rw [abs_le] at so sl sh bx ⊢
    constructor <;> linarith
  obtain ⟨q, rq, eq, bq⟩ := num_fl h (b2.trans (by linarith))
  have c2 : u * |o + x| ≤ u * (5 / 2 * M) := mul_le_mul_of_nonneg_left b2 hu
  refine ⟨q, rq, by rw [num_mul rd rt, ex, num_add ro rx, eq], ?_⟩
  unfold rayErr
  rw [abs_le] at bx bq ⊢
  constructor <;> linarith

/-- Both coordinates differ by at most `δ`. -/
def Close2 (δ : ℝ) (p q : V2 ℝ) : Prop := |p.x - q.x| ≤ δ ∧ |p.y - q.y| ≤ δ

/-- **C110, 2D.** A reported hit is one of the box enlarged by the rounding error; a ray that passes through the box shrunk by the error is reported; the two tests agree; and the returned point is, up to the
error, the point of the ray at a parameter `t` at which it is in the enlarged box, where it enters (it is not in the shrunk box before), or leaves (then the origin is in the enlarged box, and the ray is not in
the shrunk box later). -/
theorem c110_ray2 (h : Std R u η Ω) (hM : 1 ≤ M) (hD : 0 < D) (hu : 0 < u) (hΩ1 : 4 * M ≤ Ω) (hΩ2 : 4 * M / D ≤ Ω) {o d : V2 ℝ} {b : Aabb2 ℝ} (hf : FitsRay2 R M D o d b) :
    (intersectsF2 R (vecR2 R o) (vecR2 R d) (boxR2 R b) = true → ∃ t, 0 ≤ t ∧ Around2 b (rayErr u η M) (along2 o d t)) ∧
    ((∃ t, 0 ≤ t ∧ Around2 b (-rayErr u η M) (along2 o d t)) → intersectsF2 R (vecR2 R o) (vecR2 R d) (boxR2 R b) = true) ∧
    (intersectsF2 R (vecR2 R o) (vecR2 R d) (boxR2 R b) = (intersectionF2 R (vecR2 R o) (vecR2 R d) (boxR2 R b)).isSome) ∧
    ∀ p, intersectionF2 R (vecR2 R o) (vecR2 R d) (boxR2 R b) = some p → ∃ q t, p = vecR2 R q ∧ Rp R q ∧ 0 ≤ t ∧ Close2 (rayErr u η M) q (along2 o d t) ∧ Around2 b (rayErr u η M) (along2 o d t) ∧
      ((∀ s, s < t → ¬ Around2 b (-rayErr u η M) (along2 o d s)) ∨ (Around2 b (rayErr u η M) o ∧ ∀ s, t < s → ¬ Around2 b (-rayErr u η M) (along2 o d s))) := by
  have h0 : along2 o d 0 = o := by simp [along2]
  unfold intersectsF2 intersectionF2
  rcases slabs_cases2 h hM hD hu hΩ1 hΩ2 hf with ⟨e, hn⟩ | ⟨l, k, rl, rk, e, hnear, hdeep, -⟩
  · rw [e]
    exact ⟨fun q => absurd q (by simp), fun ⟨t, _, ht⟩ => absurd ht (hn t), rfl, fun p q => absurd q (by simp)⟩
  · rw [e, Option.bind_some]
    dsimp only
    rw [num_zero]
    have w : (decide (numR R l ≤ numR R k) && (decide (numR R 0 ≤ numR R l) || decide (numR R 0 ≤ numR R k))) = true ↔ l ≤ k ∧ (0 ≤ l ∨ 0 ≤ k) := by
      rw [Bool.and_eq_true, Bool.or_eq_true, decide_eq_true_iff, decide_eq_true_iff, decide_eq_true_iff, num_le rl rk, num_le rep_zero rl, num_le rep_zero rk]
    have w' : ((numR R l < numR R 0 ∧ numR R k < numR R 0) ∨ numR R k < numR R l) ↔ ¬ (l ≤ k ∧ (0 ≤ l ∨ 0 ≤ k)) := by
      rw [numR_lt rl rep_zero, numR_lt rk rep_zero, numR_lt rk rl]
      push Not
      constructor
      · rintro (h | h) a
        · exact h
        · linarith
      · intro q
        rcases lt_or_ge k l with h | h
        · exact Or.inr h
        · exact Or.inl (q h)
    refine ⟨fun q => ?_, ?_, ?_, ?_⟩
    · obtain ⟨a, c⟩ := w.1 q
      have : 0 ≤ k := c.elim (fun c => c.trans a) id
      exact ⟨max l 0, le_max_right _ _, hnear _ (le_max_left _ _) (max_le a this)⟩
    · rintro ⟨t, t0, ht⟩
      obtain ⟨a, c⟩ := hdeep t ht
      exact w.2 ⟨a.trans c, Or.inr (t0.trans c)⟩
    · by_cases hc : l ≤ k ∧ (0 ≤ l ∨ 0 ≤ k)
      · rw [w.2 hc, if_neg (fun q => w'.1 q hc)]
        rfl
      · rw [if_pos (w'.2 hc), Bool.eq_false_iff.2 (fun q => hc (w.1 q))]
        rfl
    · intro p hp
      by_cases hc : l ≤ k ∧ (0 ≤ l ∨ 0 ≤ k)
      · rw [if_neg (fun q => w'.1 q hc)] at hp
        have hp := Option.some.inj hp
        have fin : ∀ t, Rep R t → 0 ≤ t → l ≤ t → t ≤ k →
            ((∀ s, s < t → ¬ Around2 b (-rayErr u η M) (along2 o d s)) ∨ (Around2 b (rayErr u η M) o ∧ ∀ s, t < s → ¬ Around2 b (-rayErr u η M) (along2 o d s))) →
            (⟨R.add (vecR2 R o).x (R.mul (vecR2 R d).x (numR R t)), R.add (vecR2 R o).y (R.mul (vecR2 R d).y (numR R t))⟩ : V2 F) = p →
            ∃ q t, p = vecR2 R q ∧ Rp R q ∧ 0 ≤ t ∧ Close2 (rayErr u η M) q (along2 o d t) ∧ Around2 b (rayErr u η M) (along2 o d t) ∧
              ((∀ s, s < t → ¬ Around2 b (-rayErr u η M) (along2 o d s)) ∨ (Around2 b (rayErr u η M) o ∧ ∀ s, t < s → ¬ Around2 b (-rayErr u η M) (along2 o d s))) := by
          intro t rt t0 a c hor he
          have hN := hnear t a c
          obtain ⟨x, rx, ex, bx⟩ := along_err h hM hΩ1 hf.ro.1 hf.dx.1 rt hf.so.1 hf.box.1.2.1 hf.box.2.2.1 hN.1.1 hN.1.2
          obtain ⟨y, ry, ey, by'⟩ := along_err h hM hΩ1 hf.ro.2 hf.dy.1 rt hf.so.2 hf.box.1.2.2 hf.box.2.2.2 hN.2.1 hN.2.2
          refine ⟨⟨x, y⟩, t, ?_, ⟨rx, ry⟩, t0, ⟨bx, by'⟩, hN, hor⟩
          rw [← he]
          exact V2.ext ex ey
        by_cases hl : 0 ≤ l
        · rw [if_pos ((num_le rep_zero rl).2 hl)] at hp
          exact fin l rl hl le_rfl hc.1 (Or.inl fun s hs hq => by have := (hdeep s hq).1; linarith) hp
        · rw [if_neg (fun q => hl ((num_le rep_zero rl).1 q))] at hp
          have hk := hc.2.resolve_left hl
          have hl' : l ≤ 0 := le_of_not_ge hl
          refine fin k rk hk hc.1 le_rfl (Or.inr ⟨?_, fun s hs hq => by have := (hdeep s hq).2; linarith⟩) hp
          have := hnear 0 hl' hk
          rwa [h0] at this
      · rw [if_pos (w'.2 hc)] at hp
        cases hp

/-! ## The 3D test -/

/-- The point is in the box enlarged by `δ` on all sides. -/
def Around3 (b : Aabb3 ℝ) (δ : ℝ) (p : V3 ℝ) : Prop := (b.min.x - δ ≤ p.x ∧ p.x ≤ b.max.x + δ) ∧ (b.min.y - δ ≤ p.y ∧ p.y ≤ b.max.y + δ) ∧ (b.min.z - δ ≤ p.z ∧ p.z ≤ b.max.z + δ)
def along3 (o d : V3 ℝ) (t : ℝ) : V3 ℝ := ⟨o.x + d.x * t, o.y + d.y * t, o.z + d.z * t⟩
def Close3 (δ : ℝ) (p q : V3 ℝ) : Prop := |p.x - q.x| ≤ δ ∧ |p.y - q.y| ≤ δ ∧ |p.z - q.z| ≤ δ
variable (R) in
/-- The origin, the direction and the box are representable; the coordinates are at most `M`; the components of the direction are at most 2 and not extremely small, and not all are zero; the box is not flat. -/
structure FitsRay3 (M D : ℝ) (o d : V3 ℝ) (b : Aabb3 ℝ) : Prop where
  ro : Rep3 R o
  so : Sz3 M o
  dx : DirOk R D d.x
  dy : DirOk R D d.y
  dz : DirOk R D d.z
  ne : d.x ≠ 0 ∨ d.y ≠ 0 ∨ d.z ≠ 0
  box : FitsB R M b
  solid : Solid b

/-- `Ax` with parameters that may be infinite. -/
structure AxE (R : Rounding F) (δ lo hi o d : ℝ) (a b : F) : Prop where
  near : ∀ s : ℝ, R.val a ≤ s → (s : EReal) ≤ R.val b → lo - δ ≤ o + d * s ∧ o + d * s ≤ hi + δ
  deep : ∀ s : ℝ, lo + δ ≤ o + d * s → o + d * s ≤ hi - δ → R.val a ≤ s ∧ (s : EReal) ≤ R.val b
  out : o < lo ∨ hi < o → R.zero ≤ a ∨ b ≤ R.zero

theorem num_fin {x : ℝ} (h : Rep R x) : numR R x ≠ R.inf ∧ numR R x ≠ R.ninf := by
  have e : R.val (numR R x) = (x : EReal) := h
  constructor
  · intro q
    rw [q, R.val_inf] at e
    exact absurd e.symm (EReal.coe_ne_top _)
  · intro q
    rw [q, R.val_ninf] at e
    exact absurd e.symm (EReal.coe_ne_bot _)
theorem num_mulN {x y : ℝ} (hx : Rep R x) (hy : Rep R y) : R.mulN (some (numR R x)) (some (numR R y)) = some (numR R (x * y)) := by
  rw [← num_mul hx hy]
  unfold Rounding.mulN
  dsimp only
  rw [if_neg]
  have a := num_fin hx
  have b := num_fin hy
  rintro (⟨-, h | h⟩ | ⟨h | h, -⟩)
  · exact b.1 h
  · exact b.2 h
  · exact a.1 h
  · exact a.2 h
theorem num_addN {x y : ℝ} (hx : Rep R x) (hy : Rep R y) : R.addN (some (numR R x)) (some (numR R y)) = some (numR R (x + y)) := by
  rw [← num_add hx hy]
  unfold Rounding.addN
  dsimp only
  rw [if_neg]
  have a := num_fin hx
  rintro (⟨h, -⟩ | ⟨h, -⟩)
  · exact a.1 h
  · exact a.2 h

/-- The outcome for one axis: never NaN; finite if the direction is not zero along it. -/
theorem slabN_ax (h : Std R u η Ω) (hM : 1 ≤ M) (hD : 0 < D) (hD1 : D ≤ 1) (hΩ2 : 4 * M / D ≤ Ω) (hδ : 0 < rayErr u η M) (neg : Bool) {lo hi o d : ℝ} (rl : Rep R lo) (rh : Rep R hi) (ro : Rep R o) (sl : |lo| ≤ M)
    (sh : |hi| ≤ M) (so : |o| ≤ M) (hv : lo < hi) (hd : DirOk R D d) :
    ∃ a b, AxE R (rayErr u η M) lo hi o d a b ∧ slabN R neg (numR R lo) (numR R hi) (numR R o) (numR R d) = (some a, some b) ∧ (d ≠ 0 → R.ninf < a ∧ b < R.inf) := by
  by_cases h0 : d = 0
  · have hM4 : 4 * M ≤ 4 * M / D := by
      rw [le_div_iff₀ hD]
      have : 4 * M * D ≤ 4 * M * 1 := mul_le_mul_of_nonneg_left hD1 (by linarith)
      linarith
    obtain ⟨s, rs, es, -, -⟩ := side_sub h hM (hM4.trans hΩ2) rl ro sl so
    obtain ⟨t, rt, et, -, -⟩ := side_sub h hM (hM4.trans hΩ2) rh ro sh so
    -- the signs of the differences are right
    have sgn : ∀ {m s : ℝ}, Rep R m → Rep R s → R.sub (numR R m) (numR R o) = numR R s → ((s < 0 ↔ m < o) ∧ (0 < s ↔ o < m)) := by
      intro m s rm rs e
      have e' : toF R (m - o) = toF R s := by
        have : numR R (m - o) = numR R s := by rw [← num_sub rm ro, e]
        exact this
      have z : s = 0 → m = o := by
        intro z
        rw [z] at e'
        exact h.sub m o rm ro e'
      have p1 : o ≤ m → 0 ≤ s := by
        intro q
        have : toF R 0 ≤ toF R (m - o) := toF_monotone (by linarith)
        rw [e'] at this
        exact (toF_le rep_zero rs).1 this
      have p2 : m ≤ o → s ≤ 0 := by
        intro q
        have : toF R (m - o) ≤ toF R 0 := toF_monotone (by linarith)
        rw [e'] at this
        exact (toF_le rs rep_zero).1 this
      refine ⟨⟨fun q => ?_, fun q => ?_⟩, fun q => ?_, fun q => ?_⟩
      · by_contra hc
        have := p1 (not_lt.1 hc)
        linarith
      · exact lt_of_le_of_ne (p2 q.le) fun hz => by have := z hz; linarith
      · by_contra hc
        have := p2 (not_lt.1 hc)
        linarith
      · exact lt_of_le_of_ne (p1 q.le) fun hz => by have := z hz.symm; linarith
    have g1 := sgn rl rs es
    have g2 := sgn rh rt et
    have hst : numR R s ≤ numR R t := by
      rw [← es, ← et]
      exact R.sub_mono _ ((num_le rl rh).2 hv.le)
    have hn : ¬ (numR R s = R.zero ∧ numR R t = R.zero) := by
      rw [num_zero, num_inj rs rep_zero, num_inj rt rep_zero]
      rintro ⟨z1, z2⟩
      have a1 := g1.1.not.1 (by rw [z1]; exact lt_irrefl _)
      have a2 := g2.2.not.1 (by rw [z2]; exact lt_irrefl _)
      linarith
    have l1 : numR R s < R.zero ↔ lo < o := by rw [num_zero, numR_lt rs rep_zero, g1.1]
    have l2 : R.zero < numR R t ↔ o < hi := by rw [num_zero, numR_lt rep_zero rt, g2.2]
    have fo := num_fin ro
    have esl : slabN R neg (numR R lo) (numR R hi) (numR R o) (numR R d) =
        (nmin (R.mulN (some (numR R s)) (some (if neg then R.ninf else R.inf))) (R.mulN (some (numR R t)) (some (if neg then R.ninf else R.inf))),
         nmax (R.mulN (some (numR R s)) (some (if neg then R.ninf else R.inf))) (R.mulN (some (numR R t)) (some (if neg then R.ninf else R.inf)))) := by
      unfold slabN Rounding.invN
      rw [subN_some R fo, subN_some R fo, es, et, h0, if_pos (num_zero (R := R)).symm]
    rw [esl]
    have inside : lo < o → o < hi → AxE R (rayErr u η M) lo hi o d R.ninf R.inf := by
      intro a b
      refine ⟨fun s _ _ => ?_, fun s _ _ => ?_, fun q => (by rcases q with q | q <;> linarith)⟩
      · rw [h0, zero_mul, add_zero]
        constructor <;> linarith
      · rw [R.val_ninf, R.val_inf]
        exact ⟨bot_le, le_top⟩
    have above : o ≤ lo ∨ hi ≤ o → AxE R (rayErr u η M) lo hi o d R.inf R.inf ∧ AxE R (rayErr u η M) lo hi o d R.ninf R.ninf := by
      intro q
      have no : ∀ s : ℝ, lo + rayErr u η M ≤ o + d * s → o + d * s ≤ hi - rayErr u η M → False := by
        intro s
        rw [h0, zero_mul, add_zero]
        intro a b
        rcases q with q | q <;> linarith
      refine ⟨⟨fun s a _ => ?_, fun s a b => (no s a b).elim, fun _ => Or.inl (R.le_inf _)⟩, ⟨fun s _ a => ?_, fun s a b => (no s a b).elim, fun _ => Or.inr (R.ninf_le _)⟩⟩
      · rw [R.val_inf] at a
        exact absurd (top_le_iff.1 a) (EReal.coe_ne_top _)
      · rw [R.val_ninf] at a
        exact absurd (le_bot_iff.1 a) (EReal.coe_ne_bot _)
    obtain ⟨⟨a, b, e1, e2, ea, eb⟩, a', b', e1', e2', ea', eb'⟩ := infinite_slab R hst hn
    cases neg
    · refine ⟨a, b, ?_, by simp only [Bool.false_eq_true, if_false]; rw [e1, e2], fun q => absurd h0 q⟩
      by_cases c1 : lo < o
      · rw [if_pos (l1.2 c1)] at ea
        by_cases c2 : o < hi
        · rw [if_pos (l2.2 c2)] at eb
          rw [ea, eb]; exact inside c1 c2
        · rw [if_neg (fun q => c2 (l2.1 q))] at eb
          rw [ea, eb]; exact (above (Or.inr (not_lt.1 c2))).2
      · rw [if_neg (fun q => c1 (l1.1 q))] at ea
        rw [if_pos (l2.2 ((not_lt.1 c1).trans_lt hv))] at eb
        rw [ea, eb]; exact (above (Or.inl (not_lt.1 c1))).1
    · refine ⟨a', b', ?_, by simp only [if_true]; rw [e1', e2'], fun q => absurd h0 q⟩
      by_cases c1 : lo < o
      · rw [if_pos (l1.2 c1)] at eb'
        by_cases c2 : o < hi
        · rw [if_pos (l2.2 c2)] at ea'
          rw [ea', eb']; exact inside c1 c2
        · rw [if_neg (fun q => c2 (l2.1 q))] at ea'
          rw [ea', eb']; exact (above (Or.inr (not_lt.1 c2))).1
      · rw [if_neg (fun q => c1 (l1.1 q))] at eb'
        rw [if_pos (l2.2 ((not_lt.1 c1).trans_lt hv))] at ea'
        rw [ea', eb']; exact (above (Or.inl (not_lt.1 c1))).2
  · have hd' := hd.2.2.resolve_left h0
    obtain ⟨t1, r1, e1, b1, g1⟩ := slab_mul h hM hD hD1 hΩ2 rl ro hd.1 sl so hd' hd.2.1
    obtain ⟨t2, r2, e2, b2, g2⟩ := slab_mul h hM hD hD1 hΩ2 rh ro hd.1 sh so hd' hd.2.1
    have hne : numR R d ≠ R.zero := by
      rw [num_zero]
      exact fun q => h0 ((num_inj hd.1 rep_zero).1 q)
    -- the inverse is finite
    have q1 : |1 / d| ≤ Ω := by
      refine le_trans ?_ hΩ2
      rw [abs_div, abs_one]
      exact div_le_div₀ (by linarith) (by linarith) hD hd'
    obtain ⟨v, rv, ev, -⟩ := num_fl h q1
    have fo := num_fin ro
    have hM4 : 4 * M ≤ 4 * M / D := by
      rw [le_div_iff₀ hD]
      have : 4 * M * D ≤ 4 * M * 1 := mul_le_mul_of_nonneg_left hD1 (by linarith)
      linarith
    obtain ⟨s, rs, es, -, -⟩ := side_sub h hM (hM4.trans hΩ2) rl ro sl so
    obtain ⟨t, rt, et, -, -⟩ := side_sub h hM (hM4.trans hΩ2) rh ro sh so
    rw [es, num_one, num_div rep_one hd.1, ev, num_mul rs rv] at e1
    rw [et, num_one, num_div rep_one hd.1, ev, num_mul rt rv] at e2
    have esl : slabN R neg (numR R lo) (numR R hi) (numR R o) (numR R d) = (some (numR R (min t1 t2)), some (numR R (max t1 t2))) := by
      unfold slabN Rounding.invN
      rw [subN_some R fo, subN_some R fo, es, et, if_neg hne, num_one, num_div rep_one hd.1, ev, num_mulN rs rv, num_mulN rt rv, e1, e2]
      dsimp only [nmin, nmax]
      rw [(rep_min r1 r2).2, (rep_max r1 r2).2]
    have ax := ax_of h0 hv.le b1 b2 g1 g2
    have va : R.val (numR R (min t1 t2)) = ((min t1 t2 : ℝ) : EReal) := (rep_min r1 r2).1
    have vb : R.val (numR R (max t1 t2)) = ((max t1 t2 : ℝ) : EReal) := (rep_max r1 r2).1
    refine ⟨_, _, ⟨fun s a b => ?_, fun s a b => ?_, fun q => ?_⟩, esl, fun _ => ⟨?_, ?_⟩⟩
    · rw [va] at a
      rw [vb] at b
      exact ax.near s (EReal.coe_le_coe_iff.1 a) (EReal.coe_le_coe_iff.1 b)
    · rw [va, vb]
      have := ax.deep s a b
      exact ⟨EReal.coe_le_coe_iff.2 this.1, EReal.coe_le_coe_iff.2 this.2⟩
    · rw [num_zero, num_le rep_zero (rep_min r1 r2).1, num_le (rep_max r1 r2).1 rep_zero]
      exact ax.out q
    · exact lt_of_le_of_ne (R.ninf_le _) (num_fin (rep_min r1 r2).1).2.symm
    · exact lt_of_le_of_ne (R.le_inf _) (num_fin (rep_max r1 r2).1).1

theorem val_max (a b : F) : R.val (max a b) = max (R.val a) (R.val b) := by
  rcases le_total a b with h | h
  · rw [max_eq_right h, max_eq_right (R.val_mono h)]
  · rw [max_eq_left h, max_eq_left (R.val_mono h)]
theorem val_min (a b : F) : R.val (min a b) = min (R.val a) (R.val b) := by
  rcases le_total a b with h | h
  · rw [min_eq_left h, min_eq_left (R.val_mono h)]
  · rw [min_eq_right h, min_eq_right (R.val_mono h)]
/-- A number that is not infinite is representable. -/
theorem num_of_fin {a : F} (h1 : R.ninf < a) (h2 : a < R.inf) : ∃ x, Rep R x ∧ a = numR R x := by
  have v1 : R.val a ≠ ⊥ := fun q => absurd h1 (by rw [R.val_inj (q.trans R.val_ninf.symm)]; exact lt_irrefl _)
  have v2 : R.val a ≠ ⊤ := fun q => absurd h2 (by rw [R.val_inj (q.trans R.val_inf.symm)]; exact lt_irrefl _)
  have e : ((R.val a).toReal : EReal) = R.val a := EReal.coe_toReal v2 v1
  have n : numR R (R.val a).toReal = a := by
    show R.rnd _ = a
    rw [e, R.rnd_val]
  refine ⟨(R.val a).toReal, ?_, n.symm⟩
  show R.val (numR R (R.val a).toReal) = _
  rw [n, e]

/-- The outcome of the three axes: no parameter; or the parameters from `l` to `k`. -/
theorem slabs_cases3 (h : Std R u η Ω) (hM : 1 ≤ M) (hD : 0 < D) (hD1 : D ≤ 1) (hu : 0 < u) (hΩ2 : 4 * M / D ≤ Ω) (nz : V3 Bool) {o d : V3 ℝ} {b : Aabb3 ℝ} (hf : FitsRay3 R M D o d b) :
    (∃ a c, slabsN3 R nz (vecR R o) (vecR R d) (boxR3 R b) = (some a, some c) ∧ c < a ∧ ∀ s, ¬ Around3 b (-rayErr u η M) (along3 o d s)) ∨
    ∃ l k, Rep R l ∧ Rep R k ∧ l ≤ k ∧ slabsN3 R nz (vecR R o) (vecR R d) (boxR3 R b) = (some (numR R l), some (numR R k)) ∧
      (∀ s, l ≤ s → s ≤ k → Around3 b (rayErr u η M) (along3 o d s)) ∧ (∀ s, Around3 b (-rayErr u η M) (along3 o d s) → l ≤ s ∧ s ≤ k) ∧ (¬ b.Mem o → 0 ≤ l ∨ k ≤ 0) := by
  have hδ : 0 < rayErr u η M := by
    have := mul_pos hu (by linarith : (0 : ℝ) < M)
    have := mul_nonneg (by linarith : (0 : ℝ) ≤ M) h.η0
    have := h.η0
    unfold rayErr
    linarith
  obtain ⟨hv, ⟨⟨a1, a2, a3⟩, s1, s2, s3⟩, ⟨b1, b2, b3⟩, t1, t2, t3⟩ := hf.box
  obtain ⟨lx, kx, ax, ex, fx⟩ := slabN_ax h hM hD hD1 hΩ2 hδ nz.x a1 b1 hf.ro.1 s1 t1 hf.so.1 hf.solid.1 hf.dx
  obtain ⟨ly, ky, ay, ey, fy⟩ := slabN_ax h hM hD hD1 hΩ2 hδ nz.y a2 b2 hf.ro.2.1 s2 t2 hf.so.2.1 hf.solid.2.1 hf.dy
  obtain ⟨lz, kz, az, ez, fz⟩ := slabN_ax h hM hD hD1 hΩ2 hδ nz.z a3 b3 hf.ro.2.2 s3 t3 hf.so.2.2 hf.solid.2.2 hf.dz
  have e : slabsN3 R nz (vecR R o) (vecR R d) (boxR3 R b) = (some (max (max lx ly) lz), some (min (min kx ky) kz)) := by
    show (nmax (nmax (slabN R nz.x (numR R b.min.x) (numR R b.max.x) (numR R o.x) (numR R d.x)).1 (slabN R nz.y (numR R b.min.y) (numR R b.max.y) (numR R o.y) (numR R d.y)).1)
        (slabN R nz.z (numR R b.min.z) (numR R b.max.z) (numR R o.z) (numR R d.z)).1,
      nmin (nmin (slabN R nz.x (numR R b.min.x) (numR R b.max.x) (numR R o.x) (numR R d.x)).2 (slabN R nz.y (numR R b.min.y) (numR R b.max.y) (numR R o.y) (numR R d.y)).2)
        (slabN R nz.z (numR R b.min.z) (numR R b.max.z) (numR R o.z) (numR R d.z)).2) = _
    rw [ex, ey, ez]
    rfl
  have fin : R.ninf < max (max lx ly) lz ∧ min (min kx ky) kz < R.inf := by
    rcases hf.ne with q | q | q
    · exact ⟨(fx q).1.trans_le ((le_max_left _ _).trans (le_max_left _ _)), ((min_le_left _ _).trans (min_le_left _ _)).trans_lt (fx q).2⟩
    · exact ⟨(fy q).1.trans_le ((le_max_right _ _).trans (le_max_left _ _)), ((min_le_left _ _).trans (min_le_right _ _)).trans_lt (fy q).2⟩
    · exact ⟨(fz q).1.trans_le (le_max_right _ _), (min_le_right _ _).trans_lt (fz q).2⟩
  have near : ∀ s : ℝ, R.val (max (max lx ly) lz) ≤ s → (s : EReal) ≤ R.val (min (min kx ky) kz) → Around3 b (rayErr u η M) (along3 o d s) := by
    intro s a c
    rw [val_max, val_max] at a
    rw [val_min, val_min] at c
    have a1 := max_le_iff.1 a
    have a2 := max_le_iff.1 a1.1
    have c1 := le_min_iff.1 c
    have c2 := le_min_iff.1 c1.1
    exact ⟨ax.near s a2.1 c2.1, ay.near s a2.2 c2.2, az.near s a1.2 c1.2⟩
  have deep : ∀ s : ℝ, Around3 b (-rayErr u η M) (along3 o d s) → R.val (max (max lx ly) lz) ≤ s ∧ (s : EReal) ≤ R.val (min (min kx ky) kz) := by
    intro s hs
    simp only [Around3, along3, sub_neg_eq_add, ← sub_eq_add_neg] at hs
    have x := ax.deep s hs.1.1 hs.1.2
    have y := ay.deep s hs.2.1.1 hs.2.1.2
    have z := az.deep s hs.2.2.1 hs.2.2.2
    rw [val_max, val_max, val_min, val_min]
    exact ⟨max_le (max_le x.1 y.1) z.1, le_min (le_min x.2 y.2) z.2⟩
  have out : ¬ b.Mem o → R.zero ≤ max (max lx ly) lz ∨ min (min kx ky) kz ≤ R.zero := by
    intro hm
    by_cases hx : o.x < b.min.x ∨ b.max.x < o.x
    · exact (ax.out hx).imp (fun q => q.trans ((le_max_left _ _).trans (le_max_left _ _))) (fun q => ((min_le_left _ _).trans (min_le_left _ _)).trans q)
    · by_cases hy : o.y < b.min.y ∨ b.max.y < o.y
      · exact (ay.out hy).imp (fun q => q.trans ((le_max_right _ _).trans (le_max_left _ _))) (fun q => ((min_le_left _ _).trans (min_le_right _ _)).trans q)
      · push Not at hx hy
        refine (az.out ?_).imp (fun q => q.trans (le_max_right _ _)) (fun q => (min_le_right _ _).trans q)
        by_contra hc
        push Not at hc
        exact hm ⟨hx, hy, hc⟩
  rcases lt_or_ge (min (min kx ky) kz) (max (max lx ly) lz) with hlt | hle
  · refine Or.inl ⟨_, _, e, hlt, fun s hs => ?_⟩
    have := deep s hs
    exact absurd ((R.val_le _ _).1 (this.1.trans this.2)) (not_le.2 hlt)
  · obtain ⟨l, rl, el⟩ := num_of_fin fin.1 (hle.trans_lt fin.2)
    obtain ⟨k, rk, ek⟩ := num_of_fin (fin.1.trans_le hle) fin.2
    rw [el, ek] at e near deep hle out
    have vl : R.val (numR R l) = (l : EReal) := rl
    have vk : R.val (numR R k) = (k : EReal) := rk
    rw [vl, vk] at near deep
    exact Or.inr ⟨l, k, rl, rk, (num_le rl rk).1 hle, e, fun s a c => near s (EReal.coe_le_coe_iff.2 a) (EReal.coe_le_coe_iff.2 c),
      fun s hs => ⟨EReal.coe_le_coe_iff.1 (deep s hs).1, EReal.coe_le_coe_iff.1 (deep s hs).2⟩, fun hm => (by
        have := out hm
        rwa [num_zero, num_le rep_zero rl, num_le rk rep_zero] at this)⟩

/-- A point with coordinates that are numbers. -/
def someV (p : V3 F) : V3 (WithNan F) := ⟨some p.x, some p.y, some p.z⟩

theorem along_errN (h : Std R u η Ω) (hM : 1 ≤ M) (hΩ : 4 * M ≤ Ω) {o d t lo hi : ℝ} (ro : Rep R o) (rd : Rep R d) (rt : Rep R t) (so : |o| ≤ M) (sl : |lo| ≤ M) (sh : |hi| ≤ M)
    (h1 : lo - rayErr u η M ≤ o + d * t) (h2 : o + d * t ≤ hi + rayErr u η M) :
    ∃ q, Rep R q ∧ R.addN (some (numR R o)) (R.mulN (some (numR R d)) (some (numR R t))) = some (numR R q) ∧ |q - (o + d * t)| ≤ rayErr u η M := by
  obtain ⟨q, rq, e, bq⟩ := along_err h hM hΩ ro rd rt so sl sh h1 h2
  refine ⟨q, rq, ?_, bq⟩
  have hM0 : (0 : ℝ) ≤ M := by linarith
  have q1 : u * M ≤ 1 / 16 * M := mul_le_mul_of_nonneg_right h.u1 hM0
  have q2 : M * η ≤ M * (1 / 16) := mul_le_mul_of_nonneg_left h.η1 hM0
  have hη1 := h.η1
  have hδ : rayErr u η M ≤ 19 / 16 * M := by unfold rayErr; linarith
  have b1 : |d * t| ≤ Ω := by
    refine le_trans ?_ hΩ
    rw [abs_le] at so sl sh ⊢
    constructor <;> linarith
  obtain ⟨x, rx, ex, -⟩ := num_fl h b1
  rw [num_mul rd rt, ex, num_add ro rx] at e
  rw [num_mulN rd rt, ex, num_addN ro rx, e]

section
variable {nz : V3 Bool} {o d : V3 F} {b : Aabb3 F} {a c : F}
theorem intersectsN3_eq (e : slabsN3 R nz o d b = (some a, some c)) : intersectsN3 R nz o d b = true ↔ a ≤ c ∧ (R.zero ≤ a ∨ R.zero ≤ c) := by
  unfold intersectsN3
  rw [e]
  show (decide (a ≤ c) && (decide (R.zero ≤ a) || decide (R.zero ≤ c))) = true ↔ _
  rw [Bool.and_eq_true, Bool.or_eq_true, decide_eq_true_iff, decide_eq_true_iff, decide_eq_true_iff]
theorem intersectionN3_miss (e : slabsN3 R nz o d b = (some a, some c)) (h : (a < R.zero ∧ c < R.zero) ∨ c < a) : intersectionN3 R nz o d b = none := by
  unfold intersectionN3
  rw [e]
  refine if_pos ?_
  show ((decide (a < R.zero) && decide (c < R.zero)) || decide (c < a)) = true
  rw [Bool.or_eq_true, Bool.and_eq_true, decide_eq_true_iff, decide_eq_true_iff, decide_eq_true_iff]
  exact h
theorem intersectionN3_hit (e : slabsN3 R nz o d b = (some a, some c)) (h : ¬ ((a < R.zero ∧ c < R.zero) ∨ c < a)) {t : F} (ht : (R.zero ≤ a ∧ t = a) ∨ (a < R.zero ∧ t = c)) :
    intersectionN3 R nz o d b = some ⟨R.addN (some o.x) (R.mulN (some d.x) (some t)), R.addN (some o.y) (R.mulN (some d.y) (some t)), R.addN (some o.z) (R.mulN (some d.z) (some t))⟩ := by
  unfold intersectionN3
  rw [e]
  have hn : ¬ (((decide (a < R.zero) && decide (c < R.zero)) || decide (c < a)) = true) := by
    rw [Bool.or_eq_true, Bool.and_eq_true, decide_eq_true_iff, decide_eq_true_iff, decide_eq_true_iff]
    exact h
  have hu : (if nle (some R.zero) (some a) = true then some a else some c) = some t := by
    rcases ht with ⟨h1, rfl⟩ | ⟨h1, rfl⟩
    · exact if_pos (decide_eq_true h1)
    · exact if_neg fun q => absurd (of_decide_eq_true q) (not_le.2 h1)
  refine (if_neg hn).trans ?_
  dsimp only
  rw [hu]
end

/-- **C110, 3D**, with infinities and NaN. As `c110_ray2`. -/
theorem c110_ray3 (h : Std R u η Ω) (hM : 1 ≤ M) (hD : 0 < D) (hD1 : D ≤ 1) (hu : 0 < u) (hΩ2 : 4 * M / D ≤ Ω) (nz : V3 Bool) {o d : V3 ℝ} {b : Aabb3 ℝ} (hf : FitsRay3 R M D o d b) :
    (intersectsN3 R nz (vecR R o) (vecR R d) (boxR3 R b) = true → ∃ t, 0 ≤ t ∧ Around3 b (rayErr u η M) (along3 o d t)) ∧
    ((∃ t, 0 ≤ t ∧ Around3 b (-rayErr u η M) (along3 o d t)) → intersectsN3 R nz (vecR R o) (vecR R d) (boxR3 R b) = true) ∧
    (intersectsN3 R nz (vecR R o) (vecR R d) (boxR3 R b) = (intersectionN3 R nz (vecR R o) (vecR R d) (boxR3 R b)).isSome) ∧
    ∀ p, intersectionN3 R nz (vecR R o) (vecR R d) (boxR3 R b) = some p → ∃ q t, p = someV (vecR R q) ∧ Rep3 R q ∧ 0 ≤ t ∧ Close3 (rayErr u η M) q (along3 o d t) ∧ Around3 b (rayErr u η M) (along3 o d t) ∧
      ((∀ s, s < t → ¬ Around3 b (-rayErr u η M) (along3 o d s)) ∨ (Around3 b (rayErr u η M) o ∧ ∀ s, t < s → ¬ Around3 b (-rayErr u η M) (along3 o d s))) := by
  have h0 : along3 o d 0 = o := by simp [along3]
  have hΩ1 : 4 * M ≤ Ω := by
    refine le_trans ?_ hΩ2
    rw [le_div_iff₀ hD]
    have : 4 * M * D ≤ 4 * M * 1 := mul_le_mul_of_nonneg_left hD1 (by linarith)
    linarith
  rcases slabs_cases3 h hM hD hD1 hu hΩ2 nz hf with ⟨a, c, e, hlt, hn⟩ | ⟨l, k, rl, rk, hlk, e, hnear, hdeep, -⟩
  · have w := intersectsN3_eq e
    have hm : intersectsN3 R nz (vecR R o) (vecR R d) (boxR3 R b) = false := Bool.eq_false_iff.2 fun q => absurd (w.1 q).1 (not_le.2 hlt)
    rw [hm, intersectionN3_miss e (Or.inr hlt)]
    exact ⟨fun q => absurd q (by simp), fun ⟨t, _, ht⟩ => absurd ht (hn t), rfl, fun p q => absurd q (by simp)⟩
  · have w : intersectsN3 R nz (vecR R o) (vecR R d) (boxR3 R b) = true ↔ 0 ≤ k := by
      rw [intersectsN3_eq e, num_zero, num_le rl rk, num_le rep_zero rl, num_le rep_zero rk]
      exact ⟨fun q => q.2.elim (fun c => c.trans hlk) id, fun q => ⟨hlk, Or.inr q⟩⟩
    have w' : ((numR R l < R.zero ∧ numR R k < R.zero) ∨ numR R k < numR R l) ↔ ¬ 0 ≤ k := by
      rw [num_zero, numR_lt rl rep_zero, numR_lt rk rep_zero, numR_lt rk rl, not_le]
      exact ⟨fun q => q.elim And.right fun q => absurd hlk (not_le.2 q), fun q => Or.inl ⟨hlk.trans_lt q, q⟩⟩
    have ht : (R.zero ≤ numR R l ∧ numR R (if 0 ≤ l then l else k) = numR R l) ∨ (numR R l < R.zero ∧ numR R (if 0 ≤ l then l else k) = numR R k) := by
      rw [num_zero, num_le rep_zero rl, numR_lt rl rep_zero]
      by_cases hl : 0 ≤ l
      · exact Or.inl ⟨hl, by rw [if_pos hl]⟩
      · exact Or.inr ⟨not_le.1 hl, by rw [if_neg hl]⟩
    refine ⟨fun q => ?_, ?_, ?_, ?_⟩
    · exact ⟨max l 0, le_max_right _ _, hnear _ (le_max_left _ _) (max_le hlk (w.1 q))⟩
    · rintro ⟨t, t0, ht⟩
      exact w.2 (t0.trans (hdeep t ht).2)
    · by_cases hc : 0 ≤ k
      · rw [w.2 hc, intersectionN3_hit e (fun q => w'.1 q hc) ht]
        rfl
      · rw [intersectionN3_miss e (w'.2 hc), Bool.eq_false_iff.2 (fun q => hc (w.1 q))]
        rfl
    · intro p hp
      by_cases hc : 0 ≤ k
      · rw [intersectionN3_hit e (fun q => w'.1 q hc) ht] at hp
        have hp := Option.some.inj hp
        have fin : ∀ t, Rep R t → 0 ≤ t → l ≤ t → t ≤ k →
            ((∀ s, s < t → ¬ Around3 b (-rayErr u η M) (along3 o d s)) ∨ (Around3 b (rayErr u η M) o ∧ ∀ s, t < s → ¬ Around3 b (-rayErr u η M) (along3 o d s))) →
            (⟨R.addN (some (vecR R o).x) (R.mulN (some (vecR R d).x) (some (numR R t))), R.addN (some (vecR R o).y) (R.mulN (some (vecR R d).y) (some (numR R t))),
              R.addN (some (vecR R o).z) (R.mulN (some (vecR R d).z) (some (numR R t)))⟩ : V3 (WithNan F)) = p →
            ∃ q t, p = someV (vecR R q) ∧ Rep3 R q ∧ 0 ≤ t ∧ Close3 (rayErr u η M) q (along3 o d t) ∧ Around3 b (rayErr u η M) (along3 o d t) ∧
              ((∀ s, s < t → ¬ Around3 b (-rayErr u η M) (along3 o d s)) ∨ (Around3 b (rayErr u η M) o ∧ ∀ s, t < s → ¬ Around3 b (-rayErr u η M) (along3 o d s))) := by
          intro t rt t0 a c hor he
          have hN := hnear t a c
          obtain ⟨-, ⟨-, s1, s2, s3⟩, -, t1, t2, t3⟩ := hf.box
          obtain ⟨x, rx, ex, bx⟩ := along_errN h hM hΩ1 hf.ro.1 hf.dx.1 rt hf.so.1 s1 t1 hN.1.1 hN.1.2
          obtain ⟨y, ry, ey, by'⟩ := along_errN h hM hΩ1 hf.ro.2.1 hf.dy.1 rt hf.so.2.1 s2 t2 hN.2.1.1 hN.2.1.2
          obtain ⟨z, rz, ez, bz⟩ := along_errN h hM hΩ1 hf.ro.2.2 hf.dz.1 rt hf.so.2.2 s3 t3 hN.2.2.1 hN.2.2.2
          refine ⟨⟨x, y, z⟩, t, ?_, ⟨rx, ry, rz⟩, t0, ⟨bx, by', bz⟩, hN, hor⟩
          rw [← he]
          exact V3.ext ex ey ez
        by_cases hl : 0 ≤ l
        · rw [if_pos hl] at hp
          exact fin l rl hl le_rfl hlk (Or.inl fun s hs hq => by have := (hdeep s hq).1; linarith) hp
        · rw [if_neg hl] at hp
          have hl' : l ≤ 0 := le_of_not_ge hl
          refine fin k rk hc hlk le_rfl (Or.inr ⟨?_, fun s hs hq => by have := (hdeep s hq).2; linarith⟩) hp
          have := hnear 0 hl' hc
          rwa [h0] at this
      · rw [intersectionN3_miss e (w'.2 hc)] at hp
        cases hp

/-! ## `f64` -/

/-- The rounding error in `f64`. -/
def rayErr64 (M : ℝ) : ℝ := 10 * ((2 : ℝ) ^ (-53 : ℤ) * M)
/-- The least absolute value of a component of a direction that is not zero: `2^-500`. -/
def dirMin : ℝ := (2 : ℝ) ^ (-500 : ℤ)

theorem rayErr_le (hM : 1 ≤ M) : rayErr ((2 : ℝ) ^ (-53 : ℤ)) ((2 : ℝ) ^ (-1075 : ℤ)) M ≤ rayErr64 M := by
  have q1 : (2 : ℝ) ^ (-1075 : ℤ) ≤ (2 : ℝ) ^ (-57 : ℤ) := zpow_le_zpow_right₀ (by norm_num) (by norm_num)
  have q2 : (2 : ℝ) ^ (-53 : ℤ) = 16 * (2 : ℝ) ^ (-57 : ℤ) := by norm_num
  have q3 : (0 : ℝ) < (2 : ℝ) ^ (-57 : ℤ) := zpow_pos (by norm_num) _
  have q4 : M * (2 : ℝ) ^ (-1075 : ℤ) ≤ M * (2 : ℝ) ^ (-57 : ℤ) := mul_le_mul_of_nonneg_left q1 (by linarith)
  have q5 : (2 : ℝ) ^ (-57 : ℤ) * 1 ≤ (2 : ℝ) ^ (-57 : ℤ) * M := mul_le_mul_of_nonneg_left hM q3.le
  unfold rayErr rayErr64
  rw [q2]
  linarith
theorem dirMin_pos : 0 < dirMin := zpow_pos (by norm_num) _
theorem dirMin_le : dirMin ≤ 1 := by
  have : (2 : ℝ) ^ (-500 : ℤ) ≤ (2 : ℝ) ^ (0 : ℤ) := zpow_le_zpow_right₀ (by norm_num) (by norm_num)
  simpa [dirMin] using this
theorem ray64_omega2 (hM' : M ≤ 2 ^ 249) : 4 * M / dirMin ≤ (2 : ℝ) ^ (1022 : ℤ) := by
  rw [div_le_iff₀ dirMin_pos]
  have e : (2 : ℝ) ^ (1022 : ℤ) * dirMin = (2 : ℝ) ^ (522 : ℤ) := by
    unfold dirMin
    rw [← zpow_add₀ (by norm_num)]
    norm_num
  rw [e]
  have h1 : 4 * M ≤ 2 ^ 2 * 2 ^ 249 := by linarith
  rw [← pow_add] at h1
  refine h1.trans ?_
  rw [← zpow_natCast]
  exact zpow_le_zpow_right₀ (by norm_num) (by norm_num)
theorem ray64_omega1 (hM : 1 ≤ M) (hM' : M ≤ 2 ^ 249) : 4 * M ≤ (2 : ℝ) ^ (1022 : ℤ) := by
  refine le_trans ?_ (ray64_omega2 hM')
  rw [le_div_iff₀ dirMin_pos]
  have : 4 * M * dirMin ≤ 4 * M * 1 := mul_le_mul_of_nonneg_left dirMin_le (by linarith)
  linarith

theorem Around2.mono {b : Aabb2 ℝ} {δ ε : ℝ} {p : V2 ℝ} (h : Around2 b δ p) (hle : δ ≤ ε) : Around2 b ε p := by
  obtain ⟨⟨a, b⟩, c, d⟩ := h
  exact ⟨⟨by linarith, by linarith⟩, by linarith, by linarith⟩
theorem Around3.mono {b : Aabb3 ℝ} {δ ε : ℝ} {p : V3 ℝ} (h : Around3 b δ p) (hle : δ ≤ ε) : Around3 b ε p := by
  obtain ⟨⟨a, b⟩, ⟨c, d⟩, e, f⟩ := h
  exact ⟨⟨by linarith, by linarith⟩, ⟨by linarith, by linarith⟩, by linarith, by linarith⟩

/-- Specification: `q` is, up to `δ`, the point where the ray `o + d t` enters the box `b` — or where it leaves it, if it starts inside, up to `δ`. -/
def Struck2 (δ : ℝ) (o d : V2 ℝ) (b : Aabb2 ℝ) (q : V2 ℝ) : Prop :=
  ∃ t, 0 ≤ t ∧ Close2 δ q (along2 o d t) ∧ Around2 b δ (along2 o d t) ∧
    ((∀ s, s < t → ¬ Around2 b (-δ) (along2 o d s)) ∨ (Around2 b δ o ∧ ∀ s, t < s → ¬ Around2 b (-δ) (along2 o d s)))
/-- The same in 3D. -/
def Struck3 (δ : ℝ) (o d : V3 ℝ) (b : Aabb3 ℝ) (q : V3 ℝ) : Prop :=
  ∃ t, 0 ≤ t ∧ Close3 δ q (along3 o d t) ∧ Around3 b δ (along3 o d t) ∧
    ((∀ s, s < t → ¬ Around3 b (-δ) (along3 o d s)) ∨ (Around3 b δ o ∧ ∀ s, t < s → ¬ Around3 b (-δ) (along3 o d s)))

/-- **C110, 2D in `f64`**: the error is `10 * 2^-53 * M`. -/
theorem c110_f64_2 (hM : 1 ≤ M) (hM' : M ≤ 2 ^ 249) {o d : V2 ℝ} {b : Aabb2 ℝ} (hf : FitsRay2 binary64 M dirMin o d b) :
    (intersectsF2 binary64 (vecR2 binary64 o) (vecR2 binary64 d) (boxR2 binary64 b) = true → ∃ t, 0 ≤ t ∧ Around2 b (rayErr64 M) (along2 o d t)) ∧
    ((∃ t, 0 ≤ t ∧ Around2 b (-rayErr64 M) (along2 o d t)) → intersectsF2 binary64 (vecR2 binary64 o) (vecR2 binary64 d) (boxR2 binary64 b) = true) ∧
    (intersectsF2 binary64 (vecR2 binary64 o) (vecR2 binary64 d) (boxR2 binary64 b) = (intersectionF2 binary64 (vecR2 binary64 o) (vecR2 binary64 d) (boxR2 binary64 b)).isSome) ∧
    ∀ p, intersectionF2 binary64 (vecR2 binary64 o) (vecR2 binary64 d) (boxR2 binary64 b) = some p → ∃ q, p = vecR2 binary64 q ∧ Rp binary64 q ∧ Struck2 (rayErr64 M) o d b q := by
  have hE := rayErr_le hM
  obtain ⟨h1, h2, h3, h4⟩ := c110_ray2 std64 hM dirMin_pos (zpow_pos (by norm_num) _) (ray64_omega1 hM hM') (ray64_omega2 hM') hf
  refine ⟨fun q => ?_, fun ⟨t, t0, ht⟩ => h2 ⟨t, t0, ht.mono (neg_le_neg hE)⟩, h3, fun p hp => ?_⟩
  · obtain ⟨t, t0, ht⟩ := h1 q
    exact ⟨t, t0, ht.mono hE⟩
  · obtain ⟨q, t, e, rq, t0, hc, ha, hor⟩ := h4 p hp
    refine ⟨q, e, rq, t, t0, ⟨hc.1.trans hE, hc.2.trans hE⟩, ha.mono hE, ?_⟩
    rcases hor with hor | ⟨ho, hor⟩
    · exact Or.inl fun s hs hn => hor s hs (hn.mono (neg_le_neg hE))
    · exact Or.inr ⟨ho.mono hE, fun s hs hn => hor s hs (hn.mono (neg_le_neg hE))⟩
/-- **C110, 3D in `f64`.** -/
theorem c110_f64_3 (hM : 1 ≤ M) (hM' : M ≤ 2 ^ 249) (nz : V3 Bool) {o d : V3 ℝ} {b : Aabb3 ℝ} (hf : FitsRay3 binary64 M dirMin o d b) :
    (intersectsN3 binary64 nz (vecR binary64 o) (vecR binary64 d) (boxR3 binary64 b) = true → ∃ t, 0 ≤ t ∧ Around3 b (rayErr64 M) (along3 o d t)) ∧
    ((∃ t, 0 ≤ t ∧ Around3 b (-rayErr64 M) (along3 o d t)) → intersectsN3 binary64 nz (vecR binary64 o) (vecR binary64 d) (boxR3 binary64 b) = true) ∧
    (intersectsN3 binary64 nz (vecR binary64 o) (vecR binary64 d) (boxR3 binary64 b) = (intersectionN3 binary64 nz (vecR binary64 o) (vecR binary64 d) (boxR3 binary64 b)).isSome) ∧
    ∀ p, intersectionN3 binary64 nz (vecR binary64 o) (vecR binary64 d) (boxR3 binary64 b) = some p → ∃ q, p = someV (vecR binary64 q) ∧ Rep3 binary64 q ∧ Struck3 (rayErr64 M) o d b q := by
  have hE := rayErr_le hM
  obtain ⟨h1, h2, h3, h4⟩ := c110_ray3 std64 hM dirMin_pos dirMin_le (zpow_pos (by norm_num) _) (ray64_omega2 hM') nz hf
  refine ⟨fun q => ?_, fun ⟨t, t0, ht⟩ => h2 ⟨t, t0, ht.mono (neg_le_neg hE)⟩, h3, fun p hp => ?_⟩
  · obtain ⟨t, t0, ht⟩ := h1 q
    exact ⟨t, t0, ht.mono hE⟩
  · obtain ⟨q, t, e, rq, t0, hc, ha, hor⟩ := h4 p hp
    refine ⟨q, e, rq, t, t0, ⟨hc.1.trans hE, hc.2.1.trans hE, hc.2.2.trans hE⟩, ha.mono hE, ?_⟩
    rcases hor with hor | ⟨ho, hor⟩
    · exact Or.inl fun s hs hn => hor s hs (hn.mono (neg_le_neg hE))
    · exact Or.inr ⟨ho.mono hE, fun s hs hn => hor s hs (hn.mono (neg_le_neg hE))⟩

theorem boxR2_valid {b : Aabb2 ℝ} (h : b.Valid) : (boxR2 R b).Valid := ⟨toF_monotone h.1, toF_monotone h.2⟩
/-- A valid box with `f64` coordinates of at most `M`. -/
structure Box2M (M : ℝ) where
  box : Aabb2 ℝ
  rp : RpBox binary64 M box
  valid : box.Valid
/-- The box in `f64`. -/
def Box2M.f64 (b : Box2M M) : Box64_2 := ⟨boxR2 binary64 b.box, boxR2_valid b.valid⟩
/-- A box with `f64` coordinates of at most `M` that is not flat. -/
structure Box3M (M : ℝ) where
  box : Aabb3 ℝ
  fits : FitsB binary64 M box
  solid : Solid box
theorem boxR3_solid {b : Aabb3 ℝ} (hb : FitsB R M b) (h : Solid b) : Solid (boxR3 R b) := by
  obtain ⟨-, ⟨⟨a1, a2, a3⟩, -⟩, ⟨b1, b2, b3⟩, -⟩ := hb
  exact ⟨(numR_lt a1 b1).2 h.1, (numR_lt a2 b2).2 h.2.1, (numR_lt a3 b3).2 h.2.2⟩
def Box3M.f64 (b : Box3M M) : Solid64 := ⟨boxR3 binary64 b.box, boxR3_solid b.fits b.solid⟩

/-- The ray has `f64` coordinates of at most `M` and an admissible direction. -/
structure Ray2M (M : ℝ) (o d : V2 ℝ) : Prop where
  ro : Rp binary64 o
  so : Sz M o
  dx : DirOk binary64 dirMin d.x
  dy : DirOk binary64 dirMin d.y
  ne : d.x ≠ 0 ∨ d.y ≠ 0
structure Ray3M (M : ℝ) (o d : V3 ℝ) : Prop where
  ro : Rep3 binary64 o
  so : Sz3 M o
  dx : DirOk binary64 dirMin d.x
  dy : DirOk binary64 dirMin d.y
  dz : DirOk binary64 dirMin d.z
  ne : d.x ≠ 0 ∨ d.y ≠ 0 ∨ d.z ≠ 0

/-- **C110, a ray query in `f64`** (2D) on a tree of at most 256 boxes, with any margin: every value through whose box, shrunk by the rounding error, the ray passes is returned; every returned value is stored,
and its point is, up to the rounding error, the one where the ray enters (or leaves) its box. -/
theorem c110_tree2 {V S : Type} (hM : 1 ≤ M) (hM' : M ≤ 2 ^ 249) (box : V → Box2M M) (m : V2 F64) (hm : f0 ≤ m.x ∧ f0 ≤ m.y) (area : Aabb2 F64 → S) (lt : S → S → Bool) (sub div : S → S → S) (im : S)
    (vs : List V) (hvs : vs.length ≤ 256) (rng : Nat → Nat) :
    ∃ s : Dbvt V Box64_2, s.values.map Prod.snd = vs ∧ ∀ o d : V2 ℝ, Ray2M M o d →
      ∃ l, s.query (fOps2 (fun v => (box v).f64) (fun v => fat2 m hm (box v).f64) area lt sub div im) (continuousVisitor fun b => intersectionF2 binary64 (vecR2 binary64 o) (vecR2 binary64 d) b.1) () = .ok l ∧
        (l.map Prod.fst).Subperm vs ∧
        (∀ v ∈ vs, (∃ t, 0 ≤ t ∧ Around2 (box v).box (-rayErr64 M) (along2 o d t)) → ∃ p, (v, p) ∈ l) ∧
        ∀ v p, (v, p) ∈ l → v ∈ vs ∧ ∃ q, p = vecR2 binary64 q ∧ Rp binary64 q ∧ Struck2 (rayErr64 M) o d (box v).box q := by
  obtain ⟨s, hv, -, hq, -, -⟩ := c99_f64_2d (fun v => (box v).f64) m hm area lt sub div im vs hvs rng
  refine ⟨s, hv, fun o d hr => ?_⟩
  obtain ⟨l, h1, h2⟩ := hq (vecR2 binary64 o) (vecR2 binary64 d)
  have k := fun v => c110_f64_2 hM hM' (⟨hr.ro, hr.so, hr.dx, hr.dy, hr.ne, (box v).rp, (box v).valid⟩ : FitsRay2 binary64 M dirMin o d (box v).box)
  have mem : ∀ v p, (v, p) ∈ l ↔ v ∈ vs ∧ intersectionF2 binary64 (vecR2 binary64 o) (vecR2 binary64 d) (boxR2 binary64 (box v).box) = some p := by
    intro v p
    rw [h2.mem_iff, List.mem_filterMap]
    constructor
    · rintro ⟨w, hw, e⟩
      obtain ⟨q, hq, e⟩ := Option.map_eq_some_iff.1 e
      cases e
      exact ⟨hw, hq⟩
    · rintro ⟨hv, e⟩
      exact ⟨v, hv, by rw [show intersectionF2 binary64 (vecR2 binary64 o) (vecR2 binary64 d) (box v).f64.1 = some p from e]; rfl⟩
  refine ⟨l, h1, ?_, ?_, ?_⟩
  · have e : (vs.filterMap fun v => (intersectionF2 binary64 (vecR2 binary64 o) (vecR2 binary64 d) (box v).f64.1).map fun p => (v, p)).map Prod.fst
        = vs.filter fun v => (intersectionF2 binary64 (vecR2 binary64 o) (vecR2 binary64 d) (box v).f64.1).isSome := by
      clear h1 h2 mem hq hv hvs
      induction vs with
      | nil => rfl
      | cons a vs ih =>
        cases hc : intersectionF2 binary64 (vecR2 binary64 o) (vecR2 binary64 d) (box a).f64.1 <;> simp_all
    have := h2.map Prod.fst
    rw [e] at this
    exact this.subperm.trans List.filter_sublist.subperm
  · intro v hv ht
    have a := (k v).2.1 ht
    rw [(k v).2.2.1] at a
    obtain ⟨p, hp⟩ := Option.isSome_iff_exists.1 a
    exact ⟨p, (mem v p).2 ⟨hv, hp⟩⟩
  · intro v p hvp
    obtain ⟨a, b⟩ := (mem v p).1 hvp
    exact ⟨a, (k v).2.2.2 p b⟩

/-- **C110, a ray query in `f64`** (3D). -/
theorem c110_tree3 {V S : Type} (hM : 1 ≤ M) (hM' : M ≤ 2 ^ 249) (box : V → Box3M M) (m : V3 F64) (hm : f0 ≤ m.x ∧ f0 ≤ m.y ∧ f0 ≤ m.z) (area : Aabb3 F64 → S) (lt : S → S → Bool) (sub div : S → S → S) (im : S)
    (vs : List V) (hvs : vs.length ≤ 256) (rng : Nat → Nat) :
    ∃ s : Dbvt V Solid64, s.values.map Prod.snd = vs ∧ ∀ (nz : V3 Bool) (o d : V3 ℝ), Ray3M M o d →
      ∃ l, s.query (solidOps (fun v => (box v).f64) m hm area lt sub div im) (continuousVisitor fun b => intersectionN3 binary64 nz (vecR binary64 o) (vecR binary64 d) b.1) () = .ok l ∧
        (l.map Prod.fst).Subperm vs ∧
        (∀ v ∈ vs, (∃ t, 0 ≤ t ∧ Around3 (box v).box (-rayErr64 M) (along3 o d t)) → ∃ p, (v, p) ∈ l) ∧
        ∀ v p, (v, p) ∈ l → v ∈ vs ∧ ∃ q, p = someV (vecR binary64 q) ∧ Rep3 binary64 q ∧ Struck3 (rayErr64 M) o d (box v).box q := by
  obtain ⟨s, hv, -, hq⟩ := c99_nan_built (fun v => (box v).f64) m hm area lt sub div im vs hvs rng
  refine ⟨s, hv, fun nz o d hr => ?_⟩
  obtain ⟨l, h1, h2⟩ := hq nz (vecR binary64 o) (vecR binary64 d) ⟨num_fin hr.ro.1, num_fin hr.ro.2.1, num_fin hr.ro.2.2⟩ ⟨num_fin hr.dx.1, num_fin hr.dy.1, num_fin hr.dz.1⟩
  have k := fun v => c110_f64_3 hM hM' nz (⟨hr.ro, hr.so, hr.dx, hr.dy, hr.dz, hr.ne, (box v).fits, (box v).solid⟩ : FitsRay3 binary64 M dirMin o d (box v).box)
  have mem : ∀ v p, (v, p) ∈ l ↔ v ∈ vs ∧ intersectionN3 binary64 nz (vecR binary64 o) (vecR binary64 d) (boxR3 binary64 (box v).box) = some p := by
    intro v p
    rw [h2.mem_iff, List.mem_filterMap]
    constructor
    · rintro ⟨w, hw, e⟩
      obtain ⟨q, hq, e⟩ := Option.map_eq_some_iff.1 e
      cases e
      exact ⟨hw, hq⟩
    · rintro ⟨hv, e⟩
      exact ⟨v, hv, by rw [show intersectionN3 binary64 nz (vecR binary64 o) (vecR binary64 d) (box v).f64.1 = some p from e]; rfl⟩
  refine ⟨l, h1, ?_, ?_, ?_⟩
  · have e : (vs.filterMap fun v => (intersectionN3 binary64 nz (vecR binary64 o) (vecR binary64 d) (box v).f64.1).map fun p => (v, p)).map Prod.fst
        = vs.filter fun v => (intersectionN3 binary64 nz (vecR binary64 o) (vecR binary64 d) (box v).f64.1).isSome := by
      clear h1 h2 mem hq hv hvs
      induction vs with
      | nil => rfl
      | cons a vs ih =>
        cases hc : intersectionN3 binary64 nz (vecR binary64 o) (vecR binary64 d) (box a).f64.1 <;> simp_all
    have := h2.map Prod.fst
    rw [e] at this
    exact this.subperm.trans List.filter_sublist.subperm
  · intro v hv ht
    have a := (k v).2.1 ht
    rw [(k v).2.2.1] at a
    obtain ⟨p, hp⟩ := Option.isSome_iff_exists.1 a
    exact ⟨p, (mem v p).2 ⟨hv, hp⟩⟩
  · intro v p hvp
    obtain ⟨a, b⟩ := (mem v p).1 hvp
    exact ⟨a, (k v).2.2.2 p b⟩

/-- The unit square with the corner `(2, n)`. -/
def squareAt (n : ℤ) : Aabb2 ℝ := ⟨⟨2, n⟩, ⟨3, n + 1⟩⟩
theorem squareAt_fits {n : ℤ} (h : n ∈ [0, 4]) : RpBox binary64 8 (squareAt n) ∧ (squareAt n).Valid := by
  have hn : n = 0 ∨ n = 4 := by simpa using h
  have r0 := rep_zero (R := binary64)
  have r1 := rep_one (R := binary64)
  have r2 : Rep binary64 2 := by simpa using rep_int (n := 2) (by norm_num)
  have r3 : Rep binary64 3 := by simpa using rep_int (n := 3) (by norm_num)
  have r4 : Rep binary64 4 := by simpa using rep_int (n := 4) (by norm_num)
  have r5 : Rep binary64 (4 + 1) := by have := rep_int (n := 5) (by norm_num); norm_num at this ⊢; exact this
  rcases hn with rfl | rfl
  · refine ⟨⟨⟨⟨r2, by simpa [squareAt] using r0⟩, ?_⟩, ⟨r3, by simpa [squareAt] using r1⟩, ?_⟩, ?_⟩ <;> norm_num [Sz, squareAt, Aabb2.Valid]
  · refine ⟨⟨⟨⟨r2, by simpa [squareAt] using r4⟩, ?_⟩, ⟨r3, by simpa [squareAt] using r5⟩, ?_⟩, ?_⟩ <;> norm_num [Sz, squareAt, Aabb2.Valid]
/-- A case of the theorems: the ray from the origin in the direction `(1, 1/4)` in `f64` on a tree of two squares hits the lower one and not the upper one. -/
theorem c110_example (rng : Nat → Nat) : ∃ (s : Dbvt { n : ℤ // n ∈ [0, 4] } Box64_2) (l : List ({ n : ℤ // n ∈ [0, 4] } × V2 F64)),
    s.query (fOps2 (fun v => (⟨squareAt v.1, (squareAt_fits v.2).1, (squareAt_fits v.2).2⟩ : Box2M 8).f64)
        (fun v => fat2 ⟨f0, f0⟩ ⟨le_rfl, le_rfl⟩ (⟨squareAt v.1, (squareAt_fits v.2).1, (squareAt_fits v.2).2⟩ : Box2M 8).f64) (fun _ => ()) (fun _ _ => false) (fun _ _ => ()) (fun _ _ => ()) ())
      (continuousVisitor fun b => intersectionF2 binary64 (vecR2 binary64 ⟨0, 0⟩) (vecR2 binary64 ⟨1, 1 / 4⟩) b.1) () = .ok l ∧
    (∃ p, (⟨0, by simp⟩, p) ∈ l) ∧ ∀ p, (⟨4, by simp⟩, p) ∉ l := by
  have r0 := rep_zero (R := binary64)
  have r1 := rep_one (R := binary64)
  have r4 : Rep binary64 (1 / 4) := rep_of_rep64 ⟨1, -2, by norm_num, by norm_num, by norm_num, by norm_num⟩
  have hdm : dirMin ≤ 1 / 4 := by
    have : (2 : ℝ) ^ (-500 : ℤ) ≤ (2 : ℝ) ^ (-2 : ℤ) := zpow_le_zpow_right₀ (by norm_num) (by norm_num)
    unfold dirMin
    norm_num at this ⊢
    exact this
  obtain ⟨s, -, hq⟩ := c110_tree2 (M := 8) (by norm_num) (by norm_num) (fun v : { n : ℤ // n ∈ [0, 4] } => ⟨squareAt v.1, (squareAt_fits v.2).1, (squareAt_fits v.2).2⟩)
    ⟨f0, f0⟩ ⟨le_rfl, le_rfl⟩ (fun _ => ()) (fun _ _ => false) (fun _ _ => ()) (fun _ _ => ()) () [⟨0, by simp⟩, ⟨4, by simp⟩] (by simp) rng
  obtain ⟨l, h1, -, h2, h3⟩ := hq ⟨0, 0⟩ ⟨1, 1 / 4⟩ ⟨⟨r0, r0⟩, by norm_num [Sz], ⟨r1, by norm_num, Or.inr (by rw [abs_one]; exact dirMin_le)⟩,
    ⟨r4, by norm_num, Or.inr (by rw [abs_of_pos (by norm_num)]; exact hdm)⟩, Or.inl one_ne_zero⟩
  refine ⟨s, l, h1, h2 _ (by simp) ⟨5 / 2, by norm_num, ?_⟩, fun p hp => ?_⟩
  · norm_num [Around2, along2, squareAt, rayErr64]
  · obtain ⟨-, q, -, -, t, -, -, ha, -⟩ := h3 _ p hp
    have a := ha.1.2
    have b := ha.2.1
    norm_num [along2, squareAt, rayErr64] at a b
    linarith
/-- A case in 3D with a direction along an axis, so that the code computes with infinities: the ray from `(0, 1/2, 1/2)` in the direction of `x` hits the cube `[2, 3] × [0, 1] × [0, 1]` in `f64`, and the
returned point is that of the exact ray at a parameter within the rounding error of 2. -/
theorem c110_example3 (nz : V3 Bool) : ∃ q t, intersectionN3 binary64 nz (vecR binary64 ⟨0, 1 / 2, 1 / 2⟩) (vecR binary64 ⟨1, 0, 0⟩) (boxR3 binary64 ⟨⟨2, 0, 0⟩, ⟨3, 1, 1⟩⟩) = some (someV (vecR binary64 q)) ∧
    |t - 2| ≤ rayErr64 8 ∧ Close3 (rayErr64 8) q ⟨t, 1 / 2, 1 / 2⟩ := by
  have r0 := rep_zero (R := binary64)
  have r1 := rep_one (R := binary64)
  have r2 : Rep binary64 2 := by simpa using rep_int (n := 2) (by norm_num)
  have r3 : Rep binary64 3 := by simpa using rep_int (n := 3) (by norm_num)
  have rh : Rep binary64 (1 / 2) := rep_of_rep64 ⟨1, -1, by norm_num, by norm_num, by norm_num, by norm_num⟩
  have hd0 : DirOk binary64 dirMin 0 := ⟨r0, by norm_num, Or.inl rfl⟩
  have hf : FitsRay3 binary64 8 dirMin ⟨0, 1 / 2, 1 / 2⟩ ⟨1, 0, 0⟩ ⟨⟨2, 0, 0⟩, ⟨3, 1, 1⟩⟩ :=
    ⟨⟨r0, rh, rh⟩, by norm_num [Sz3], ⟨r1, by norm_num, Or.inr (by rw [abs_one]; exact dirMin_le)⟩, hd0, hd0, Or.inl one_ne_zero,
      ⟨⟨by norm_num, by norm_num, by norm_num⟩, ⟨⟨r2, r0, r0⟩, by norm_num [Sz3]⟩, ⟨r3, r1, r1⟩, by norm_num [Sz3]⟩, by norm_num, by norm_num, by norm_num⟩
  obtain ⟨-, h2, h3, h4⟩ := c110_f64_3 (M := 8) (by norm_num) (by norm_num) nz hf
  have hs := h2 ⟨5 / 2, by norm_num, by norm_num [Around3, along3, rayErr64]⟩
  rw [h3] at hs
  obtain ⟨p, hp⟩ := Option.isSome_iff_exists.1 hs
  obtain ⟨q, rfl, -, t, t0, hc, ha, hor⟩ := h4 p hp
  have hcl : Close3 (rayErr64 8) q ⟨t, 1 / 2, 1 / 2⟩ := by
    have e : along3 ⟨0, 1 / 2, 1 / 2⟩ ⟨1, 0, 0⟩ t = (⟨t, 1 / 2, 1 / 2⟩ : V3 ℝ) := by simp [along3]
    rwa [e] at hc
  refine ⟨q, t, hp, ?_, hcl⟩
  have hδ : 0 < rayErr64 8 ∧ rayErr64 8 < 1 / 4 := by norm_num [rayErr64]
  rw [abs_le]
  constructor
  · have := ha.1.1
    simp only [along3] at this
    linarith
  · by_contra hc'
    push Not at hc'
    rcases hor with hor | ⟨ho, -⟩
    · refine hor (2 + rayErr64 8) (by linarith) ⟨⟨?_, ?_⟩, ⟨?_, ?_⟩, ?_, ?_⟩ <;> simp only [along3] <;> linarith [hδ.1, hδ.2]
    · have := ho.1.1
      simp only at this
      linarith [hδ.2]
end
end Verif.Scene
