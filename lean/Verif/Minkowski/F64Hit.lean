import Verif.Minkowski.RoundedMiss
/-!
# GJK in `f64`: a reported hit can be far from a hit (C107)

`triple_product` computes `b (a·c) - a (b·c)`. For long thin simplices both terms are nearly equal, the difference is what rounding left over, and the search direction with it. The next support point is
then one that the simplex already has, the triangle is degenerate, both edge tests give zero, and that is a hit.
-/
namespace Verif.Minkowski
open Verif Geom Primitive
open Verif.Dbvt (Rounding F64 binary64 Rep64 rnd64 rnd64_nearest lt_over64)
set_option linter.unusedSectionVars false
noncomputable section
open Classical

/-- An integer as a number of `f64`. -/
def I (n : ℤ) : Fl binary64 := toF binary64 (n : ℝ)
/-- The integer has at most 53 bits before its trailing zeros. -/
def RepI (n : ℤ) : Prop := ∃ k : ℕ, k ≤ 900 ∧ ∃ m : ℤ, |m| < 2 ^ 53 ∧ n = m * 2 ^ k
theorem repI {n : ℤ} (k : ℕ) (hk : k ≤ 900) (m : ℤ) (hm : |m| < 2 ^ 53) (h : n = m * 2 ^ k) : RepI n := ⟨k, hk, m, hm, h⟩
theorem RepI.rep {n : ℤ} (h : RepI n) : Rep binary64 (n : ℝ) := by
  obtain ⟨k, hk, m, hm, rfl⟩ := h
  refine rep_of_rep64 ⟨m, k, hm, by omega, by omega, ?_⟩
  push_cast
  rw [zpow_natCast]
variable {m n : ℤ}
theorem I_add (hm : RepI m) (hn : RepI n) : I m + I n = I (m + n) := by
  unfold I
  rw [toF_add hm.rep hn.rep]
  push_cast; rfl
theorem I_sub (hm : RepI m) (hn : RepI n) : I m - I n = I (m - n) := by
  unfold I
  rw [toF_sub hm.rep hn.rep]
  push_cast; rfl
theorem I_mul (hm : RepI m) (hn : RepI n) : I m * I n = I (m * n) := by
  unfold I
  rw [toF_mul hm.rep hn.rep]
  push_cast; rfl
theorem I_neg (hm : RepI m) : -I m = I (-m) := by
  unfold I
  rw [toF_neg hm.rep]
  push_cast; rfl
theorem I_div_one (hm : RepI m) : I m / I 1 = I m := by
  unfold I
  rw [toF_div hm.rep (repI 0 (by norm_num) 1 (by norm_num) (by norm_num)).rep]
  norm_num
theorem I_le (hm : RepI m) (hn : RepI n) : I m ≤ I n ↔ m ≤ n := by
  unfold I
  rw [toF_le hm.rep hn.rep, Int.cast_le]
theorem I_lt (hm : RepI m) (hn : RepI n) : I m < I n ↔ m < n := by
  unfold I
  rw [toF_lt hm.rep hn.rep, Int.cast_lt]
theorem I_zero : (0 : Fl binary64) = I 0 := by
  unfold I
  rw [Int.cast_zero, toF_zero]
theorem I_one : (1 : Fl binary64) = I 1 := by
  unfold I
  rw [Int.cast_one, toF_one]

/-- Numbers of `f64` of at least `2^59` are multiples of `2^7`. -/
theorem rep64_large {a : ℝ} (h : Rep64 a) (ha : (2 : ℝ) ^ 59 ≤ |a|) : ∃ k : ℤ, a = 128 * k := by
  obtain ⟨m, e, h1, h2, h3, rfl⟩ := h
  have hp : (0 : ℝ) < (2 : ℝ) ^ e := zpow_pos (by norm_num) e
  have h5 : |(m : ℝ)| < 2 ^ 53 := by
    have : ((|m| : ℤ) : ℝ) < ((2 ^ 53 : ℤ) : ℝ) := Int.cast_lt.2 h1
    rw [Int.cast_abs] at this
    have hb : ((2 ^ 53 : ℤ) : ℝ) = 2 ^ 53 := by norm_num
    rwa [hb] at this
  have he : 7 ≤ e := by
    by_contra hlt
    push Not at hlt
    have h4 : (2 : ℝ) ^ e ≤ (2 : ℝ) ^ (6 : ℤ) := zpow_le_zpow_right₀ (by norm_num) (by omega)
    rw [abs_mul, abs_of_pos hp] at ha
    have h6 : |(m : ℝ)| * (2 : ℝ) ^ e ≤ |(m : ℝ)| * (2 : ℝ) ^ (6 : ℤ) := mul_le_mul_of_nonneg_left h4 (abs_nonneg _)
    norm_num at h5 h6 ha
    linarith
  obtain ⟨l, hl⟩ := Int.eq_ofNat_of_zero_le (show 0 ≤ e - 7 by omega)
  refine ⟨m * 2 ^ l, ?_⟩
  rw [show e = (l : ℤ) + 7 by omega, zpow_add₀ (by norm_num), zpow_natCast]
  push_cast
  norm_num
  ring
/-- Integers next to a large multiple of `2^7` are rounded to it. -/
theorem I_round {k : ℤ} (hk : 2 ^ 53 ≤ k) (hr : RepI (128 * k)) (d : ℤ) (h0 : 0 ≤ d) (h1 : d ≤ 32) (hb : 128 * k + d ≤ 2 ^ 200) : I (128 * k + d) = I (128 * k) := by
  have rk := rep64_of_rep hr.rep
  have hkr : (2 : ℝ) ^ 53 ≤ (k : ℝ) := by exact_mod_cast hk
  have hd0 : (0 : ℝ) ≤ (d : ℝ) := by exact_mod_cast h0
  have hd1 : (d : ℝ) ≤ 32 := by exact_mod_cast h1
  have hx : |((128 * k + d : ℤ) : ℝ)| ≤ (2 : ℝ) ^ (1022 : ℤ) := by
    have h2 : ((128 * k + d : ℤ) : ℝ) ≤ ((2 ^ 200 : ℤ) : ℝ) := Int.cast_le.2 hb
    have h3 : (0 : ℝ) ≤ ((128 * k + d : ℤ) : ℝ) := by
      push_cast
      linarith [show (0 : ℝ) ≤ 2 ^ 53 by positivity]
    rw [abs_of_nonneg h3]
    refine h2.trans ?_
    rw [Int.cast_pow, Int.cast_ofNat, ← zpow_natCast]
    exact zpow_le_zpow_right₀ (by norm_num) (by norm_num)
  obtain ⟨a, ha, e, hn⟩ := rnd64_nearest (lt_over64 hx)
  have h2 := hn _ rk
  push_cast at h2
  rw [show (128 : ℝ) * k - (128 * k + d) = -d by ring, abs_neg, abs_of_nonneg hd0] at h2
  rw [abs_le] at h2
  have hbig : (2 : ℝ) ^ 59 ≤ |a| := by
    refine le_trans ?_ (le_abs_self a)
    norm_num at hkr ⊢
    linarith
  obtain ⟨l, rfl⟩ := rep64_large ha hbig
  have hl : l = k := by
    have h3 : (128 : ℝ) * l - 128 * k ≤ 64 := by linarith
    have h4 : -(64 : ℝ) ≤ 128 * l - 128 * k := by linarith
    have h5 : 128 * l - 128 * k ≤ 64 := by exact_mod_cast h3
    have h6 : -64 ≤ 128 * l - 128 * k := by exact_mod_cast h4
    omega
  subst hl
  have e' : I (128 * l + d) = Dbvt.F64.fin _ ha := e
  rw [e']
  have := toF64 ha
  unfold I
  rw [← this]
  push_cast
  rfl

/-! ## The scene: a segment from `(2^30, 1)` to `(2^31, -1)` and a particle at the origin -/

/-- The transform of the segment: moved by `(0, -1)`. -/
def hitD : Dec2 ℝ := ⟨1, ⟨⟨1, 0⟩, ⟨0, 1⟩⟩, ⟨0, -1⟩⟩
/-- The transform of the particle: the identity. -/
def hitE : Dec2 ℝ := ⟨1, ⟨⟨1, 0⟩, ⟨0, 1⟩⟩, 0⟩
/-- The segment, in its own frame. -/
def hitLine : Flat2 ℝ := .line ⟨⟨2 ^ 30, 2⟩, ⟨2 ^ 31, 0⟩⟩

/-- A vector of integers. -/
def W (x y : ℤ) : V2 (Fl binary64) := ⟨I x, I y⟩
theorem W_sub {x y z w : ℤ} (hx : RepI x) (hy : RepI y) (hz : RepI z) (hw : RepI w) : W x y - W z w = W (x - z) (y - w) := by
  show (⟨I x - I z, I y - I w⟩ : V2 (Fl binary64)) = _
  rw [I_sub hx hz, I_sub hy hw]; rfl
theorem W_neg {x y : ℤ} (hx : RepI x) (hy : RepI y) : -W x y = W (-x) (-y) := by
  show (⟨-I x, -I y⟩ : V2 (Fl binary64)) = _
  rw [I_neg hx, I_neg hy]; rfl
theorem W_dot {x y z w : ℤ} (hx : RepI x) (hy : RepI y) (hz : RepI z) (hw : RepI w) (h1 : RepI (x * z)) (h2 : RepI (y * w)) : (W x y).dot (W z w) = I (x * z + y * w) := by
  show I x * I z + I y * I w = _
  rw [I_mul hx hz, I_mul hy hw, I_add h1 h2]

theorem r0 : RepI 0 := repI 0 (by norm_num) 0 (by norm_num) (by norm_num)
theorem r1 : RepI 1 := repI 0 (by norm_num) 1 (by norm_num) (by norm_num)
theorem rm1 : RepI (-1) := repI 0 (by norm_num) (-1) (by norm_num) (by norm_num)
theorem r2 : RepI 2 := repI 0 (by norm_num) 2 (by norm_num) (by norm_num)
theorem rm2 : RepI (-2) := repI 0 (by norm_num) (-2) (by norm_num) (by norm_num)
theorem r30 : RepI (2 ^ 30) := repI 0 (by norm_num) (2 ^ 30) (by norm_num) (by norm_num)
theorem r31 : RepI (2 ^ 31) := repI 0 (by norm_num) (2 ^ 31) (by norm_num) (by norm_num)
theorem rm30 : RepI (-2 ^ 30) := repI 0 (by norm_num) (-2 ^ 30) (by norm_num) (by norm_num)
theorem rm31 : RepI (-2 ^ 31) := repI 0 (by norm_num) (-2 ^ 31) (by norm_num) (by norm_num)

theorem point_W (y0 : ℤ) (hy : RepI y0) {x y : ℤ} (hx : RepI x) (hy' : RepI y) :
    pointG2 (⟨I 1, ⟨W 1 0, W 0 1⟩, W 0 y0⟩ : Dec2 (Fl binary64)) (W x y) = W x (y + y0) := by
  show (⟨I 1 * (I x * I 1) + I 0 * (I y * I 1) + I 0, I 0 * (I x * I 1) + I 1 * (I y * I 1) + I y0⟩ : V2 (Fl binary64)) = _
  rw [I_mul hx r1, I_mul hy' r1, mul_one, mul_one, I_mul r1 hx, I_mul r0 hy', I_mul r0 hx, I_mul r1 hy', one_mul, zero_mul, one_mul, zero_mul, I_add hx r0, add_zero, I_add hx r0, add_zero, I_add r0 hy', zero_add,
    I_add hy' hy]
  rfl
theorem inv_W (y0 : ℤ) {x y : ℤ} (hx : RepI x) (hy : RepI y) : invVectorG2 (⟨I 1, ⟨W 1 0, W 0 1⟩, W 0 y0⟩ : Dec2 (Fl binary64)) (W x y) = some (W x y) := by
  unfold invVectorG2
  rw [if_neg (by rw [I_zero]; exact fun h => absurd ((I_le r1 r0).1 h.le) (by norm_num))]
  show some (⟨I 1 * (I x / I 1) + I 0 * (I y / I 1), I 0 * (I x / I 1) + I 1 * (I y / I 1)⟩ : V2 (Fl binary64)) = _
  rw [I_div_one hx, I_div_one hy, I_mul r1 hx, I_mul r0 hy, I_mul r0 hx, I_mul r1 hy, one_mul, zero_mul, one_mul, zero_mul, I_add hx r0, add_zero, I_add r0 hy, zero_add]
  rfl
theorem dec_W : decF binary64 hitD = ⟨I 1, ⟨W 1 0, W 0 1⟩, W 0 (-1)⟩ ∧ decF binary64 hitE = ⟨I 1, ⟨W 1 0, W 0 1⟩, W 0 0⟩ := by
  constructor
  · unfold decF hitD W I toV2
    push_cast
    rfl
  · unfold decF hitE W I toV2
    push_cast
    rfl
theorem line_W : hitLine.toFl binary64 = .line ⟨W (2 ^ 30) 2, W (2 ^ 31) 0⟩ := by
  unfold hitLine Flat2.toFl W I toV2
  norm_num

/-- The support points of the segment: one end for directions up, the other for directions down. -/
theorem support_W {x y : ℤ} (hx : RepI x) (hy : RepI y) (h1 : RepI (x * 2 ^ 30)) (h2 : RepI (y * -2)) (h3 : RepI (x * 2 ^ 30 + y * -2)) :
    (hitLine.toFl binary64).supportG (decF binary64 hitD) (W x y) = .ok (if 0 ≤ x * 2 ^ 30 + y * -2 then W (2 ^ 31) (-1) else W (2 ^ 30) 1) := by
  rw [dec_W.1, supportG_eq _ _ (inv_W (-1) hx hy), line_W]
  have e : W (2 ^ 31) 0 - W (2 ^ 30) 2 = W (2 ^ 30) (-2) := by
    rw [W_sub r31 r0 r30 r2]
    norm_num
  show Res.ok (pointG2 _ (if (W x y).dot (W (2 ^ 31) 0 - W (2 ^ 30) 2) ≥ 0 then W (2 ^ 31) 0 else W (2 ^ 30) 2)) = _
  rw [e, W_dot hx hy r30 rm2 h1 h2, I_zero]
  by_cases h : 0 ≤ x * 2 ^ 30 + y * -2
  · rw [if_pos ((I_le r0 h3).2 h), if_pos h, point_W (-1) rm1 r31 r0]
    norm_num
  · rw [if_neg (fun h' => h ((I_le r0 h3).1 h')), if_neg h, point_W (-1) rm1 r30 r2]
    norm_num
theorem particle_W (d : V2 (Fl binary64)) : ((Flat2.particle : Flat2 ℝ).toFl binary64).supportG (decF binary64 hitE) d = .ok (W 0 0) := by
  show Res.ok (pointG2 _ 0) = _
  have : (0 : V2 (Fl binary64)) = W 0 0 := by
    show (⟨0, 0⟩ : V2 (Fl binary64)) = _
    rw [I_zero]; rfl
  rw [dec_W.2, this, point_W 0 r0 r0 r0]
  norm_num
theorem mink_W {z w : ℤ} (d : V2 (Fl binary64)) (hz : RepI z) (hw : RepI w) (h : (hitLine.toFl binary64).supportG (decF binary64 hitD) d = .ok (W z w)) :
    SP.fromMinkowski ((hitLine.toFl binary64).supportG (decF binary64 hitD)) (((Flat2.particle : Flat2 ℝ).toFl binary64).supportG (decF binary64 hitE)) d = .ok ⟨W z w, W z w, W 0 0⟩ := by
  unfold SP.fromMinkowski
  rw [h, Res.bind_ok, particle_W, Res.bind_ok, W_sub hz hw r0 r0, sub_zero, sub_zero]
  rfl

theorem eps_small {n : ℤ} (hn : RepI n) (h : 1 ≤ n) : ¬ I n ≤ toF binary64 eps64 := by
  intro h'
  unfold I at h'
  rw [toF_le hn.rep (rep_of_rep64 ⟨1, -52, by norm_num, by norm_num, by norm_num, by simp [eps64]⟩)] at h'
  have h1 : (1 : ℝ) ≤ (n : ℝ) := by exact_mod_cast h
  have h2 : eps64 ≤ 1 / 2 := by
    unfold eps64
    norm_num
  linarith
theorem round_60 : I (2 ^ 60 + 4) = I (2 ^ 60) := by
  have := I_round (k := 2 ^ 53) le_rfl (repI 60 (by norm_num) 1 (by norm_num) (by norm_num)) 4 (by norm_num) (by norm_num) (by norm_num)
  norm_num at this ⊢
  exact this
theorem round_61 : I (2 ^ 61 + 2) = I (2 ^ 61) := by
  have := I_round (k := 2 ^ 54) (by norm_num) (repI 61 (by norm_num) 1 (by norm_num) (by norm_num)) 2 (by norm_num) (by norm_num) (by norm_num)
  norm_num at this ⊢
  exact this

/-- The search direction of the segment: the first component is lost. -/
theorem triple_W : tripleProductG (W (-2 ^ 30) 2) (W (-2 ^ 31) 1) (W (-2 ^ 30) 2) = W 0 (-3 * 2 ^ 60) := by
  have r60 : RepI (2 ^ 60) := repI 60 (by norm_num) 1 (by norm_num) (by norm_num)
  have r61 : RepI (2 ^ 61) := repI 61 (by norm_num) 1 (by norm_num) (by norm_num)
  have r62 : RepI (2 ^ 62) := repI 62 (by norm_num) 1 (by norm_num) (by norm_num)
  have r4 : RepI 4 := repI 0 (by norm_num) 4 (by norm_num) (by norm_num)
  have e1 : (W (-2 ^ 30) 2).dot (W (-2 ^ 30) 2) = I (2 ^ 60) := by
    rw [W_dot rm30 r2 rm30 r2 (by norm_num; exact r60) (by norm_num; exact r4), ← round_60]
    norm_num
  have e2 : (W (-2 ^ 31) 1).dot (W (-2 ^ 30) 2) = I (2 ^ 61) := by
    rw [W_dot rm31 r1 rm30 r2 (by norm_num; exact r61) (by norm_num; exact r2), ← round_61]
    norm_num
  have e1' : I (-2 ^ 30) * I (-2 ^ 30) + I 2 * I 2 = I (2 ^ 60) := e1
  have e2' : I (-2 ^ 31) * I (-2 ^ 30) + I 1 * I 2 = I (2 ^ 61) := e2
  unfold tripleProductG
  show (⟨I (-2 ^ 31) * (I (-2 ^ 30) * I (-2 ^ 30) + I 2 * I 2) - I (-2 ^ 30) * (I (-2 ^ 31) * I (-2 ^ 30) + I 1 * I 2),
    I 1 * (I (-2 ^ 30) * I (-2 ^ 30) + I 2 * I 2) - I 2 * (I (-2 ^ 31) * I (-2 ^ 30) + I 1 * I 2)⟩ : V2 (Fl binary64)) = _
  have r91 : RepI (-2 ^ 91) := repI 91 (by norm_num) (-1) (by norm_num) (by norm_num)
  rw [e1', e2', I_mul rm31 r60, I_mul rm30 r61, I_mul r1 r60, I_mul r2 r61, I_sub (by norm_num at r91 ⊢; exact r91) (by norm_num at r91 ⊢; exact r91), I_sub (by norm_num at r60 ⊢; exact r60) (by norm_num at r62 ⊢; exact r62)]
  unfold W
  norm_num

/-- The run in `f64`: three steps to a hit. -/
theorem hit_run : gjkIntersectG2 (toF binary64 eps64) 100 ((hitLine.toFl binary64).supportG (decF binary64 hitD)) (((Flat2.particle : Flat2 ℝ).toFl binary64).supportG (decF binary64 hitE))
    (pointG2 (decF binary64 hitD) 0) (pointG2 (decF binary64 hitE) 0) =
      .ok (some [⟨W (2 ^ 30) 1, W (2 ^ 30) 1, W 0 0⟩, ⟨W (2 ^ 31) (-1), W (2 ^ 31) (-1), W 0 0⟩, ⟨W (2 ^ 31) (-1), W (2 ^ 31) (-1), W 0 0⟩]) := by
  have z : (0 : V2 (Fl binary64)) = W 0 0 := by
    show (⟨0, 0⟩ : V2 (Fl binary64)) = _
    rw [I_zero]; rfl
  have r60 : RepI (2 ^ 60) := repI 60 (by norm_num) 1 (by norm_num) (by norm_num)
  have r3 : RepI (-3 * 2 ^ 60) := repI 60 (by norm_num) (-3) (by norm_num) (by norm_num)
  have r3' : RepI (3 * 2 ^ 60) := repI 60 (by norm_num) 3 (by norm_num) (by norm_num)
  have r6 : RepI (6 * 2 ^ 60) := repI 60 (by norm_num) 6 (by norm_num) (by norm_num)
  -- the three support points
  have s1 : (hitLine.toFl binary64).supportG (decF binary64 hitD) (W 0 1) = .ok (W (2 ^ 30) 1) := by
    rw [support_W r0 r1 (by norm_num; exact r0) (by norm_num; exact rm2) (by norm_num; exact rm2)]
    norm_num
  have s2 : (hitLine.toFl binary64).supportG (decF binary64 hitD) (W 0 (-1)) = .ok (W (2 ^ 31) (-1)) := by
    rw [support_W r0 rm1 (by norm_num; exact r0) (by norm_num; exact r2) (by norm_num; exact r2)]
    norm_num
  have s3 : (hitLine.toFl binary64).supportG (decF binary64 hitD) (W 0 (-3 * 2 ^ 60)) = .ok (W (2 ^ 31) (-1)) := by
    rw [support_W r0 r3 (by norm_num; exact r0) (by norm_num at r6 ⊢; exact r6) (by norm_num at r6 ⊢; exact r6)]
    norm_num
  have m1 := mink_W _ r30 r1 s1
  have m2 := mink_W _ r31 rm1 s2
  have m3 := mink_W _ r31 rm1 s3
  -- they are all beyond the origin, as far as `f64` can tell
  have d1 : (W (2 ^ 30) 1).dot (W 0 1) = I 1 := by
    rw [W_dot r30 r1 r0 r1 (by norm_num; exact r0) (by norm_num; exact r1)]; norm_num
  have d2 : (W (2 ^ 31) (-1)).dot (W 0 (-1)) = I 1 := by
    rw [W_dot r31 rm1 r0 rm1 (by norm_num; exact r0) (by norm_num; exact r1)]; norm_num
  have d3 : (W (2 ^ 31) (-1)).dot (W 0 (-3 * 2 ^ 60)) = I (3 * 2 ^ 60) := by
    rw [W_dot r31 rm1 r0 r3 (by norm_num; exact r0) (by norm_num at r3' ⊢; exact r3')]; norm_num
  have pos : ∀ {n : ℤ}, RepI n → 0 < n → ¬ I n ≤ 0 := by
    intro n hn h h'
    rw [I_zero, I_le hn r0] at h'
    omega
  -- the steps
  have q1 : reduceG2 (toF binary64 eps64) [⟨W (2 ^ 30) 1, W (2 ^ 30) 1, W 0 0⟩] (-W 0 1) = (false, [⟨W (2 ^ 30) 1, W (2 ^ 30) 1, W 0 0⟩], -W 0 1) := rfl
  have q2 : ∀ d, reduceG2 (toF binary64 eps64) [⟨W (2 ^ 30) 1, W (2 ^ 30) 1, W 0 0⟩, ⟨W (2 ^ 31) (-1), W (2 ^ 31) (-1), W 0 0⟩] d =
      (false, [⟨W (2 ^ 30) 1, W (2 ^ 30) 1, W 0 0⟩, ⟨W (2 ^ 31) (-1), W (2 ^ 31) (-1), W 0 0⟩], W 0 (-3 * 2 ^ 60)) := by
    intro d
    unfold reduceG2
    dsimp only
    have e1 : W (2 ^ 30) 1 - W (2 ^ 31) (-1) = W (-2 ^ 30) 2 := by
      rw [W_sub r30 r1 r31 rm1]; norm_num
    have e2 : -W (2 ^ 31) (-1) = W (-2 ^ 31) 1 := by
      rw [W_neg r31 rm1]; norm_num
    rw [e1, e2, triple_W, if_neg]
    rintro ⟨-, -, h⟩
    have e3 : -(W 0 (-3 * 2 ^ 60)).y = I (3 * 2 ^ 60) := by
      show -I (-3 * 2 ^ 60) = _
      rw [I_neg r3]; norm_num
    rw [e3] at h
    exact eps_small r3' (by norm_num) h
  have q3 : ∀ d, reduceG2 (toF binary64 eps64) [⟨W (2 ^ 30) 1, W (2 ^ 30) 1, W 0 0⟩, ⟨W (2 ^ 31) (-1), W (2 ^ 31) (-1), W 0 0⟩, ⟨W (2 ^ 31) (-1), W (2 ^ 31) (-1), W 0 0⟩] d =
      (true, [⟨W (2 ^ 30) 1, W (2 ^ 30) 1, W 0 0⟩, ⟨W (2 ^ 31) (-1), W (2 ^ 31) (-1), W 0 0⟩, ⟨W (2 ^ 31) (-1), W (2 ^ 31) (-1), W 0 0⟩], d) := by
    intro d
    unfold reduceG2
    dsimp only
    have e1 : W (2 ^ 30) 1 - W (2 ^ 31) (-1) = W (-2 ^ 30) 2 := by
      rw [W_sub r30 r1 r31 rm1]; norm_num
    have e2 : -W (2 ^ 31) (-1) = W (-2 ^ 31) 1 := by
      rw [W_neg r31 rm1]; norm_num
    have e3 : W (2 ^ 31) (-1) - W (2 ^ 31) (-1) = W 0 0 := by
      rw [W_sub r31 rm1 r31 rm1]; norm_num
    have t1 : tripleProductG (W (-2 ^ 30) 2) (W 0 0) (W 0 0) = W 0 0 := by
      show (⟨I 0 * (I (-2 ^ 30) * I 0 + I 2 * I 0) - I (-2 ^ 30) * (I 0 * I 0 + I 0 * I 0), I 0 * (I (-2 ^ 30) * I 0 + I 2 * I 0) - I 2 * (I 0 * I 0 + I 0 * I 0)⟩ : V2 (Fl binary64)) = _
      rw [I_mul rm30 r0, I_mul r2 r0, I_mul r0 r0, mul_zero, mul_zero, mul_zero, I_add r0 r0, add_zero, I_mul r0 r0, mul_zero, I_mul rm30 r0, I_mul r2 r0, mul_zero, mul_zero, I_sub r0 r0, sub_zero]
      rfl
    have t2 : tripleProductG (W 0 0) (W (-2 ^ 30) 2) (W (-2 ^ 30) 2) = W 0 0 := by
      have r4 : RepI 4 := repI 0 (by norm_num) 4 (by norm_num) (by norm_num)
      have e1 : (W (-2 ^ 30) 2).dot (W (-2 ^ 30) 2) = I (2 ^ 60) := by
        rw [W_dot rm30 r2 rm30 r2 (by norm_num; exact r60) (by norm_num; exact r4), ← round_60]
        norm_num
      have e1' : I (-2 ^ 30) * I (-2 ^ 30) + I 2 * I 2 = I (2 ^ 60) := e1
      show (⟨I (-2 ^ 30) * (I 0 * I (-2 ^ 30) + I 0 * I 2) - I 0 * (I (-2 ^ 30) * I (-2 ^ 30) + I 2 * I 2),
        I 2 * (I 0 * I (-2 ^ 30) + I 0 * I 2) - I 0 * (I (-2 ^ 30) * I (-2 ^ 30) + I 2 * I 2)⟩ : V2 (Fl binary64)) = _
      rw [e1', I_mul r0 rm30, I_mul r0 r2, zero_mul, zero_mul, I_add r0 r0, add_zero, I_mul rm30 r0, I_mul r2 r0, mul_zero, mul_zero, I_mul r0 r60, zero_mul, I_sub r0 r0, sub_zero]
      rfl
    have z1 : (W 0 0).dot (W (-2 ^ 31) 1) = I 0 := by
      rw [W_dot r0 r0 rm31 r1 (by norm_num; exact r0) (by norm_num; exact r0)]; norm_num
    rw [e1, e2, e3, t1, t2, z1, ← I_zero, if_neg (lt_irrefl _), if_neg (lt_irrefl _)]
  have e0 : firstDirectionG2 (toF binary64 eps64) (pointG2 (decF binary64 hitD) 0) (pointG2 (decF binary64 hitE) 0) = W 0 1 := by
    unfold firstDirectionG2
    dsimp only
    have e : pointG2 (decF binary64 hitE) 0 - pointG2 (decF binary64 hitD) 0 = W 0 1 := by
      rw [dec_W.1, dec_W.2, z, point_W 0 r0 r0 r0, point_W (-1) rm1 r0 r0, W_sub r0 (by norm_num; exact r0) r0 (by norm_num; exact rm1)]
      norm_num
    rw [e, if_neg]
    rintro ⟨-, h, -⟩
    exact eps_small r1 le_rfl h
  have e1 : -W 0 1 = W 0 (-1) := by
    rw [W_neg r0 r1]; norm_num
  unfold gjkIntersectG2 gjkRunG2
  dsimp only
  rw [e0, m1, Res.bind_ok, if_neg (show ¬ (Inner.dot (W (2 ^ 30) 1) (W 0 1) ≤ 0) by rw [show Inner.dot (W (2 ^ 30) 1) (W 0 1) = I 1 from d1]; exact pos r1 (by norm_num)), e1]
  unfold gjkLoop
  rw [m2, Res.bind_ok, if_neg (show ¬ (Inner.dot (W (2 ^ 31) (-1)) (W 0 (-1)) ≤ 0) by rw [show Inner.dot (W (2 ^ 31) (-1)) (W 0 (-1)) = I 1 from d2]; exact pos r1 (by norm_num))]
  dsimp only [List.cons_append, List.nil_append]
  rw [q2]
  dsimp only
  rw [if_neg (by simp)]
  unfold gjkLoop
  rw [m3, Res.bind_ok, if_neg (show ¬ (Inner.dot (W (2 ^ 31) (-1)) (W 0 (-3 * 2 ^ 60)) ≤ 0) by rw [show Inner.dot (W (2 ^ 31) (-1)) (W 0 (-3 * 2 ^ 60)) = I (3 * 2 ^ 60) from d3]; exact pos r3' (by norm_num))]
  dsimp only [List.cons_append, List.nil_append]
  rw [q3]
  rfl

/-- The shapes of the scene are far apart. -/
theorem hit_far {p q : V2 ℝ} (hp : Image hitD.tr hitLine.prim.Points p) (hq : Image hitE.tr (Flat2.particle : Flat2 ℝ).prim.Points q) : 2 ^ 30 ≤ (p - q).norm := by
  obtain ⟨p', ⟨u, h0, h1, rfl⟩, rfl⟩ := hp
  obtain ⟨q', hq, rfl⟩ := hq
  have hq : q' = 0 := hq
  subst hq
  refine le_trans ?_ (Real.abs_le_sqrt (x := (2 : ℝ) ^ 30 + u * 2 ^ 30) ?_)
  · refine le_trans ?_ (le_abs_self _)
    have : (0 : ℝ) ≤ u * 2 ^ 30 := mul_nonneg h0 (by positivity)
    linarith
  · simp only [Line2.at, hitD, hitE, Dec2.tr, M2.apply, V2.dot, V2.sub_x, V2.sub_y, V2.add_x, V2.add_y, V2.mul_x, V2.mul_y, V2.zero_x, V2.zero_y]
    have : 0 ≤ (2 * u - 1) ^ 2 := sq_nonneg _
    norm_num
    nlinarith

/-- **C107 is false**: there are two shapes, a segment and a particle, at a distance of `2^30` from each other, whose coordinates are numbers of `f64` of at most `2^31`, for which GJK in `f64` reports an
intersection. In exact arithmetic the same run reports none. -/
theorem c107_false : ∃ (s t : Flat2 ℝ) (D E : Dec2 ℝ), s.Fits binary64 (2 ^ 31) ∧ t.Fits binary64 (2 ^ 31) ∧ Fits2 binary64 (2 ^ 31) D ∧ Fits2 binary64 (2 ^ 31) E ∧
    (∃ x, gjkIntersectG2 (toF binary64 eps64) 100 ((s.toFl binary64).supportG (decF binary64 D)) ((t.toFl binary64).supportG (decF binary64 E)) (pointG2 (decF binary64 D) 0) (pointG2 (decF binary64 E) 0) =
      .ok (some x)) ∧
    gjkIntersect reduce2 100 (s.prim.supportPoint D.tr) (t.prim.supportPoint E.tr) (D.tr.point 0) (E.tr.point 0) = .ok none ∧
    ∀ p q, Image D.tr s.prim.Points p → Image E.tr t.prim.Points q → 2 ^ 30 ≤ (p - q).norm := by
  refine ⟨hitLine, .particle, hitD, hitE, ?_, trivial, ?_, ?_, ⟨_, hit_run⟩, ?_, fun p q hp hq => hit_far hp hq⟩
  · have i30 := r30.rep
    have i31 := r31.rep
    have i2 := r2.rep
    have i0 := r0.rep
    push_cast at i30 i31 i2 i0
    exact ⟨⟨⟨by norm_num at i30 ⊢; exact i30, i2⟩, ⟨by norm_num, by norm_num⟩⟩, ⟨⟨by norm_num at i31 ⊢; exact i31, i0⟩, ⟨by norm_num, by norm_num⟩⟩⟩
  · have i1 := rm1.rep
    push_cast at i1
    exact ⟨rfl, ⟨rep_one, rep_zero⟩, ⟨rep_zero, rep_one⟩, ⟨by norm_num [hitD], by norm_num [hitD]⟩, ⟨by norm_num [hitD], by norm_num [hitD]⟩, ⟨rep_zero, i1⟩, ⟨by norm_num [hitD], by norm_num [hitD]⟩⟩
  · exact ⟨rfl, ⟨rep_one, rep_zero⟩, ⟨rep_zero, rep_one⟩, ⟨by norm_num [hitE], by norm_num [hitE]⟩, ⟨by norm_num [hitE], by norm_num [hitE]⟩, ⟨rep_zero, rep_zero⟩, ⟨by norm_num [hitE], by norm_num [hitE]⟩⟩
  · have o1 : hitD.rot.Orthogonal := turn_orthogonal ⟨1, 1, Or.inl rfl, Or.inl rfl, Or.inl rfl⟩
    have o2 : hitE.rot.Orthogonal := turn_orthogonal ⟨1, 1, Or.inl rfl, Or.inl rfl, Or.inl rfl⟩
    obtain ⟨o, ho, h⟩ := c53_prim2 hitLine.prim (Flat2.particle : Flat2 ℝ).prim trivial trivial hitD hitE o1 o2 (by norm_num [hitD]) (by norm_num [hitE]) 100
    rw [ho]
    cases o with
    | none => rfl
    | some x =>
      obtain ⟨⟨p, hp, hq⟩, -⟩ := h x rfl
      have := hit_far hp hq
      have z : (p - p).norm = 0 := by
        rw [show p - p = 0 by ext <;> simp]
        simp [V2.norm, V2.dot]
      rw [z] at this
      norm_num at this

/-- **C107, what does hold in `f64`**: a reported simplex has three points; each of them is, up to rounding, the difference of a point of one shape and a point of the other, and these points are
returned with it. -/
theorem c107_f64_partial {M : ℝ} (hM : 1 ≤ M) (hM' : M ≤ 2 ^ 249) {s t : Flat2 ℝ} {D E : Dec2 ℝ} (hs : s.Fits binary64 M) (ht : t.Fits binary64 M) (hD : Fits2 binary64 M D) (hF : Fits2 binary64 M E)
    (gs : s.Fine (2 ^ 170)) (gt : t.Fine (2 ^ 170)) (gD : Fine2 (2 ^ 170) D) (gE : Fine2 (2 ^ 170) E) (n : Nat) :
    ∃ o, gjkIntersectG2 (toF binary64 eps64) n ((s.toFl binary64).supportG (decF binary64 D)) ((t.toFl binary64).supportG (decF binary64 E)) (pointG2 (decF binary64 D) 0) (pointG2 (decF binary64 E) 0) = .ok o ∧
      ∀ x, o = some x → x.length = 3 ∧ ∀ a ∈ x, ∃ v p q p' q', a = ⟨toV2 binary64 v, toV2 binary64 p', toV2 binary64 q'⟩ ∧ (Rp binary64 v ∧ Rp binary64 p' ∧ Rp binary64 q') ∧
        Image D.tr s.prim.Points p ∧ Image E.tr t.prim.Points q ∧ Sz (40 * ((2 : ℝ) ^ (-53 : ℤ) * M)) (v - (p - q)) ∧ Sz (40 * ((2 : ℝ) ^ (-53 : ℤ) * M)) (p' - p) ∧ Sz (40 * ((2 : ℝ) ^ (-53 : ℤ) * M)) (q' - q) := by
  obtain ⟨o, ho, -, h⟩ := run_f64 hM hM' hs ht hD hF gs gt gD gE n
  refine ⟨o.toOption, ?_, ?_⟩
  · unfold gjkIntersectG2
    rw [ho, Res.bind_ok]
    rfl
  · intro x hx
    cases o with
    | miss => cases hx
    | exhausted => cases hx
    | hit y =>
      injection hx with hx
      subst hx
      obtain ⟨h3, h4⟩ := h y rfl
      refine ⟨h3, fun a ha => ?_⟩
      obtain ⟨v, p', q', p, q, hp, hq, e, r, e1, e2, e3⟩ := h4 a ha
      exact ⟨v, p, q, p', q', e, r, hp, hq, e1, e2, e3⟩
end
end Verif.Minkowski
