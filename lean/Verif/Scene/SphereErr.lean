import Verif.Scene.RoundErr
import Verif.Scene.F64Culling
/-!
# Bounding spheres in rounded arithmetic (C119): errors of `union`, `contains` and `intersects`
-/
namespace Verif.Scene
open Verif Geom Primitive Minkowski
open Verif.Dbvt (Rounding SphereF subF mag2F)
set_option linter.unusedSectionVars false
noncomputable section
open Classical
variable {F : Type} [LinearOrder F] {R : Rounding F} {u η Ω N C P : ℝ}

/-- The arithmetic for spheres with coordinates and radii up to `N`: the standard model, a smallest positive number that is not too small, and `N` far from underflow and overflow. -/
structure TreeStd (R : Rounding F) (u η Ω N : ℝ) : Prop where
  std : Std R u η Ω
  u' : u ≤ 1 / 4096
  ηu : η ≤ u
  tiny : ∀ x, Rep R x → 0 < x → η ≤ x
  N0 : 0 < N
  low : 32 * η ≤ u * ((u * N) * (u * N))
  high : 256 * (N * N) ≤ Ω
  high' : 256 * N ≤ Ω

theorem radd {x y : ℝ} (hx : Rep R x) (hy : Rep R y) : R.add (toF R x) (toF R y) = toF R (x + y) := toF_add hx hy
theorem rsub {x y : ℝ} (hx : Rep R x) (hy : Rep R y) : R.sub (toF R x) (toF R y) = toF R (x - y) := toF_sub hx hy
theorem rmul {x y : ℝ} (hx : Rep R x) (hy : Rep R y) : R.mul (toF R x) (toF R y) = toF R (x * y) := toF_mul hx hy
theorem rdiv {x y : ℝ} (hx : Rep R x) (hy : Rep R y) : R.div (toF R x) (toF R y) = toF R (x / y) := toF_div hx hy
theorem rsqrt {x : ℝ} (hx : Rep R x) : R.sqrt (toF R x) = toF R (Real.sqrt x) := sqrtF_toF hx
theorem toF_mono {x y : ℝ} (h : x ≤ y) : toF R x ≤ toF R y := R.rnd_mono (EReal.coe_le_coe_iff.2 h)
/-- Rounding keeps bounds that are representable. -/
theorem fl_ge {x y z : ℝ} (hy : Rep R y) (hz : Rep R z) (e : toF R x = toF R y) (h : z ≤ x) : z ≤ y := by
  rw [← toF_le hz hy, ← e]
  exact toF_mono h
theorem fl_below {x y z : ℝ} (hy : Rep R y) (hz : Rep R z) (e : toF R x = toF R y) (h : x ≤ z) : y ≤ z := by
  rw [← toF_le hy hz, ← e]
  exact toF_mono h

theorem TreeStd.eps (h : TreeStd R u η Ω N) : 0 ≤ u * N ∧ η ≤ u * N ∧ 21 * η ≤ (u * N) * (u * N) ∧ 0 ≤ η ∧ 0 ≤ u := by
  have hu := h.std.u0
  have hη := h.std.η0
  have e0 : 0 ≤ u * N := mul_nonneg hu h.N0.le
  have l := h.low
  have hu1 : u ≤ 1 := by linarith [h.u']
  set ε := u * N
  have q0 : 0 ≤ ε * ε := mul_nonneg e0 e0
  have l1 : u * (ε * ε) ≤ 1 * (ε * ε) := mul_le_mul_of_nonneg_right hu1 q0
  refine ⟨e0, ?_, by linarith, hη, hu⟩
  rcases le_total ε 1 with h1 | h1
  · have : ε * ε ≤ 1 * ε := mul_le_mul_of_nonneg_right h1 e0
    linarith
  · linarith [h.std.η1]

/-- One component of the difference of two points, and its square. -/
theorem comp_sq_err (h : TreeStd R u η Ω N) {a b : ℝ} (ra : Rep R a) (rb : Rep R b) (ha : |a| ≤ N) (hb : |b| ≤ N) :
    ∃ x p, Rep R x ∧ Rep R p ∧ R.sub (toF R a) (toF R b) = toF R x ∧ R.mul (toF R x) (toF R x) = toF R p ∧ |x - (a - b)| ≤ u * |a - b| + η ∧ 0 ≤ p ∧ (1 - u) * (x * x) ≤ p + η ∧
      |p - (a - b) * (a - b)| ≤ 7 * (u * ((a - b) * (a - b))) + 6 * η := by
  obtain ⟨-, -, -, hη, hu⟩ := h.eps
  have hu' := h.u'
  have hN := h.N0
  have hd : |a - b| ≤ 2 * N := by
    have := abs_sub a b
    linarith
  set d := a - b with hdd
  obtain ⟨x, rx, ex, dx⟩ := h.std.err d (hd.trans (by linarith [h.high']))
  have hD : |d| * |d| = d * d := abs_mul_abs_self d
  have d0 := abs_nonneg d
  have hηd : η * |d| ≤ u * (d * d) + η := by
    rw [← hD]
    rcases le_total η (u * |d|) with h1 | h1
    · have := mul_le_mul_of_nonneg_right h1 d0
      nlinarith
    · have h2 : |d| ≤ 1 ∨ η = 0 := by
        rcases le_or_gt |d| 1 with h3 | h3
        · exact Or.inl h3
        · right
          have h4 : u * 1 ≤ u * |d| := mul_le_mul_of_nonneg_left h3.le hu
          have h5 : η = u := le_antisymm h.ηu (by linarith)
          have h6 : u * |d| ≤ u * 1 := by linarith
          rcases hu.eq_or_lt with h7 | h7
          · linarith
          · have := lt_of_mul_lt_mul_left (lt_of_le_of_lt h6 (mul_lt_mul_of_pos_left h3 h7)) hu
            linarith
      rcases h2 with h2 | h2
      · have := mul_le_mul_of_nonneg_left h2 hη
        have : 0 ≤ u * (|d| * |d|) := by positivity
        linarith
      · rw [h2]
        have : 0 ≤ u * (|d| * |d|) := by positivity
        linarith
  have ud0 : 0 ≤ u * (d * d) := mul_nonneg hu (mul_self_nonneg d)
  have sx : |x * x - d * d| ≤ 5 * (u * (d * d)) + 4 * η := by
    have e : x * x - d * d = (x - d) * (x - d) + 2 * (d * (x - d)) := by ring
    rw [e]
    have h1 : |(x - d) * (x - d)| ≤ (u * |d| + η) * (u * |d| + η) := by
      rw [abs_mul]
      exact mul_le_mul dx dx (abs_nonneg _) ((abs_nonneg _).trans dx)
    have h2 : |d * (x - d)| ≤ |d| * (u * |d| + η) := by
      rw [abs_mul]
      exact mul_le_mul_of_nonneg_left dx d0
    have h3 : (u * |d| + η) * (u * |d| + η) = u * (u * (d * d)) + 2 * (u * (η * |d|)) + η * η := by rw [← hD]; ring
    have h4 : |d| * (u * |d| + η) = u * (d * d) + η * |d| := by rw [← hD]; ring
    have h5 : u * (u * (d * d)) ≤ 1 / 4096 * (u * (d * d)) := mul_le_mul_of_nonneg_right hu' ud0
    have h6 : u * (η * |d|) ≤ 1 / 4096 * (η * |d|) := mul_le_mul_of_nonneg_right hu' (mul_nonneg hη d0)
    have h7 : η * η ≤ 1 / 16 * η := mul_le_mul_of_nonneg_right h.std.η1 hη
    have h8 := abs_add_le ((x - d) * (x - d)) (2 * (d * (x - d)))
    rw [abs_mul 2, abs_two] at h8
    linarith
  have sxa := abs_le.1 sx
  have dd : d * d ≤ 4 * (N * N) := by
    rw [← hD]
    have := mul_le_mul hd hd d0 (by linarith)
    nlinarith
  have uN : u * (d * d) ≤ 1 / 4096 * (d * d) := mul_le_mul_of_nonneg_right hu' (mul_self_nonneg d)
  have hηN : η ≤ N * N := by
    have h1 := h.low
    have h2 : u * ((u * N) * (u * N)) = u * u * u * (N * N) := by ring
    have h3 : u * u * u ≤ 1 := by
      have : u ≤ 1 := by linarith
      have h4 : u * u ≤ 1 * 1 := mul_le_mul this this hu zero_le_one
      have := mul_le_mul h4 this hu (by norm_num)
      linarith
    have := mul_le_mul_of_nonneg_right h3 (mul_self_nonneg N)
    linarith
  have xx0 := mul_self_nonneg x
  obtain ⟨p, rp, ep, dp⟩ := h.std.err (x * x) (by
    rw [abs_of_nonneg xx0]
    have := h.high
    have := mul_self_nonneg N
    linarith)
  rw [abs_of_nonneg xx0] at dp
  have dpa := abs_le.1 dp
  have ux : u * (x * x) ≤ u * (d * d) + 1 / 512 * (u * (d * d)) + 1 / 512 * η := by
    have h1 : u * (x * x) ≤ u * (d * d + (5 * (u * (d * d)) + 4 * η)) := mul_le_mul_of_nonneg_left (by linarith) hu
    have h5 : u * (u * (d * d)) ≤ 1 / 4096 * (u * (d * d)) := mul_le_mul_of_nonneg_right hu' ud0
    have h6 : u * η ≤ 1 / 4096 * η := mul_le_mul_of_nonneg_right hu' hη
    nlinarith
  refine ⟨x, p, rx, rp, by rw [rsub ra rb, ex], by rw [rmul rx rx, ep], dx, fl_ge rp rep_zero ep xx0, by linarith, ?_⟩
  rw [abs_le]
  constructor <;> linarith

/-- Size of the difference of two points with bounded coordinates. -/
theorem norm_diff_le {a b : V3 ℝ} (ha : Sz3 C a) (hb : Sz3 C b) : (a - b).norm ≤ 4 * C := by
  have hC := ha.nonneg
  rw [V3.norm_le_iff _ (by linarith)]
  have h : ∀ {x y : ℝ}, |x| ≤ C → |y| ≤ C → (x - y) * (x - y) ≤ 4 * (C * C) := by
    intro x y hx hy
    have h1 : |x - y| ≤ 2 * C := by
      have := abs_sub x y
      linarith
    have h2 := mul_le_mul h1 h1 (abs_nonneg _) (by linarith)
    rw [abs_mul_abs_self] at h2
    nlinarith
  have h1 := h ha.1 hb.1
  have h2 := h ha.2.1 hb.2.1
  have h3 := h ha.2.2 hb.2.2
  simp only [V3.dot, V3.sub_x, V3.sub_y, V3.sub_z]
  nlinarith [mul_self_nonneg C]

/-- The squared distance of two points in rounded arithmetic. -/
theorem dist2_err (h : TreeStd R u η Ω N) {a b : V3 ℝ} (ra : Rep3 R a) (rb : Rep3 R b) (ha : Sz3 N a) (hb : Sz3 N b) :
    ∃ (v : V3 ℝ) (D : ℝ), Rep3 R v ∧ Rep R D ∧ subF R (toV3 R a) (toV3 R b) = toV3 R v ∧ mag2F R (toV3 R v) = toF R D ∧
      (|v.x - (a.x - b.x)| ≤ u * |a.x - b.x| + η ∧ |v.y - (a.y - b.y)| ≤ u * |a.y - b.y| + η ∧ |v.z - (a.z - b.z)| ≤ u * |a.z - b.z| + η) ∧ 0 ≤ D ∧
      ((1 - u) * (v.x * v.x) ≤ D + η ∧ (1 - u) * (v.y * v.y) ≤ D + η ∧ (1 - u) * (v.z * v.z) ≤ D + η) ∧
      |D - (a - b).norm * (a - b).norm| ≤ 10 * (u * ((a - b).norm * (a - b).norm)) + 21 * η := by
  obtain ⟨-, -, -, hη, hu⟩ := h.eps
  have hu' := h.u'
  obtain ⟨x, p1, rx, r1, e1, f1, d1, z1, s1, q1⟩ := comp_sq_err h ra.1 rb.1 ha.1 hb.1
  obtain ⟨y, p2, ry, r2, e2, f2, d2, z2, s2, q2⟩ := comp_sq_err h ra.2.1 rb.2.1 ha.2.1 hb.2.1
  obtain ⟨z, p3, rz, r3, e3, f3, d3, z3, s3, q3⟩ := comp_sq_err h ra.2.2 rb.2.2 ha.2.2 hb.2.2
  rw [V3.norm_sq]
  have hL := (a - b).norm_le_iff (r := 4 * N) (by linarith [h.N0]) |>.1 (norm_diff_le ha hb)
  have hηN : η ≤ N * N := by
    have h1 := h.low
    have h2 : u * ((u * N) * (u * N)) = u * u * u * (N * N) := by ring
    have h3 : u * u * u ≤ 1 := by
      have : u ≤ 1 := by linarith
      have h4 : u * u ≤ 1 * 1 := mul_le_mul this this hu zero_le_one
      have := mul_le_mul h4 this hu (by norm_num)
      linarith
    have := mul_le_mul_of_nonneg_right h3 (mul_self_nonneg N)
    linarith
  have eS : (a - b).dot (a - b) = (a.x - b.x) * (a.x - b.x) + (a.y - b.y) * (a.y - b.y) + (a.z - b.z) * (a.z - b.z) := rfl
  set S := (a - b).dot (a - b)
  have dx0 := mul_self_nonneg (a.x - b.x)
  have dy0 := mul_self_nonneg (a.y - b.y)
  have dz0 := mul_self_nonneg (a.z - b.z)
  generalize (a.x - b.x) * (a.x - b.x) = X at *
  generalize (a.y - b.y) * (a.y - b.y) = Y at *
  generalize (a.z - b.z) * (a.z - b.z) = Z at *
  have uX : 0 ≤ u * X := mul_nonneg hu dx0
  have uY : 0 ≤ u * Y := mul_nonneg hu dy0
  have uZ : 0 ≤ u * Z := mul_nonneg hu dz0
  have uS : u * S = u * X + u * Y + u * Z := by rw [eS]; ring
  have uS' : u * S ≤ 1 / 4096 * S := mul_le_mul_of_nonneg_right hu' (by linarith)
  have q1' := abs_le.1 q1
  have q2' := abs_le.1 q2
  have q3' := abs_le.1 q3
  have hi := h.high
  obtain ⟨q, rq, eq, dq⟩ := h.std.err (p1 + p2) (by rw [abs_of_nonneg (by linarith)]; linarith)
  rw [abs_of_nonneg (show 0 ≤ p1 + p2 by linarith)] at dq
  have uuS : u * (u * S) ≤ 1 / 4096 * (u * S) := mul_le_mul_of_nonneg_right hu' (by linarith)
  have uη : u * η ≤ 1 / 4096 * η := mul_le_mul_of_nonneg_right hu' hη
  have w1 : u * (p1 + p2) ≤ 257 / 256 * (u * S) + 1 / 256 * η := by
    have : u * (p1 + p2) ≤ u * (S + 7 * (u * S) + 12 * η) := mul_le_mul_of_nonneg_left (by linarith) hu
    nlinarith
  have dq' := abs_le.1 dq
  have q0 : 0 ≤ q := fl_ge rq rep_zero eq (by linarith)
  obtain ⟨D, rD, eD, dD⟩ := h.std.err (q + p3) (by rw [abs_of_nonneg (by linarith)]; linarith)
  rw [abs_of_nonneg (show 0 ≤ q + p3 by linarith)] at dD
  have w2 : u * (q + p3) ≤ 257 / 256 * (u * S) + 1 / 128 * η := by
    have : u * (q + p3) ≤ u * (S + 9 * (u * S) + 20 * η) := mul_le_mul_of_nonneg_left (by linarith) hu
    nlinarith
  have dD' := abs_le.1 dD
  have b1 : p1 ≤ q := fl_ge rq r1 eq (by linarith)
  have b2 : p2 ≤ q := fl_ge rq r2 eq (by linarith)
  have b3 : p3 ≤ D := fl_ge rD r3 eD (by linarith)
  have b4 : q ≤ D := fl_ge rD rq eD (by linarith)
  refine ⟨⟨x, y, z⟩, D, ⟨rx, ry, rz⟩, rD, ?_, ?_, ⟨d1, d2, d3⟩, by linarith, ⟨by linarith, by linarith, by linarith⟩, ?_⟩
  · show (⟨R.sub (toF R a.x) (toF R b.x), R.sub (toF R a.y) (toF R b.y), R.sub (toF R a.z) (toF R b.z)⟩ : V3 F) = _
    rw [e1, e2, e3]
    rfl
  · show R.add (R.add (R.mul (toF R x) (toF R x)) (R.mul (toF R y) (toF R y))) (R.mul (toF R z) (toF R z)) = _
    rw [f1, f2, f3, radd r1 r2, eq, radd rq r3, eD]
  · rw [abs_le]
    constructor <;> linarith

/-- A square root with an error in its argument. -/
theorem sqrt_near {D L c e : ℝ} (hL : 0 ≤ L) (hc : 0 ≤ c) (he : 0 ≤ e) (hD0 : 0 ≤ D) (hD : |D - L * L| ≤ c * (L * L) + e * e) : |Real.sqrt D - L| ≤ c * L + e := by
  have s0 := Real.sqrt_nonneg D
  have ss := Real.mul_self_sqrt hD0
  set s := Real.sqrt D
  rw [← ss] at hD
  have hcL := mul_nonneg hc hL
  obtain ⟨h1, h2⟩ := abs_le.1 hD
  rw [abs_le]
  constructor
  · by_contra hcon
    push Not at hcon
    have ha : c * L + e ≤ L := by linarith
    have h3 : s * s ≤ s * L := mul_le_mul_of_nonneg_left (by linarith) s0
    have h4 : (L - s) * L > (c * L + e) * L ∨ L = 0 := by
      rcases hL.eq_or_lt with h | h
      · exact Or.inr h.symm
      · exact Or.inl (mul_lt_mul_of_pos_right (by linarith) h)
    rcases h4 with h4 | h4
    · have h5 : e * e ≤ e * L := mul_le_mul_of_nonneg_left (by linarith) he
      nlinarith
    · rw [h4] at hcon
      nlinarith
  · by_contra hcon
    push Not at hcon
    have h3 : (L + (c * L + e)) * (L + (c * L + e)) < s * s := mul_self_lt_mul_self (by linarith) (by linarith)
    nlinarith [mul_nonneg hcL hL, mul_nonneg hcL he, mul_nonneg hL he, mul_nonneg hcL hcL]

/-- The distance of two points in rounded arithmetic. -/
theorem dist_err (h : TreeStd R u η Ω N) {a b : V3 ℝ} (ra : Rep3 R a) (rb : Rep3 R b) (ha : Sz3 N a) (hb : Sz3 N b) :
    ∃ (v : V3 ℝ) (n : ℝ), Rep3 R v ∧ Rep R n ∧ subF R (toV3 R a) (toV3 R b) = toV3 R v ∧ R.sqrt (mag2F R (toV3 R v)) = toF R n ∧
      (|v.x - (a.x - b.x)| ≤ u * |a.x - b.x| + η ∧ |v.y - (a.y - b.y)| ≤ u * |a.y - b.y| + η ∧ |v.z - (a.z - b.z)| ≤ u * |a.z - b.z| + η) ∧ 0 ≤ n ∧
      |n - (a - b).norm| ≤ 50 * (u * N) ∧ (0 < n → (|v.x| ≤ 2 * n ∧ |v.y| ≤ 2 * n ∧ |v.z| ≤ 2 * n) ∧ η ≤ u * N * n) ∧
      (21 * η ≤ u * ((a - b).norm * (a - b).norm) → |n - (a - b).norm| ≤ 16 * (u * (a - b).norm)) := by
  obtain ⟨e0, eη, eηη, hη, hu⟩ := h.eps
  have hu' := h.u'
  obtain ⟨v, D, rv, rD, ev, eD, dv, D0, hv, hD⟩ := dist2_err h ra rb ha hb
  have hLN := norm_diff_le ha hb
  have L0 := (a - b).norm_nonneg
  set L := (a - b).norm
  have hN := h.N0
  have hs := sqrt_near (c := 10 * u) (e := u * N) L0 (by linarith) e0 D0 (by linarith)
  have s0 := Real.sqrt_nonneg D
  have ss := Real.mul_self_sqrt D0
  set s := Real.sqrt D
  have hs' := abs_le.1 hs
  have uL : u * L ≤ 4 * (u * N) := by
    have := mul_le_mul_of_nonneg_left hLN hu
    linarith
  have uN : u * N ≤ 1 / 4096 * N := mul_le_mul_of_nonneg_right hu' hN.le
  have sN : s ≤ 5 * N := by linarith
  obtain ⟨n, rn, en, dn⟩ := h.std.err s (by rw [abs_of_nonneg s0]; linarith [h.high'])
  rw [abs_of_nonneg s0] at dn
  have us : u * s ≤ 5 * (u * N) := by
    have := mul_le_mul_of_nonneg_left sN hu
    linarith
  have us' : u * s ≤ 1 / 4096 * s := mul_le_mul_of_nonneg_right hu' s0
  have dn' := abs_le.1 dn
  have n0 : 0 ≤ n := fl_ge rn rep_zero en s0
  refine ⟨v, n, rv, rn, ev, by rw [eD, rsqrt rD, en], dv, n0, ?_, ?_, ?_⟩
  · rw [abs_le]
    constructor <;> linarith
  · intro np
    have sp : 0 < s := by
      by_contra hcon
      have : s = 0 := le_antisymm (not_lt.1 hcon) s0
      rw [this] at en
      have := (toF_inj rep_zero rn).1 en
      linarith
    have Dp : 0 < D := by
      rw [← ss]
      exact mul_pos sp sp
    have hDη := h.tiny D rD Dp
    have h16 : 16 * η ≤ s := by
      rcases le_total s (1 / 16) with h1 | h1
      · have : s * s ≤ 1 / 16 * s := mul_le_mul_of_nonneg_right h1 s0
        linarith
      · have := h.ηu
        linarith
    have ns : 15 / 16 * s ≤ n + 1 / 4096 * s := by linarith
    constructor
    · have key : ∀ x : ℝ, (1 - u) * (x * x) ≤ D + η → |x| ≤ 2 * n := by
        intro x hx
        refine abs_le_of_sq_le_sq (by
          have h1 : u * (x * x) ≤ 1 / 4096 * (x * x) := mul_le_mul_of_nonneg_right hu' (mul_self_nonneg x)
          have h2 : 3 / 4 * s * (3 / 4 * s) ≤ n * n := mul_self_le_mul_self (by linarith) (by linarith)
          nlinarith) (by linarith)
      exact ⟨key _ hv.1, key _ hv.2.1, key _ hv.2.2⟩
    · have h1 : 4 * η ≤ u * N * s := by
        refine le_of_sq_le_sq ?_ (mul_nonneg e0 s0)
        have h2 : 21 * η * η ≤ (u * N) * (u * N) * (s * s) := mul_le_mul eηη (by linarith) hη (mul_nonneg e0 e0)
        nlinarith [mul_self_nonneg η]
      have h3 : u * N * (3 / 4 * s) ≤ u * N * n := mul_le_mul_of_nonneg_left (by linarith) e0
      linarith
  · intro h21
    have hs2 := sqrt_near (c := 11 * u) (e := 0) L0 (by linarith) le_rfl D0 (by linarith)
    have hs3 := abs_le.1 hs2
    have uL' : u * L ≤ 1 / 4096 * L := mul_le_mul_of_nonneg_right hu' L0
    have us2 : u * s ≤ 257 / 256 * (u * L) := by
      have := mul_le_mul_of_nonneg_left (show s ≤ 257 / 256 * L by linarith) hu
      linarith
    have ηL : η ≤ u * L := by
      rcases le_total L 1 with h1 | h1
      · have h2 : u * (L * L) ≤ u * L := by
          have := mul_le_mul_of_nonneg_left (mul_le_mul_of_nonneg_right h1 L0) hu
          linarith
        linarith
      · have := mul_le_mul_of_nonneg_left h1 hu
        have := h.ηu
        linarith
    rw [abs_le]
    constructor <;> linarith
end
end Verif.Scene
