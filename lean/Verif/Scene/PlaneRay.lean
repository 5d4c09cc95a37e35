import Verif.Scene.MatrixPlanes
import Verif.Scene.SphereRay
/-!
# C127: rays against planes in rounded arithmetic

The point `Plane::intersection(&Ray3)` reports is within `40 u (M + |t|)` of the plane and, up to the division by the cosine of the angle of the ray with the normal, of the exact point, which is at the parameter `t` of the ray; the ray is
reported as missed only when `t` is negative up to rounding. The convention of the test is `n·p + d = 0` (`c39_false`). For rays parallel to the plane the two tests answer by the side the ray is on, and by the sign of a zero (finding 52).
-/
namespace Verif.Scene
open Verif Geom Primitive Minkowski
open Verif.Dbvt (Rounding PlaneF F64 binary64 Rep64)
open Verif.Dbvt.B32 (F32 binary32 Rep32)
set_option linter.unusedSectionVars false
noncomputable section
open Classical
variable {F : Type} [LinearOrder F] {R : Rounding F} {u η Ω M : ℝ}

section model
variable (R : Rounding F)
/-- The parameter of the point, `src/plane.rs:181, 193`: `-(p.d + r.origin.dot(p.n)) / r.direction.dot(p.n)`. For a denominator that is rounded to zero the code goes on with an infinity or NaN; the model does not say which, and the theorems
below exclude it (`c127_parallel` treats exactly parallel rays). -/
def planeParamF (P : PlaneF F) (r : Ray3 F) : F := R.div (negF R (R.add P.d (dotF R r.origin P.n))) (dotF R r.direction P.n)
/-- `Continuous<Ray3> for Plane`, `src/plane.rs:176-188` -/
def planePointF (P : PlaneF F) (r : Ray3 F) : Option (V3 F) :=
  let t := planeParamF R P r
  if t < R.zero then none else
  some ⟨R.add r.origin.x (R.mul r.direction.x t), R.add r.origin.y (R.mul r.direction.y t), R.add r.origin.z (R.mul r.direction.z t)⟩
/-- `Discrete<Ray3> for Plane`, `src/plane.rs:190-196` -/
def planeHitF (P : PlaneF F) (r : Ray3 F) : Bool := R.zero ≤ planeParamF R P r
/-- The ray with rounded coordinates. -/
def rayR (o d : V3 ℝ) : Ray3 F := ⟨vecR R o, vecR R d⟩

/-- Plane and ray have coefficients in the format; those of the normal and of the direction are at most `101 / 100`, the others at most `M`; the ray is not nearly parallel to the plane. -/
structure PlaneRayIn (u M : ℝ) (P : Plane ℝ) (o d : V3 ℝ) : Prop where
  n : Rep3 R P.n ∧ Sz3 (101 / 100) P.n
  dist : Rep R P.d ∧ |P.d| ≤ M
  origin : Rep3 R o ∧ Sz3 M o
  dir : Rep3 R d ∧ Sz3 (101 / 100) d
  steep : 64 * u ≤ |d.dot P.n|
/-- What the arithmetic must satisfy: the standard model with underflow and overflow out of the way. -/
structure PlaneStd (u η Ω M : ℝ) : Prop where
  std : Std R u η Ω
  u' : u ≤ 1 / 4096
  pos : 0 < u
  M0 : 0 < M
  low : 64 * η ≤ u
  low' : 64 * η ≤ u * M
  high : 8 * M + 8 ≤ Ω
end model

/-! ## Specification -/
/-- The value of `n·p + d`; the plane is where it is zero (`Plane.OnAlt`). For a normal of length one it is the signed distance of `p` to the plane. -/
def Plane.altGap (P : Plane ℝ) (p : V3 ℝ) : ℝ := P.n.x * p.x + P.n.y * p.y + P.n.z * p.z + P.d

/-- The answers of both tests for a ray that meets the plane at the (possibly negative) parameter `t`, up to a relative error `k`. -/
structure PlaneRayOk (R : Rounding F) (k M t : ℝ) (P : Plane ℝ) (o d : V3 ℝ) (pt : Option (V3 F)) (hit : Bool) : Prop where
  /-- Both tests agree. -/
  same : hit = pt.isSome
  /-- The point is finite, close to the plane and to the exact point, and the ray points towards it. -/
  point : ∀ p, pt = some p → ∃ q, Rep3 R q ∧ p = vecR R q ∧ |Plane.altGap P q| ≤ k * (M + |t|) ∧ Sz3 (k * (M + |t|) / |d.dot P.n|) (q - (o + d * t)) ∧ -(k * (M + |t|) / |d.dot P.n|) ≤ t
  /-- A ray that points away is not reported, and only such rays are not. -/
  miss : pt = none → t < k * (M + |t|) / |d.dot P.n|
  away : t < -(k * (M + |t|) / |d.dot P.n|) → pt = none

/-! ## Real numbers -/
theorem param_real {a b a' b' t W e : ℝ} (hu : 0 < u) (hM : 0 ≤ M) (h0 : a + t * b = 0) (ha : |a' - a| ≤ 15 * (u * M)) (hb : |b' - b| ≤ 10 * u) (hs : 64 * u ≤ |b|) (hW : W = M + |t|) (he : e = u * W / |b|) :
    b' ≠ 0 ∧ |-a' / b' - t| ≤ 18 * e ∧ e ≤ W / 64 ∧ e * |b| = u * W := by
  have hb0 : 0 < |b| := by linarith
  have h1 : |b| ≤ |b'| + |b' - b| := by
    have := abs_sub_abs_le_abs_sub b b'
    rw [abs_sub_comm b b'] at this
    linarith
  have h2 : 54 / 64 * |b| ≤ |b'| := by linarith
  have hb' : 0 < |b'| := by linarith
  have hW0 : 0 ≤ W := by rw [hW]; positivity
  have heb : e * |b| = u * W := by rw [he]; field_simp
  have hne : b' ≠ 0 := abs_pos.1 hb'
  have e0 : 0 ≤ e := by rw [he]; positivity
  refine ⟨hne, ?_, ?_, heb⟩
  · have q : -a' / b' - t = ((a - a') + t * (b - b')) / b' := by
      field_simp
      linarith
    rw [q, abs_div, div_le_iff₀ hb']
    have k1 : |(a - a') + t * (b - b')| ≤ 15 * (u * W) := by
      refine (abs_add_le _ _).trans ?_
      rw [abs_mul, abs_sub_comm a a', abs_sub_comm b b']
      have := mul_le_mul_of_nonneg_left hb (abs_nonneg t)
      have h5 : 0 ≤ u * |t| := by positivity
      rw [hW]
      linarith
    have k2 := mul_le_mul_of_nonneg_left h2 e0
    rw [← heb] at k1
    have : 0 ≤ e * |b| := by positivity
    linarith
  · rw [he, div_le_iff₀ hb0]
    have := mul_le_mul_of_nonneg_left hs hW0
    linarith

theorem sz_comp {A B : ℝ} {a b : V3 ℝ} (ha : Sz3 A a) (hb : Sz3 B b) : |a.dot b| ≤ 3 * (A * B) := dot3_abs_le ha hb

/-- The rounded parameter. -/
theorem param_err (h : PlaneStd R u η Ω M) {P : Plane ℝ} {o d : V3 ℝ} (hr : PlaneRayIn R u M P o d) {t W e : ℝ} (ht : P.OnAlt (o + d * t)) (hW : W = M + |t|) (he : e = u * W / |d.dot P.n|) (hΩ : 8 * W + 8 ≤ Ω) :
    ∃ T, Rep R T ∧ planeParamF R (planeR R P) (rayR R o d) = numR R T ∧ |T - t| ≤ 23 * e ∧ e ≤ W / 64 ∧ e * |d.dot P.n| = u * W ∧ |d.dot P.n| ≤ 31 / 10 := by
  have hu := h.pos
  have hu' := h.u'
  have hM := h.M0
  have hη := h.std.η0
  have l1 := h.low
  have l2 := h.low'
  have hΩ1 := h.high
  have uM : u * M ≤ 1 / 4096 * M := mul_le_mul_of_nonneg_right hu' hM.le
  have uM0 : 0 < u * M := mul_pos hu hM
  obtain ⟨s, rs, es, ds⟩ := dot3_err h.std hr.origin.1 hr.n.1 hr.origin.2 hr.n.2 (by linarith)
  have ss := dot3_abs_le hr.origin.2 hr.n.2
  obtain ⟨b', rb, eb, db⟩ := dot3_err h.std hr.dir.1 hr.n.1 hr.dir.2 hr.n.2 (by linarith)
  have sb := dot3_abs_le hr.dir.2 hr.n.2
  have hd := hr.dist.2
  have hsum : |P.d + s| ≤ 405 / 100 * M := by
    rw [abs_le] at ds ss hd ⊢
    constructor <;> linarith
  obtain ⟨a', ra, ea, da⟩ := h.std.fl hsum (by linarith)
  have sa : |a'| ≤ Ω := by
    rw [abs_le] at da hsum ⊢
    constructor <;> linarith
  have h0 : (P.d + o.dot P.n) + t * d.dot P.n = 0 := by
    have : P.n.x * (o.x + d.x * t) + P.n.y * (o.y + d.y * t) + P.n.z * (o.z + d.z * t) + P.d = 0 := ht
    simp only [V3.dot]
    linarith
  have ea' : |a' - (P.d + o.dot P.n)| ≤ 15 * (u * M) := by
    rw [abs_le] at da ds ⊢
    constructor <;> linarith
  have eb' : |b' - d.dot P.n| ≤ 10 * u := by
    rw [abs_le] at db ⊢
    constructor <;> linarith
  obtain ⟨hne, hp, heW, heb⟩ := param_real hu hM.le h0 ea' eb' hr.steep hW he
  have hb31 : |d.dot P.n| ≤ 31 / 10 := by linarith
  have hW0 : 0 ≤ W := by rw [hW]; positivity
  have e0 : 0 ≤ e := by rw [he]; positivity
  have hq : |-a' / b'| ≤ 13 / 10 * W := by
    have h1 : |t| ≤ W := by rw [hW]; linarith
    rw [abs_le] at hp h1 ⊢
    constructor <;> linarith
  obtain ⟨T, rT, eT, dT⟩ := h.std.fl hq (by linarith)
  have uW : u * W ≤ 31 / 10 * e := by
    rw [← heb]
    have := mul_le_mul_of_nonneg_left hb31 e0
    linarith
  have uMW : u * M ≤ u * W := mul_le_mul_of_nonneg_left (by rw [hW]; linarith [abs_nonneg t]) hu.le
  have rna := h.std.rep_neg sa ra
  refine ⟨T, rT, ?_, ?_, heW, heb, hb31⟩
  · have e1 : dotF R (rayR R o d).origin (planeR R P).n = numR R s := es
    have e2 : dotF R (rayR R o d).direction (planeR R P).n = numR R b' := eb
    have e3 : R.add (planeR R P).d (numR R s) = numR R a' := (radd hr.dist.1 rs).trans ea
    have e4 : negF R (numR R a') = numR R (-a') := rneg ra
    have e5 : R.div (numR R (-a')) (numR R b') = numR R T := (rdiv rna rb).trans eT
    rw [planeParamF, e1, e2, e3, e4, e5]
  · rw [abs_le] at dT hp ⊢
    constructor <;> linarith

/-- One coordinate of the reported point. -/
theorem coord_real (h : PlaneStd R u η Ω M) {o d t T W e : ℝ} (ro : Rep R o) (rd : Rep R d) (rT : Rep R T) (ho : |o| ≤ M) (hd : |d| ≤ 101 / 100) (hW : W = M + |t|) (heW : e ≤ W / 64) (hT : |T - t| ≤ 23 * e) (hΩ : 8 * W + 8 ≤ Ω) :
    ∃ p, Rep R p ∧ R.add (numR R o) (R.mul (numR R d) (numR R T)) = numR R p ∧ |p - (o + d * T)| ≤ 4 * (u * W) := by
  have hu := h.pos
  have hu' := h.u'
  have hM := h.M0
  have l2 := h.low'
  have hW0 : 0 ≤ W := by rw [hW]; positivity
  have uW0 : 0 ≤ u * W := by positivity
  have uMW : u * M ≤ u * W := mul_le_mul_of_nonneg_left (by rw [hW]; linarith [abs_nonneg t]) hu.le
  have uW : u * W ≤ 1 / 4096 * W := mul_le_mul_of_nonneg_right hu' hW0
  have hMW : M ≤ W := by rw [hW]; linarith [abs_nonneg t]
  have h1 : |T| ≤ 137 / 100 * W := by
    have h1 : |t| ≤ W := by rw [hW]; linarith
    rw [abs_le] at hT h1 ⊢
    constructor <;> linarith
  have h1' : |d * T| ≤ 101 / 100 * (137 / 100 * W) := mul_abs_le hd h1
  obtain ⟨a, ra, ea, da⟩ := h.std.fl h1' (by linarith)
  -- the sum has the bound `M + 1.39 |t| + ...`; `2.45 W` is enough
  have h2 : |o + a| ≤ 245 / 100 * W := by
    rw [abs_le] at da h1' ho ⊢
    constructor <;> linarith
  obtain ⟨p, rp, ep, dp⟩ := h.std.fl h2 (by linarith)
  refine ⟨p, rp, ?_, ?_⟩
  · have e1 : R.mul (numR R d) (numR R T) = numR R a := (rmul rd rT).trans ea
    have e2 : R.add (numR R o) (numR R a) = numR R p := (radd ro ra).trans ep
    rw [e1, e2]
  · rw [abs_le] at da dp ⊢
    constructor <;> linarith

/-- **C127.** The answers of both tests, for any rounded arithmetic of the standard model. -/
theorem c127_ray (h : PlaneStd R u η Ω M) {P : Plane ℝ} {o d : V3 ℝ} (hr : PlaneRayIn R u M P o d) {t : ℝ} (ht : P.OnAlt (o + d * t)) (hΩ : 8 * (M + |t|) + 8 ≤ Ω) :
    PlaneRayOk R (40 * u) M t P o d (planePointF R (planeR R P) (rayR R o d)) (planeHitF R (planeR R P) (rayR R o d)) := by
  obtain ⟨T, rT, eT, hT, heW, heb, hb31⟩ := param_err h hr ht rfl rfl hΩ
  have hu := h.pos
  have hM := h.M0
  generalize hW : M + |t| = W at *
  have hW0 : 0 < W := by rw [← hW]; positivity
  generalize he : u * W / |d.dot P.n| = e at *
  have hb0 : 0 < |d.dot P.n| := by linarith [hr.steep]
  have e0 : 0 < e := by rw [← he]; positivity
  have he40 : 40 * u * W / |d.dot P.n| = 40 * e := by rw [← he]; ring
  have uW : u * W ≤ 31 / 10 * e := by
    rw [← heb]
    have := mul_le_mul_of_nonneg_left hb31 e0.le
    linarith
  have z : numR R 0 = R.zero := toF_zero
  have hlt : planeParamF R (planeR R P) (rayR R o d) < R.zero ↔ T < 0 := by
    rw [eT, ← z]
    exact numR_lt rT rep_zero
  have hh : planeHitF R (planeR R P) (rayR R o d) = decide (¬ T < 0) := by
    rw [planeHitF, decide_eq_decide, ← hlt, not_lt]
  have hp : planePointF R (planeR R P) (rayR R o d) = if T < 0 then none else some ⟨R.add (numR R o.x) (R.mul (numR R d.x) (numR R T)), R.add (numR R o.y) (R.mul (numR R d.y) (numR R T)), R.add (numR R o.z) (R.mul (numR R d.z) (numR R T))⟩ := by
    unfold planePointF
    dsimp only
    by_cases q : T < 0
    · rw [if_pos (hlt.2 q), if_pos q]
    · rw [if_neg (fun k => q (hlt.1 k)), if_neg q, eT]
      rfl
  have hT' := abs_le.1 hT
  rw [hh, hp]
  by_cases q : T < 0
  · rw [if_pos q]
    refine ⟨by simp [q], by simp, fun _ => ?_, fun _ => rfl⟩
    rw [hW, he40]
    linarith
  · rw [if_neg q]
    have q' := not_lt.1 q
    refine ⟨by simp [q], fun p hp => ?_, by simp, fun k => ?_⟩
    · obtain ⟨⟨n1, n2, n3⟩, s1, s2, s3⟩ := hr.n
      obtain ⟨⟨o1, o2, o3⟩, p1, p2, p3⟩ := hr.origin
      obtain ⟨⟨d1, d2, d3⟩, m1, m2, m3⟩ := hr.dir
      obtain ⟨x, rx, ex, dx⟩ := coord_real h o1 d1 rT p1 m1 hW.symm heW hT hΩ
      obtain ⟨y, ry, ey, dy⟩ := coord_real h o2 d2 rT p2 m2 hW.symm heW hT hΩ
      obtain ⟨w, rw', ew, dw⟩ := coord_real h o3 d3 rT p3 m3 hW.symm heW hT hΩ
      rw [ex, ey, ew] at hp
      refine ⟨⟨x, y, w⟩, ⟨rx, ry, rw'⟩, (Option.some.inj hp).symm, ?_, ?_, ?_⟩
      · rw [hW]
        have ht' : P.n.x * (o.x + d.x * t) + P.n.y * (o.y + d.y * t) + P.n.z * (o.z + d.z * t) + P.d = 0 := ht
        have key : Plane.altGap P ⟨x, y, w⟩ = (T - t) * d.dot P.n + (P.n.x * (x - (o.x + d.x * T)) + P.n.y * (y - (o.y + d.y * T)) + P.n.z * (w - (o.z + d.z * T))) := by
          simp only [Plane.altGap, V3.dot]
          linarith
        rw [key]
        have k1 : |(T - t) * d.dot P.n| ≤ 23 * (u * W) := by
          rw [abs_mul, ← heb]
          have := mul_le_mul_of_nonneg_right hT hb0.le
          linarith
        have g1 := mul_abs_le s1 dx
        have g2 := mul_abs_le s2 dy
        have g3 := mul_abs_le s3 dw
        rw [abs_le] at k1 g1 g2 g3 ⊢
        have : 0 < u * W := by positivity
        constructor <;> linarith
      · rw [hW, he40]
        have one : ∀ {x o d : ℝ}, |d| ≤ 101 / 100 → |x - (o + d * T)| ≤ 4 * (u * W) → |x - (o + d * t)| ≤ 40 * e := by
          intro x o d hd hx
          have g := mul_abs_le hd hT
          have e1 : x - (o + d * t) = (x - (o + d * T)) + d * (T - t) := by ring
          rw [e1]
          refine (abs_add_le _ _).trans ?_
          linarith
        exact ⟨one m1 dx, one m2 dy, one m3 dw⟩
      · rw [hW, he40]
        linarith
    · exfalso
      rw [hW, he40] at k
      linarith


/-! ## The formats -/
/-- `f64` meets the requirements. -/
theorem planeStd64 (h0 : (2 : ℝ) ^ (-400 : ℤ) ≤ M) (h1 : M ≤ (2 : ℝ) ^ (400 : ℤ)) : PlaneStd binary64 ((2 : ℝ) ^ (-53 : ℤ)) ((2 : ℝ) ^ (-1075 : ℤ)) ((2 : ℝ) ^ (1022 : ℤ)) M where
  std := std64
  u' := by norm_num
  pos := zpow2_pos _
  M0 := (zpow2_pos _).trans_le h0
  low := by
    rw [show (64 : ℝ) = (2 : ℝ) ^ (6 : ℤ) by norm_num, zpow2_mul]
    exact zpow2_le (by norm_num)
  low' := by
    refine le_trans ?_ (mul_le_mul_of_nonneg_left h0 (zpow2_pos _).le)
    rw [show (64 : ℝ) = (2 : ℝ) ^ (6 : ℤ) by norm_num, zpow2_mul, zpow2_mul]
    exact zpow2_le (by norm_num)
  high := by
    have h2 : (16 : ℝ) * (2 : ℝ) ^ (400 : ℤ) ≤ (2 : ℝ) ^ (1022 : ℤ) := by
      rw [show (16 : ℝ) = (2 : ℝ) ^ (4 : ℤ) by norm_num, zpow2_mul]
      exact zpow2_le (by norm_num)
    have one := zpow2_le (show (0 : ℤ) ≤ 400 by norm_num)
    rw [zpow_zero] at one
    generalize (2 : ℝ) ^ (400 : ℤ) = Q at *
    generalize (2 : ℝ) ^ (1022 : ℤ) = Q' at *
    linarith
/-- `f32` meets the requirements. -/
theorem planeStd32 (h0 : (2 : ℝ) ^ (-60 : ℤ) ≤ M) (h1 : M ≤ (2 : ℝ) ^ (100 : ℤ)) : PlaneStd binary32 ((2 : ℝ) ^ (-24 : ℤ)) ((2 : ℝ) ^ (-150 : ℤ)) ((2 : ℝ) ^ (126 : ℤ)) M where
  std := std32
  u' := by norm_num
  pos := zpow2_pos _
  M0 := (zpow2_pos _).trans_le h0
  low := by norm_num
  low' := by
    refine le_trans ?_ (mul_le_mul_of_nonneg_left h0 (zpow2_pos _).le)
    norm_num
  high := by
    refine (show 8 * M + 8 ≤ 8 * (2 : ℝ) ^ (100 : ℤ) + 8 by linarith).trans ?_
    norm_num

/-- **C127 in `f64`.** -/
theorem c127_f64 (h0 : (2 : ℝ) ^ (-400 : ℤ) ≤ M) (h1 : M ≤ (2 : ℝ) ^ (400 : ℤ)) {P : Plane ℝ} {o d : V3 ℝ} (hr : PlaneRayIn binary64 ((2 : ℝ) ^ (-53 : ℤ)) M P o d) {t : ℝ} (ht : P.OnAlt (o + d * t))
    (hT : |t| ≤ (2 : ℝ) ^ (1000 : ℤ)) :
    PlaneRayOk binary64 (40 * (2 : ℝ) ^ (-53 : ℤ)) M t P o d (planePointF binary64 (planeR binary64 P) (rayR binary64 o d)) (planeHitF binary64 (planeR binary64 P) (rayR binary64 o d)) := by
  refine c127_ray (planeStd64 h0 h1) hr ht ?_
  have h2 : (32 : ℝ) * (2 : ℝ) ^ (1000 : ℤ) ≤ (2 : ℝ) ^ (1022 : ℤ) := by
    rw [show (32 : ℝ) = (2 : ℝ) ^ (5 : ℤ) by norm_num, zpow2_mul]
    exact zpow2_le (by norm_num)
  have one := zpow2_le (show (0 : ℤ) ≤ 1000 by norm_num)
  have h3 := zpow2_le (show (400 : ℤ) ≤ 1000 by norm_num)
  rw [zpow_zero] at one
  generalize (2 : ℝ) ^ (400 : ℤ) = Q at *
  generalize (2 : ℝ) ^ (1000 : ℤ) = Q2 at *
  generalize (2 : ℝ) ^ (1022 : ℤ) = Q' at *
  linarith
/-- **C127 in `f32`.** -/
theorem c127_f32 (h0 : (2 : ℝ) ^ (-60 : ℤ) ≤ M) (h1 : M ≤ (2 : ℝ) ^ (100 : ℤ)) {P : Plane ℝ} {o d : V3 ℝ} (hr : PlaneRayIn binary32 ((2 : ℝ) ^ (-24 : ℤ)) M P o d) {t : ℝ} (ht : P.OnAlt (o + d * t))
    (hT : |t| ≤ (2 : ℝ) ^ (100 : ℤ)) :
    PlaneRayOk binary32 (40 * (2 : ℝ) ^ (-24 : ℤ)) M t P o d (planePointF binary32 (planeR binary32 P) (rayR binary32 o d)) (planeHitF binary32 (planeR binary32 P) (rayR binary32 o d)) := by
  refine c127_ray (planeStd32 h0 h1) hr ht ?_
  refine (show 8 * (M + |t|) + 8 ≤ 16 * (2 : ℝ) ^ (100 : ℤ) + 8 by linarith).trans ?_
  norm_num

/-! ## Parallel rays -/
/-- **C127, parallel rays** (exact arithmetic with infinities and NaN; `neg` is the sign of the zero the denominator is). A ray in the plane is not reported by the discrete test, but the continuous test answers `Some`; a parallel ray outside
of the plane never meets it, but the discrete test reports it when it is on the side where `n·p + d` is negative (for a denominator of `-0`: positive), and then the continuous test answers `Some`, too. No component of the points is a number. -/
theorem c127_parallel {K : Type} [Field K] [LinearOrder K] [IsStrictOrderedRing K] (neg : Bool) (P : Plane K) (r : Ray3 K) (h : r.direction.dot P.n = 0) :
    (P.OnAlt r.origin → P.intersectsRay neg r = false ∧ (P.intersectionRay neg r).isSome) ∧
    (¬ P.OnAlt r.origin → (∀ t, ¬ P.OnAlt (r.at t)) ∧ (P.intersectsRay neg r = true ↔ if neg then 0 < P.d + r.origin.dot P.n else P.d + r.origin.dot P.n < 0) ∧ P.intersectsRay neg r = (P.intersectionRay neg r).isSome) ∧
    ∀ q, P.intersectionRay neg r = some q → ∀ x : K, q.x ≠ .fin x ∧ q.y ≠ .fin x ∧ q.z ≠ .fin x := by
  have on : P.OnAlt r.origin ↔ P.d + r.origin.dot P.n = 0 := by
    simp only [Plane.OnAlt, V3.dot]
    constructor <;> intro h <;> linear_combination h
  have ext : ∀ (o d : K) (T : Ext K), T = .nan ∨ T = .pinf ∨ T = .ninf → ∀ x, Ext.add (.fin o) (Ext.mul (.fin d) T) ≠ .fin x := by
    rintro o d T (rfl | rfl | rfl) x <;> simp only [Ext.mul] <;> repeat' split
    all_goals simp [Ext.add]
  have fin : ∀ T : Ext K, T = .nan ∨ T = .pinf ∨ T = .ninf → ∀ q, (if Ext.lt T (.fin 0) then none else some (r.atE T)) = some q → ∀ x : K, q.x ≠ .fin x ∧ q.y ≠ .fin x ∧ q.z ≠ .fin x := by
    intro T hT q hq x
    split at hq
    · cases hq
    · cases hq
      exact ⟨ext _ _ T hT x, ext _ _ T hT x, ext _ _ T hT x⟩
  have never : ¬ P.OnAlt r.origin → ∀ t, ¬ P.OnAlt (r.at t) := by
    intro h1 t h2
    refine h1 ?_
    simp only [Plane.OnAlt, V3.dot, Ray3.at, V3.add_x, V3.add_y, V3.add_z, V3.mul_x, V3.mul_y, V3.mul_z] at *
    linear_combination h2 - t * h
  unfold Plane.intersectsRay Plane.intersectionRay Plane.rayT
  rw [on] at never
  rw [h, on]
  generalize P.d + r.origin.dot P.n = a at *
  rcases lt_trichotomy a 0 with ha | ha | ha
  · cases neg
    · have : Ext.div false (-a) 0 = (.pinf : Ext K) := by simp [Ext.div, ha.ne, ha]
      rw [this]
      exact ⟨fun k => absurd k ha.ne, fun k => ⟨never k, by simp [Ext.le, ha], by simp [Ext.le, Ext.lt]⟩, fin _ (by simp)⟩
    · have : Ext.div true (-a) 0 = (.ninf : Ext K) := by simp [Ext.div, ha.ne, ha]
      rw [this]
      exact ⟨fun k => absurd k ha.ne, fun k => ⟨never k, by simp [Ext.le, ha.le], by simp [Ext.le, Ext.lt]⟩, fin _ (by simp)⟩
  · have : Ext.div neg (-a) 0 = (.nan : Ext K) := by simp [Ext.div, ha]
    rw [this]
    exact ⟨fun _ => by simp [Ext.le, Ext.lt], fun k => absurd ha k, fin _ (by simp)⟩
  · cases neg
    · have : Ext.div false (-a) 0 = (.ninf : Ext K) := by simp [Ext.div, ha.ne', ha.le]
      rw [this]
      exact ⟨fun k => absurd k ha.ne', fun k => ⟨never k, by simp [Ext.le, ha.le], by simp [Ext.le, Ext.lt]⟩, fin _ (by simp)⟩
    · have : Ext.div true (-a) 0 = (.pinf : Ext K) := by simp [Ext.div, ha.ne', ha.le]
      rw [this]
      exact ⟨fun k => absurd k ha.ne', fun k => ⟨never k, by simp [Ext.le, ha], by simp [Ext.le, Ext.lt]⟩, fin _ (by simp)⟩
/-- A horizontal ray below the plane `z = 1` is reported, one above is not; neither meets it. -/
example : (Plane.intersectsRay false (⟨⟨0, 0, 1⟩, -1⟩ : Plane ℚ) ⟨⟨0, 0, 0⟩, ⟨1, 0, 0⟩⟩ = true ∧ ∀ t, ¬ (⟨⟨0, 0, 1⟩, -1⟩ : Plane ℚ).OnAlt (Ray3.at ⟨⟨0, 0, 0⟩, ⟨1, 0, 0⟩⟩ t)) ∧
    Plane.intersectsRay false (⟨⟨0, 0, 1⟩, -1⟩ : Plane ℚ) ⟨⟨0, 0, 2⟩, ⟨1, 0, 0⟩⟩ = false := by
  obtain ⟨-, h1, -⟩ := c127_parallel false (⟨⟨0, 0, 1⟩, -1⟩ : Plane ℚ) ⟨⟨0, 0, 0⟩, ⟨1, 0, 0⟩⟩ (by norm_num [V3.dot])
  obtain ⟨-, h2, -⟩ := c127_parallel false (⟨⟨0, 0, 1⟩, -1⟩ : Plane ℚ) ⟨⟨0, 0, 2⟩, ⟨1, 0, 0⟩⟩ (by norm_num [V3.dot])
  obtain ⟨a1, a2, -⟩ := h1 (by norm_num [Plane.OnAlt])
  obtain ⟨-, b2, -⟩ := h2 (by norm_num [Plane.OnAlt])
  refine ⟨⟨a2.2 (by norm_num [V3.dot]), a1⟩, ?_⟩
  rw [← Bool.not_eq_true, b2]
  norm_num [V3.dot]

/-! ## An example in `f32` -/
/-- The plane `z = 1` in the convention of the test. -/
def ceiling : Plane ℝ := ⟨⟨0, 0, 1⟩, -1⟩
/-- A ray from the origin in direction `(1/2, 0, 1/2)` hits the plane `z = 1` near `(1, 0, 1)`; the opposite ray does not. -/
example : (∃ q : V3 ℝ, planePointF binary32 (planeR binary32 ceiling) (rayR binary32 0 ⟨1 / 2, 0, 1 / 2⟩) = some (vecR binary32 q) ∧ Sz3 (1 / 1000) (q - ⟨1, 0, 1⟩)) ∧
    planeHitF binary32 (planeR binary32 ceiling) (rayR binary32 0 ⟨-1 / 2, 0, -1 / 2⟩) = false := by
  have r0 := rep_zero (R := binary32)
  have r1 := rep_one (R := binary32)
  have rm1 : Rep binary32 (-1 : ℝ) := rep_of_rep32 ⟨-1, 0, by norm_num, by norm_num, by norm_num, by norm_num⟩
  have rh : Rep binary32 ((1 : ℝ) / 2) := rep_of_rep32 ⟨1, -1, by norm_num, by norm_num, by norm_num, by norm_num⟩
  have rmh : Rep binary32 ((-1 : ℝ) / 2) := rep_of_rep32 ⟨-1, -1, by norm_num, by norm_num, by norm_num, by norm_num⟩
  have q1 := c127_f32 (M := 1) (P := ceiling) (o := 0) (d := ⟨1 / 2, 0, 1 / 2⟩) (t := 2) (by norm_num) (by norm_num)
    ⟨⟨⟨r0, r0, r1⟩, by norm_num [Sz3, ceiling]⟩, ⟨rm1, by norm_num [ceiling]⟩, ⟨⟨r0, r0, r0⟩, by norm_num [Sz3]⟩, ⟨⟨rh, r0, rh⟩, by norm_num [Sz3]⟩, by norm_num [ceiling, V3.dot]⟩
    (by norm_num [Plane.OnAlt, ceiling]) (by norm_num)
  have q2 := c127_f32 (M := 1) (P := ceiling) (o := 0) (d := ⟨-1 / 2, 0, -1 / 2⟩) (t := -2) (by norm_num) (by norm_num)
    ⟨⟨⟨r0, r0, r1⟩, by norm_num [Sz3, ceiling]⟩, ⟨rm1, by norm_num [ceiling]⟩, ⟨⟨r0, r0, r0⟩, by norm_num [Sz3]⟩, ⟨⟨rmh, r0, rmh⟩, by norm_num [Sz3]⟩, by norm_num [ceiling, V3.dot]⟩
    (by norm_num [Plane.OnAlt, ceiling]) (by norm_num)
  constructor
  · cases e : planePointF binary32 (planeR binary32 ceiling) (rayR binary32 0 ⟨1 / 2, 0, 1 / 2⟩) with
    | none =>
      have := q1.miss e
      norm_num [ceiling, V3.dot] at this
    | some p =>
      obtain ⟨q, -, rfl, -, h, -⟩ := q1.point p e
      refine ⟨q, rfl, ?_⟩
      norm_num [ceiling, V3.dot, Sz3] at h ⊢
      exact ⟨h.1.trans (by norm_num), h.2.1.trans (by norm_num), h.2.2.trans (by norm_num)⟩
  · rw [q2.same, q2.away (by norm_num [ceiling, V3.dot])]
    rfl

end
end Verif.Scene
