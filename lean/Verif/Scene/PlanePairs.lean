import Verif.Scene.PlaneRay
/-!
# C128: intersections of two and of three planes in rounded arithmetic

The point in which three planes meet and the line in which two planes meet are computed with an error of at most a multiple of the unit roundoff divided by the denominator the code tests against `ulps_eq!(_, 0)`; planes are taken for
parallel only when the exact denominator is at most the tolerance of that test up to rounding.
-/
namespace Verif.Scene
open Verif Geom Primitive Minkowski
open Verif.Dbvt (Rounding PlaneF F64 binary64 Rep64)
open Verif.Dbvt.B32 (F32 binary32 Rep32)
set_option linter.unusedSectionVars false
noncomputable section
open Classical
variable {F : Type} [LinearOrder F] {R : Rounding F} {u η Ω M E : ℝ}

section model
variable (R : Rounding F)
/-- `Vector3::cross` of cgmath in rounded arithmetic -/
def crossF (a b : V3 F) : V3 F := ⟨R.sub (R.mul a.y b.z) (R.mul a.z b.y), R.sub (R.mul a.z b.x) (R.mul a.x b.z), R.sub (R.mul a.x b.y) (R.mul a.y b.x)⟩
/-- `Vector3 * S` -/
def scaleF (a : V3 F) (s : F) : V3 F := ⟨R.mul a.x s, R.mul a.y s, R.mul a.z s⟩
/-- `Vector3: Add` -/
def addVF (a b : V3 F) : V3 F := ⟨R.add a.x b.x, R.add a.y b.y, R.add a.z b.z⟩
/-- `Vector3: Sub` -/
def subVF (a b : V3 F) : V3 F := ⟨R.sub a.x b.x, R.sub a.y b.y, R.sub a.z b.z⟩
/-- `Vector3 / S` -/
def divVF (a : V3 F) (s : F) : V3 F := ⟨R.div a.x s, R.div a.y s, R.div a.z s⟩
/-- `ulps_eq!(x, 0)` and `ulps_eq!(x.abs(), 0)` for a number: the absolute value is at most `eps` (which is more than the four steps of the second criterion) -/
def nearZero (eps x : F) : Prop := x ≤ eps ∧ negF R x ≤ eps
/-- `Continuous<(Plane, Plane)> for Plane`, `src/plane.rs:224-236` -/
def threePlanesF (eps : F) (p1 p2 p3 : PlaneF F) : Option (V3 F) :=
  let u := crossF R p2.n p3.n
  let denom := dotF R p1.n u
  if nearZero R eps denom then none else
  some (divVF R (addVF R (scaleF R u p1.d) (crossF R p1.n (subVF R (scaleF R p2.n p3.d) (scaleF R p3.n p2.d)))) denom)
/-- `Discrete<(Plane, Plane)> for Plane`, `src/plane.rs:238-246` -/
def threePlanesMeetF (eps : F) (p1 p2 p3 : PlaneF F) : Bool :=
  let u := crossF R p2.n p3.n
  let denom := dotF R p1.n u
  decide (¬ nearZero R eps denom)
/-- `Continuous<Plane> for Plane`, `src/plane.rs:199-212` -/
def twoPlanesF (eps : F) (p1 p2 : PlaneF F) : Option (Ray3 F) :=
  let d := crossF R p1.n p2.n
  let denom := dotF R d d
  if nearZero R eps denom then none else
  let p := divVF R (crossF R (subVF R (scaleF R p2.n p1.d) (scaleF R p1.n p2.d)) d) denom
  some ⟨p, d⟩
/-- `Discrete<Plane> for Plane`, `src/plane.rs:214-221` -/
def twoPlanesMeetF (eps : F) (p1 p2 : PlaneF F) : Bool :=
  let d := crossF R p1.n p2.n
  let denom := dotF R d d
  decide (¬ nearZero R eps denom)
/-- The plane has coefficients in the format; those of the normal are at most `101 / 100`, the distance is at most `M`. -/
structure PlaneFits (M : ℝ) (P : Plane ℝ) : Prop where
  n : Rep3 R P.n ∧ Sz3 (101 / 100) P.n
  dist : Rep R P.d ∧ |P.d| ≤ M
end model

/-! ## Operations on vectors -/
/-- Components of `a` and `b` differ by at most `e`. -/
def Near3 (e : ℝ) (a b : V3 ℝ) : Prop := |a.x - b.x| ≤ e ∧ |a.y - b.y| ≤ e ∧ |a.z - b.z| ≤ e
theorem Near3.sz {e A : ℝ} {a b : V3 ℝ} (h : Near3 e a b) (hb : Sz3 A b) : Sz3 (A + e) a := by
  obtain ⟨h1, h2, h3⟩ := h
  obtain ⟨b1, b2, b3⟩ := hb
  have one : ∀ {x y : ℝ}, |x - y| ≤ e → |y| ≤ A → |x| ≤ A + e := by
    intro x y h h'
    rw [abs_le] at *
    constructor <;> linarith
  exact ⟨one h1 b1, one h2 b2, one h3 b3⟩
theorem Near3.mono {e e' : ℝ} {a b : V3 ℝ} (h : Near3 e a b) (h' : e ≤ e') : Near3 e' a b := ⟨h.1.trans h', h.2.1.trans h', h.2.2.trans h'⟩
theorem Near3.trans {e e' : ℝ} {a b c : V3 ℝ} (h : Near3 e a b) (h' : Near3 e' b c) : Near3 (e + e') a c := by
  have one : ∀ {x y z : ℝ}, |x - y| ≤ e → |y - z| ≤ e' → |x - z| ≤ e + e' := fun h h' => (abs_sub_le _ _ _).trans (add_le_add h h')
  exact ⟨one h.1 h'.1, one h.2.1 h'.2.1, one h.2.2 h'.2.2⟩
theorem sz_mono {A B : ℝ} {a : V3 ℝ} (h : Sz3 A a) (hAB : A ≤ B) : Sz3 B a := ⟨h.1.trans hAB, h.2.1.trans hAB, h.2.2.trans hAB⟩

/-- A difference of two products. -/
theorem det_err (h : Std R u η Ω) {a b c d P : ℝ} (ra : Rep R a) (rb : Rep R b) (rc : Rep R c) (rd : Rep R d) (h1 : |a * b| ≤ P) (h2 : |c * d| ≤ P) (hΩ : 3 * P + 1 ≤ Ω) :
    ∃ p, Rep R p ∧ R.sub (R.mul (toF R a) (toF R b)) (R.mul (toF R c) (toF R d)) = toF R p ∧ |p - (a * b - c * d)| ≤ 5 * (u * P) + 4 * η := by
  have hP : 0 ≤ P := (abs_nonneg _).trans h1
  have hu := h.u0
  have hu1 := h.u1
  have hη := h.η0
  have hη1 := h.η1
  have uP0 : 0 ≤ u * P := mul_nonneg hu hP
  have uP : u * P ≤ 1 / 16 * P := mul_le_mul_of_nonneg_right hu1 hP
  have u2 : u * (u * P) ≤ 1 / 16 * (u * P) := mul_le_mul_of_nonneg_right hu1 uP0
  have uη : u * η ≤ 1 / 16 * η := mul_le_mul_of_nonneg_right hu1 hη
  obtain ⟨x, rx, ex, dx⟩ := h.fl h1 (by linarith)
  obtain ⟨y, ry, ey, dy⟩ := h.fl h2 (by linarith)
  have h3 : |x - y| ≤ 2 * P + 2 * (u * P) + 2 * η := by
    rw [abs_le] at *
    constructor <;> linarith
  obtain ⟨p, rp, ep, dp⟩ := h.fl h3 (by linarith)
  refine ⟨p, rp, by rw [rmul ra rb, rmul rc rd, ex, ey, rsub rx ry, ep], ?_⟩
  have q : u * (2 * P + 2 * (u * P) + 2 * η) = 2 * (u * P) + 2 * (u * (u * P)) + 2 * (u * η) := by ring
  rw [q] at dp
  rw [abs_le] at *
  constructor <;> linarith
/-- The rounded cross product. -/
theorem cross_err (h : Std R u η Ω) {a b : V3 ℝ} {A B : ℝ} (ra : Rep3 R a) (rb : Rep3 R b) (sa : Sz3 A a) (sb : Sz3 B b) (hΩ : 3 * (A * B) + 1 ≤ Ω) :
    ∃ c, Rep3 R c ∧ crossF R (vecR R a) (vecR R b) = vecR R c ∧ Near3 (5 * (u * (A * B)) + 4 * η) c (a.cross b) := by
  obtain ⟨a1, a2, a3⟩ := ra
  obtain ⟨b1, b2, b3⟩ := rb
  obtain ⟨s1, s2, s3⟩ := sa
  obtain ⟨t1, t2, t3⟩ := sb
  obtain ⟨x, rx, ex, dx⟩ := det_err h a2 b3 a3 b2 (mul_abs_le s2 t3) (mul_abs_le s3 t2) hΩ
  obtain ⟨y, ry, ey, dy⟩ := det_err h a3 b1 a1 b3 (mul_abs_le s3 t1) (mul_abs_le s1 t3) hΩ
  obtain ⟨z, rz, ez, dz⟩ := det_err h a1 b2 a2 b1 (mul_abs_le s1 t2) (mul_abs_le s2 t1) hΩ
  refine ⟨⟨x, y, z⟩, ⟨rx, ry, rz⟩, ?_, dx, dy, dz⟩
  show (⟨_, _, _⟩ : V3 F) = ⟨_, _, _⟩
  congr 1
/-- The rounded combination `a * s - b * t`. -/
theorem comb_err (h : Std R u η Ω) {a b : V3 ℝ} {s t A S : ℝ} (ra : Rep3 R a) (rb : Rep3 R b) (rs : Rep R s) (rt : Rep R t) (sa : Sz3 A a) (sb : Sz3 A b) (ss : |s| ≤ S) (st : |t| ≤ S) (hΩ : 3 * (A * S) + 1 ≤ Ω) :
    ∃ c, Rep3 R c ∧ subVF R (scaleF R (vecR R a) (numR R s)) (scaleF R (vecR R b) (numR R t)) = vecR R c ∧ Near3 (5 * (u * (A * S)) + 4 * η) c (a * s - b * t) := by
  obtain ⟨a1, a2, a3⟩ := ra
  obtain ⟨b1, b2, b3⟩ := rb
  obtain ⟨s1, s2, s3⟩ := sa
  obtain ⟨t1, t2, t3⟩ := sb
  obtain ⟨x, rx, ex, dx⟩ := det_err h a1 rs b1 rt (mul_abs_le s1 ss) (mul_abs_le t1 st) hΩ
  obtain ⟨y, ry, ey, dy⟩ := det_err h a2 rs b2 rt (mul_abs_le s2 ss) (mul_abs_le t2 st) hΩ
  obtain ⟨z, rz, ez, dz⟩ := det_err h a3 rs b3 rt (mul_abs_le s3 ss) (mul_abs_le t3 st) hΩ
  refine ⟨⟨x, y, z⟩, ⟨rx, ry, rz⟩, ?_, dx, dy, dz⟩
  show (⟨_, _, _⟩ : V3 F) = ⟨_, _, _⟩
  congr 1

/-- The cross product of nearby vectors. -/
theorem cross_near {a a' b b' : V3 ℝ} {A B e f : ℝ} (ha : Near3 e a' a) (hb : Near3 f b' b) (sa : Sz3 A a) (sb : Sz3 B b') : Near3 (2 * (e * B + A * f)) (a'.cross b') (a.cross b) := by
  obtain ⟨h1, h2, h3⟩ := ha
  obtain ⟨k1, k2, k3⟩ := hb
  obtain ⟨s1, s2, s3⟩ := sa
  obtain ⟨t1, t2, t3⟩ := sb
  have one : ∀ {x x' y y' z z' w w' : ℝ}, |x' - x| ≤ e → |y' - y| ≤ f → |x| ≤ A → |y'| ≤ B → |z' - z| ≤ e → |w' - w| ≤ f → |z| ≤ A → |w'| ≤ B → |x' * y' - z' * w' - (x * y - z * w)| ≤ 2 * (e * B + A * f) := by
    intro x x' y y' z z' w w' p1 p2 p3 p4 p5 p6 p7 p8
    have q1 := mul_abs_le p1 p4
    have q2 := mul_abs_le p3 p2
    have q3 := mul_abs_le p5 p8
    have q4 := mul_abs_le p7 p6
    rw [show x' * y' - z' * w' - (x * y - z * w) = ((x' - x) * y' + x * (y' - y)) - ((z' - z) * w' + z * (w' - w)) by ring]
    rw [abs_le] at *
    constructor <;> linarith
  exact ⟨one h2 k3 s2 t3 h3 k2 s3 t2, one h3 k1 s3 t1 h1 k3 s1 t3, one h1 k2 s1 t2 h2 k1 s2 t1⟩
/-- The dot product of nearby vectors. -/
theorem dot_near {a a' b b' : V3 ℝ} {A B e f : ℝ} (ha : Near3 e a' a) (hb : Near3 f b' b) (sa : Sz3 A a) (sb : Sz3 B b') : |a'.dot b' - a.dot b| ≤ 3 * (e * B + A * f) := by
  obtain ⟨h1, h2, h3⟩ := ha
  obtain ⟨k1, k2, k3⟩ := hb
  obtain ⟨s1, s2, s3⟩ := sa
  obtain ⟨t1, t2, t3⟩ := sb
  have one : ∀ {x x' y y' : ℝ}, |x' - x| ≤ e → |y' - y| ≤ f → |x| ≤ A → |y'| ≤ B → |x' * y' - x * y| ≤ e * B + A * f := by
    intro x x' y y' p1 p2 p3 p4
    have q1 := mul_abs_le p1 p4
    have q2 := mul_abs_le p3 p2
    rw [show x' * y' - x * y = (x' - x) * y' + x * (y' - y) by ring]
    exact (abs_add_le _ _).trans (add_le_add q1 q2)
  have q1 := one h1 k1 s1 t1
  have q2 := one h2 k2 s2 t2
  have q3 := one h3 k3 s3 t3
  simp only [V3.dot]
  rw [abs_le] at *
  constructor <;> linarith
theorem near_refl {a : V3 ℝ} : Near3 0 a a := by simp [Near3]
theorem cross_sz {a b : V3 ℝ} {A B : ℝ} (sa : Sz3 A a) (sb : Sz3 B b) : Sz3 (2 * (A * B)) (a.cross b) := by
  obtain ⟨s1, s2, s3⟩ := sa
  obtain ⟨t1, t2, t3⟩ := sb
  have one : ∀ {x y z w : ℝ}, |x| ≤ A → |y| ≤ B → |z| ≤ A → |w| ≤ B → |x * y - z * w| ≤ 2 * (A * B) := by
    intro x y z w p1 p2 p3 p4
    have q1 := mul_abs_le p1 p2
    have q2 := mul_abs_le p3 p4
    rw [abs_le] at *
    constructor <;> linarith
  exact ⟨one s2 t3 s3 t2, one s3 t1 s1 t3, one s1 t2 s2 t1⟩

/-- A rounded quotient. -/
theorem quot_err (h : PlaneStd R u η Ω M) {num den num' den' p W c : ℝ} (hc : 1 ≤ c) (rn : Rep R num') (rd : Rep R den') (hp : p * den = num) (hn : |num' - num| ≤ c * (u * M)) (hd : |den' - den| ≤ c * u) (hs : 16 * (c * u) ≤ |den|) (hD : |den| ≤ 16)
    (hW : M + |p| ≤ W) (hΩ : 2 * W ≤ Ω) : ∃ q, Rep R q ∧ R.div (numR R num') (numR R den') = numR R q ∧ |q - p| ≤ (11 / 10 * c + 20) * (u * W / |den|) := by
  have hu := h.pos
  have hu' := h.u'
  have hM := h.M0
  have l2 := h.low'
  have hc0 : 0 < c := by linarith
  have cu : 0 < c * u := mul_pos hc0 hu
  have hb0 : 0 < |den| := by linarith
  have h1 : |den| ≤ |den'| + |den' - den| := by
    have := abs_sub_abs_le_abs_sub den den'
    rw [abs_sub_comm den den'] at this
    linarith
  have h2 : 15 / 16 * |den| ≤ |den'| := by linarith
  have hb' : 0 < |den'| := by linarith
  have hne : den' ≠ 0 := abs_pos.1 hb'
  have hW0 : 0 < W := by linarith [abs_nonneg p]
  generalize he : u * W / |den| = e
  have e0 : 0 < e := by rw [← he]; positivity
  have heb : e * |den| = u * W := by rw [← he]; field_simp
  have uW : u * W ≤ 16 * e := by
    rw [← heb]
    have := mul_le_mul_of_nonneg_left hD e0.le
    linarith
  have heW : 16 * (c * e) ≤ W := by
    rw [← he, ← mul_div_assoc, ← mul_div_assoc, div_le_iff₀ hb0]
    have := mul_le_mul_of_nonneg_left hs hW0.le
    linarith
  have k0 : |num' / den' - p| ≤ 16 / 15 * (c * e) := by
    have q : num' / den' - p = ((num' - num) - p * (den' - den)) / den' := by
      field_simp
      linarith
    rw [q, abs_div, div_le_iff₀ hb']
    have k1 : |(num' - num) - p * (den' - den)| ≤ c * (u * W) := by
      refine (abs_sub _ _).trans ?_
      rw [abs_mul]
      have h3 := mul_le_mul_of_nonneg_left hd (abs_nonneg p)
      have h4 := mul_le_mul_of_nonneg_left hW cu.le
      linarith
    have k2 := mul_le_mul_of_nonneg_left h2 (mul_pos hc0 e0).le
    rw [← heb] at k1
    linarith
  have hq : |num' / den'| ≤ 11 / 10 * W := by
    rw [abs_le] at k0 ⊢
    have := abs_le.1 (show |p| ≤ W - M by linarith)
    constructor <;> linarith
  obtain ⟨q, rq, eq, dq⟩ := h.std.fl hq (by linarith)
  refine ⟨q, rq, (rdiv rn rd).trans eq, ?_⟩
  have uMW : u * M ≤ u * W := mul_le_mul_of_nonneg_left (by linarith [abs_nonneg p]) hu.le
  have ce : e ≤ c * e := by
    have := mul_le_mul_of_nonneg_right hc e0.le
    linarith
  rw [abs_le] at dq k0 ⊢
  constructor <;> linarith

/-- The test for zero. -/
theorem nearZero_iff (h : Std R u η Ω) {x : ℝ} (rx : Rep R x) (rE : Rep R E) (hx : |x| ≤ Ω) : nearZero R (numR R E) (numR R x) ↔ |x| ≤ E := by
  unfold nearZero
  have e : negF R (numR R x) = numR R (-x) := rneg rx
  have h1 : numR R x ≤ numR R E ↔ x ≤ E := toF_le rx rE
  have h2 : numR R (-x) ≤ numR R E ↔ -x ≤ E := toF_le (h.rep_neg hx rx) rE
  rw [e, h1, h2, abs_le]
  constructor
  · rintro ⟨a, b⟩
    constructor <;> linarith
  · rintro ⟨a, b⟩
    constructor <;> linarith

/-! ## Three planes -/
theorem three_num {P1 P2 P3 : Plane ℝ} {p : V3 ℝ} (h1 : P1.On p) (h2 : P2.On p) (h3 : P3.On p) :
    (P2.n.cross P3.n) * P1.d + P1.n.cross (P2.n * P3.d - P3.n * P2.d) = p * P1.n.dot (P2.n.cross P3.n) := by
  obtain ⟨⟨a1, a2, a3⟩, d1⟩ := P1
  obtain ⟨⟨b1, b2, b3⟩, d2⟩ := P2
  obtain ⟨⟨c1, c2, c3⟩, d3⟩ := P3
  obtain ⟨x, y, z⟩ := p
  simp only [Plane.On] at h1 h2 h3
  obtain rfl : d1 = a1 * x + a2 * y + a3 * z := by linarith
  obtain rfl : d2 = b1 * x + b2 * y + b3 * z := by linarith
  obtain rfl : d3 = c1 * x + c2 * y + c3 * z := by linarith
  ext <;> simp [V3.cross, V3.dot] <;> ring

/-- The sum `a * s + b` in one coordinate. -/
theorem axpy_err (h : PlaneStd R u η Ω M) {a a' s b b' : ℝ} (ra : Rep R a') (rs : Rep R s) (rb : Rep R b') (ea : |a' - a| ≤ 21 / 4 * u) (sa : |a'| ≤ 206 / 100) (ss : |s| ≤ M) (eb : |b' - b| ≤ 215 / 10 * (u * M)) (sb : |b'| ≤ 412 / 100 * M) :
    ∃ q, Rep R q ∧ R.add (R.mul (numR R a') (numR R s)) (numR R b') = numR R q ∧ |q - (a * s + b)| ≤ 40 * (u * M) := by
  have hu := h.pos
  have hu' := h.u'
  have hM := h.M0
  have l2 := h.low'
  have uM0 : 0 < u * M := mul_pos hu hM
  have uM : u * M ≤ 1 / 4096 * M := mul_le_mul_of_nonneg_right hu' hM.le
  have hh := h.high
  have k1 := mul_abs_le sa ss
  obtain ⟨x, rx, ex, dx⟩ := h.std.fl k1 (by linarith)
  have k2 : |x + b'| ≤ 62 / 10 * M := by
    rw [abs_le] at *
    constructor <;> linarith
  obtain ⟨q, rq, eq, dq⟩ := h.std.fl k2 (by linarith)
  have k3 := mul_abs_le ea ss
  refine ⟨q, rq, ?_, ?_⟩
  · have e1 : R.mul (numR R a') (numR R s) = numR R x := (rmul ra rs).trans ex
    rw [e1]
    exact (radd rx rb).trans eq
  · rw [show q - (a * s + b) = (q - (x + b')) + (x - a' * s) + (a' - a) * s + (b' - b) by ring]
    rw [abs_le] at *
    constructor <;> linarith

/-- **C128, three planes.** -/
theorem c128_three (h : PlaneStd R u η Ω M) (hM16 : 32 * M + 32 ≤ Ω) (rE : Rep R E) {P1 P2 P3 : Plane ℝ} (f1 : PlaneFits R M P1) (f2 : PlaneFits R M P2) (f3 : PlaneFits R M P3) :
    let D := P1.n.dot (P2.n.cross P3.n)
    let r := threePlanesF R (numR R E) (planeR R P1) (planeR R P2) (planeR R P3)
    threePlanesMeetF R (numR R E) (planeR R P1) (planeR R P2) (planeR R P3) = r.isSome ∧ (r = none → |D| ≤ E + 40 * u) ∧ (|D| ≤ E - 40 * u → r = none) ∧
    ∀ q, r = some q → 640 * u ≤ |D| → ∀ p : V3 ℝ, P1.On p ∧ P2.On p ∧ P3.On p → ∀ S, Sz3 S p → 2 * (M + S) ≤ Ω → ∃ q', Rep3 R q' ∧ q = vecR R q' ∧ Near3 (64 * (u * (M + S) / |D|)) q' p := by
  intro D r
  have hu := h.pos
  have hu' := h.u'
  have hM := h.M0
  have l1 := h.low
  have l2 := h.low'
  have hη := h.std.η0
  have uM0 : 0 < u * M := mul_pos hu hM
  have uM : u * M ≤ 1 / 4096 * M := mul_le_mul_of_nonneg_right hu' hM.le
  have hh := h.high
  have d1 := f1.dist.2
  have d2 := f2.dist.2
  have d3 := f3.dist.2
  -- the cross product and the denominator
  obtain ⟨c, rc, ec, nc⟩ := cross_err h.std f2.n.1 f3.n.1 f2.n.2 f3.n.2 (by linarith)
  have nc' : Near3 (21 / 4 * u) c (P2.n.cross P3.n) := nc.mono (by linarith)
  have sc : Sz3 (206 / 100) c := sz_mono (nc'.sz (cross_sz f2.n.2 f3.n.2)) (by linarith)
  obtain ⟨D', rD, eD, dD⟩ := dot3_err h.std f1.n.1 rc f1.n.2 sc (by linarith)
  have hD1 := dot_near near_refl nc' f1.n.2 sc
  have hD : |D' - D| ≤ 40 * u := by
    show |D' - P1.n.dot (P2.n.cross P3.n)| ≤ 40 * u
    rw [abs_le] at *
    constructor <;> linarith
  have sD : |D| ≤ 16 := (dot3_abs_le f1.n.2 (cross_sz f2.n.2 f3.n.2)).trans (by norm_num)
  have sD' : |D'| ≤ Ω := by
    have := abs_sub_abs_le_abs_sub D' D
    linarith
  have eD' : dotF R (vecR R P1.n) (vecR R c) = numR R D' := eD
  have hz := nearZero_iff h.std rD rE sD'
  -- the numerator
  obtain ⟨v, rv, ev, nv⟩ := comb_err h.std f2.n.1 f3.n.1 f3.dist.1 f2.dist.1 f2.n.2 f3.n.2 d3 d2 (by linarith)
  have nv' : Near3 (21 / 4 * (u * M)) v (P2.n * P3.d - P3.n * P2.d) := nv.mono (by linarith)
  have sv0 : Sz3 (202 / 100 * M) (P2.n * P3.d - P3.n * P2.d) := by
    obtain ⟨a1, a2, a3⟩ := f2.n.2
    obtain ⟨b1, b2, b3⟩ := f3.n.2
    have one : ∀ {x y : ℝ}, |x| ≤ 101 / 100 → |y| ≤ 101 / 100 → |x * P3.d - y * P2.d| ≤ 202 / 100 * M := by
      intro x y hx hy
      have q1 := mul_abs_le hx d3
      have q2 := mul_abs_le hy d2
      rw [abs_le] at *
      constructor <;> linarith
    exact ⟨one a1 b1, one a2 b2, one a3 b3⟩
  have sv : Sz3 (203 / 100 * M) v := sz_mono (nv'.sz sv0) (by linarith)
  obtain ⟨w, rw', ew, nw⟩ := cross_err h.std f1.n.1 rv f1.n.2 sv (by linarith)
  have nw' : Near3 (215 / 10 * (u * M)) w (P1.n.cross (P2.n * P3.d - P3.n * P2.d)) := (nw.trans (cross_near near_refl nv' f1.n.2 sv)).mono (by linarith)
  have sw : Sz3 (412 / 100 * M) w := sz_mono (nw'.sz (cross_sz f1.n.2 sv0)) (by linarith)
  obtain ⟨x, rx, ex, dx⟩ := axpy_err h rc.1 f1.dist.1 rw'.1 nc'.1 sc.1 d1 nw'.1 sw.1
  obtain ⟨y, ry, ey, dy⟩ := axpy_err h rc.2.1 f1.dist.1 rw'.2.1 nc'.2.1 sc.2.1 d1 nw'.2.1 sw.2.1
  obtain ⟨z, rz, ez, dz⟩ := axpy_err h rc.2.2 f1.dist.1 rw'.2.2 nc'.2.2 sc.2.2 d1 nw'.2.2 sw.2.2
  have er : r = if |D'| ≤ E then none else some ⟨R.div (numR R x) (numR R D'), R.div (numR R y) (numR R D'), R.div (numR R z) (numR R D')⟩ := by
    show threePlanesF R (numR R E) (planeR R P1) (planeR R P2) (planeR R P3) = _
    unfold threePlanesF planeR
    dsimp only
    rw [ec, eD', ev, ew]
    by_cases q : |D'| ≤ E
    · rw [if_pos (hz.2 q), if_pos q]
    · rw [if_neg (fun k => q (hz.1 k)), if_neg q]
      simp only [scaleF, addVF, divVF, vecR, ex, ey, ez]
  have em : threePlanesMeetF R (numR R E) (planeR R P1) (planeR R P2) (planeR R P3) = decide (¬ |D'| ≤ E) := by
    unfold threePlanesMeetF planeR
    dsimp only
    rw [ec, eD', decide_eq_decide, hz]
  have t1 := abs_sub_abs_le_abs_sub D D'
  have t2 := abs_sub_abs_le_abs_sub D' D
  rw [abs_sub_comm D D'] at t1
  rw [er, em]
  by_cases q : |D'| ≤ E
  · rw [if_pos q]
    exact ⟨by simp [q], fun _ => by linarith, fun _ => rfl, by simp⟩
  · rw [if_neg q]
    refine ⟨by simp [q], by simp, fun k => absurd (by linarith) q, ?_⟩
    intro q' hq' hs p ⟨o1, o2, o3⟩ S sp hΩ
    have hn := three_num o1 o2 o3
    have n1 := congrArg V3.x hn
    have n2 := congrArg V3.y hn
    have n3 := congrArg V3.z hn
    have one : ∀ {p n n' : ℝ}, Rep R n' → p * D = n → |n' - n| ≤ 40 * (u * M) → |p| ≤ S → ∃ q, Rep R q ∧ R.div (numR R n') (numR R D') = numR R q ∧ |q - p| ≤ 64 * (u * (M + S) / |D|) := by
      intro p n n' rn hp hn hs'
      obtain ⟨q, rq, eq, dq⟩ := quot_err h (c := 40) (by norm_num) rn rD hp hn hD (by linarith) sD (W := M + S) (by linarith) hΩ
      exact ⟨q, rq, eq, dq.trans (le_of_eq (by norm_num))⟩
    obtain ⟨a, ra, ea, da⟩ := one rx n1.symm dx sp.1
    obtain ⟨b, rb, eb, db⟩ := one ry n2.symm dy sp.2.1
    obtain ⟨g, rg, eg, dg⟩ := one rz n3.symm dz sp.2.2
    rw [ea, eb, eg] at hq'
    exact ⟨⟨a, b, g⟩, ⟨ra, rb, rg⟩, (Option.some.inj hq').symm, da, db, dg⟩

/-! ## Two planes -/
/-- The point on both planes that is nearest to the origin: on both, and perpendicular to their line. -/
def Plane.Foot (P1 P2 : Plane ℝ) (p : V3 ℝ) : Prop := P1.On p ∧ P2.On p ∧ p.dot (P1.n.cross P2.n) = 0
theorem two_num {P1 P2 : Plane ℝ} {p : V3 ℝ} (h : Plane.Foot P1 P2 p) :
    (P2.n * P1.d - P1.n * P2.d).cross (P1.n.cross P2.n) = p * (P1.n.cross P2.n).dot (P1.n.cross P2.n) := by
  obtain ⟨h1, h2, h3⟩ := h
  obtain ⟨⟨a1, a2, a3⟩, d1⟩ := P1
  obtain ⟨⟨b1, b2, b3⟩, d2⟩ := P2
  obtain ⟨x, y, z⟩ := p
  simp only [Plane.On] at h1 h2
  obtain rfl : d1 = a1 * x + a2 * y + a3 * z := by linarith
  obtain rfl : d2 = b1 * x + b2 * y + b3 * z := by linarith
  simp only [V3.dot, V3.cross] at h3
  ext <;> simp [V3.cross, V3.dot]
  · linear_combination (-(a2 * b3 - a3 * b2)) * h3
  · linear_combination (-(a3 * b1 - a1 * b3)) * h3
  · linear_combination (-(a1 * b2 - a2 * b1)) * h3

/-- **C128, two planes.** -/
theorem c128_two (h : PlaneStd R u η Ω M) (hM16 : 32 * M + 32 ≤ Ω) (rE : Rep R E) {P1 P2 : Plane ℝ} (f1 : PlaneFits R M P1) (f2 : PlaneFits R M P2) :
    let N := P1.n.cross P2.n
    let r := twoPlanesF R (numR R E) (planeR R P1) (planeR R P2)
    twoPlanesMeetF R (numR R E) (planeR R P1) (planeR R P2) = r.isSome ∧ (r = none → N.dot N ≤ E + 128 * u) ∧ (N.dot N ≤ E - 128 * u → r = none) ∧
    ∀ l, r = some l → (∃ d, Rep3 R d ∧ l.direction = vecR R d ∧ Near3 (6 * u) d N) ∧
      (2048 * u ≤ N.dot N → ∀ p : V3 ℝ, Plane.Foot P1 P2 p → ∀ S, Sz3 S p → 2 * (M + S) ≤ Ω → ∃ q, Rep3 R q ∧ l.origin = vecR R q ∧ Near3 (162 * (u * (M + S) / N.dot N)) q p) := by
  intro N r
  have hu := h.pos
  have hu' := h.u'
  have hM := h.M0
  have l1 := h.low
  have l2 := h.low'
  have hη := h.std.η0
  have uM0 : 0 < u * M := mul_pos hu hM
  have uM : u * M ≤ 1 / 4096 * M := mul_le_mul_of_nonneg_right hu' hM.le
  have uu : u * u ≤ 1 / 4096 * u := mul_le_mul_of_nonneg_right hu' hu.le
  have uuM : u * (u * M) ≤ 1 / 4096 * (u * M) := mul_le_mul_of_nonneg_right hu' uM0.le
  have hh := h.high
  have d1 := f1.dist.2
  have d2 := f2.dist.2
  obtain ⟨c, rc, ec, nc⟩ := cross_err h.std f1.n.1 f2.n.1 f1.n.2 f2.n.2 (by linarith)
  have nc' : Near3 (21 / 4 * u) c N := nc.mono (by linarith)
  have sN : Sz3 (2 * (101 / 100 * (101 / 100))) N := cross_sz f1.n.2 f2.n.2
  have sc : Sz3 (206 / 100) c := sz_mono (nc'.sz sN) (by linarith)
  obtain ⟨D', rD, eD, dD⟩ := dot3_err h.std rc rc sc sc (by linarith)
  have hD1 := dot_near nc' nc' (sz_mono sN (by norm_num : _ ≤ (206 / 100 : ℝ))) sc
  have hD : |D' - N.dot N| ≤ 128 * u := by
    rw [abs_le] at *
    constructor <;> linarith
  have sD : |N.dot N| ≤ 16 := (dot3_abs_le sN sN).trans (by norm_num)
  have N0 : 0 ≤ N.dot N := by
    simp only [V3.dot]
    nlinarith [mul_self_nonneg N.x, mul_self_nonneg N.y, mul_self_nonneg N.z]
  have sD' : |D'| ≤ Ω := by
    have := abs_sub_abs_le_abs_sub D' (N.dot N)
    linarith
  have eD' : dotF R (vecR R c) (vecR R c) = numR R D' := eD
  have hz := nearZero_iff h.std rD rE sD'
  obtain ⟨v, rv, ev, nv⟩ := comb_err h.std f2.n.1 f1.n.1 f1.dist.1 f2.dist.1 f2.n.2 f1.n.2 d1 d2 (by linarith)
  have nv' : Near3 (21 / 4 * (u * M)) v (P2.n * P1.d - P1.n * P2.d) := nv.mono (by linarith)
  have sv0 : Sz3 (202 / 100 * M) (P2.n * P1.d - P1.n * P2.d) := by
    obtain ⟨a1, a2, a3⟩ := f2.n.2
    obtain ⟨b1, b2, b3⟩ := f1.n.2
    have one : ∀ {x y : ℝ}, |x| ≤ 101 / 100 → |y| ≤ 101 / 100 → |x * P1.d - y * P2.d| ≤ 202 / 100 * M := by
      intro x y hx hy
      have q1 := mul_abs_le hx d1
      have q2 := mul_abs_le hy d2
      rw [abs_le] at *
      constructor <;> linarith
    exact ⟨one a1 b1, one a2 b2, one a3 b3⟩
  have sv : Sz3 (203 / 100 * M) v := sz_mono (nv'.sz sv0) (by linarith)
  obtain ⟨w, rw', ew, nw⟩ := cross_err h.std rv rc sv sc (by linarith)
  have nw' : Near3 (128 * (u * M)) w ((P2.n * P1.d - P1.n * P2.d).cross N) := (nw.trans (cross_near nv' nc' sv0 sc)).mono (by linarith)
  have er : r = if |D'| ≤ E then none else some ⟨⟨R.div (numR R w.x) (numR R D'), R.div (numR R w.y) (numR R D'), R.div (numR R w.z) (numR R D')⟩, vecR R c⟩ := by
    show twoPlanesF R (numR R E) (planeR R P1) (planeR R P2) = _
    unfold twoPlanesF planeR
    dsimp only
    rw [ec, eD', ev, ew]
    by_cases q : |D'| ≤ E
    · rw [if_pos (hz.2 q), if_pos q]
    · rw [if_neg (fun k => q (hz.1 k)), if_neg q]
      rfl
  have em : twoPlanesMeetF R (numR R E) (planeR R P1) (planeR R P2) = decide (¬ |D'| ≤ E) := by
    unfold twoPlanesMeetF planeR
    dsimp only
    rw [ec, eD', decide_eq_decide, hz]
  have t1 := abs_sub_abs_le_abs_sub (N.dot N) D'
  have t2 := abs_sub_abs_le_abs_sub D' (N.dot N)
  rw [abs_sub_comm (N.dot N) D'] at t1
  rw [abs_of_nonneg N0] at t1 t2 sD
  rw [er, em]
  by_cases q : |D'| ≤ E
  · rw [if_pos q]
    exact ⟨by simp [q], fun _ => by linarith, fun _ => rfl, by simp⟩
  · rw [if_neg q]
    refine ⟨by simp [q], by simp, fun k => absurd (by linarith) q, ?_⟩
    intro l hl
    obtain rfl := Option.some.inj hl
    refine ⟨⟨c, rc, rfl, nc'.mono (by linarith)⟩, fun hs p hp S sp hΩ => ?_⟩
    have hn := two_num hp
    have n1 := congrArg V3.x hn
    have n2 := congrArg V3.y hn
    have n3 := congrArg V3.z hn
    have one : ∀ {p n n' : ℝ}, Rep R n' → p * N.dot N = n → |n' - n| ≤ 128 * (u * M) → |p| ≤ S → ∃ q, Rep R q ∧ R.div (numR R n') (numR R D') = numR R q ∧ |q - p| ≤ 162 * (u * (M + S) / N.dot N) := by
      intro p n n' rn hp hn hs'
      obtain ⟨q, rq, eq, dq⟩ := quot_err h (c := 128) (by norm_num) rn rD hp hn hD (by rw [abs_of_nonneg N0]; linarith) (by rwa [abs_of_nonneg N0]) (W := M + S) (by linarith) hΩ
      rw [abs_of_nonneg N0] at dq
      refine ⟨q, rq, eq, dq.trans (mul_le_mul_of_nonneg_right (by norm_num) ?_)⟩
      have : 0 ≤ S := sp.nonneg
      positivity
    obtain ⟨a, ra, ea, da⟩ := one rw'.1 n1.symm nw'.1 sp.1
    obtain ⟨b, rb, eb, db⟩ := one rw'.2.1 n2.symm nw'.2.1 sp.2.1
    obtain ⟨g, rg, eg, dg⟩ := one rw'.2.2 n3.symm nw'.2.2 sp.2.2
    refine ⟨⟨a, b, g⟩, ⟨ra, rb, rg⟩, ?_, da, db, dg⟩
    show (⟨_, _, _⟩ : V3 F) = ⟨_, _, _⟩
    rw [ea, eb, eg]

/-! ## The formats -/
theorem room64 (h1 : M ≤ (2 : ℝ) ^ (400 : ℤ)) : 32 * M + 32 ≤ (2 : ℝ) ^ (1022 : ℤ) := by
  have h2 : (64 : ℝ) * (2 : ℝ) ^ (400 : ℤ) ≤ (2 : ℝ) ^ (1022 : ℤ) := by
    rw [show (64 : ℝ) = (2 : ℝ) ^ (6 : ℤ) by norm_num, zpow2_mul]
    exact zpow2_le (by norm_num)
  have one := zpow2_le (show (0 : ℤ) ≤ 400 by norm_num)
  rw [zpow_zero] at one
  generalize (2 : ℝ) ^ (400 : ℤ) = Q at *
  generalize (2 : ℝ) ^ (1022 : ℤ) = Q' at *
  linarith
theorem room32 (h1 : M ≤ (2 : ℝ) ^ (100 : ℤ)) : 32 * M + 32 ≤ (2 : ℝ) ^ (126 : ℤ) := by
  refine (show 32 * M + 32 ≤ 32 * (2 : ℝ) ^ (100 : ℤ) + 32 by linarith).trans ?_
  norm_num
theorem rep_eps64 : Rep binary64 eps64 := rep_of_rep64 ⟨1, -52, by norm_num, by norm_num, by norm_num, by norm_num [eps64]⟩
theorem rep_eps32 : Rep binary32 eps32 := rep_of_rep32 ⟨1, -23, by norm_num, by norm_num, by norm_num, by norm_num [eps32]⟩

theorem sum64 {S : ℝ} (h1 : M ≤ (2 : ℝ) ^ (400 : ℤ)) (hS : S ≤ (2 : ℝ) ^ (1000 : ℤ)) : 2 * (M + S) ≤ (2 : ℝ) ^ (1022 : ℤ) := by
  have h2 : (4 : ℝ) * (2 : ℝ) ^ (1000 : ℤ) ≤ (2 : ℝ) ^ (1022 : ℤ) := by
    rw [show (4 : ℝ) = (2 : ℝ) ^ (2 : ℤ) by norm_num, zpow2_mul]
    exact zpow2_le (by norm_num)
  have h3 := zpow2_le (show (400 : ℤ) ≤ 1000 by norm_num)
  generalize (2 : ℝ) ^ (400 : ℤ) = Q at *
  generalize (2 : ℝ) ^ (1000 : ℤ) = Q2 at *
  generalize (2 : ℝ) ^ (1022 : ℤ) = Q' at *
  linarith
theorem sum32 {S : ℝ} (h1 : M ≤ (2 : ℝ) ^ (100 : ℤ)) (hS : S ≤ (2 : ℝ) ^ (100 : ℤ)) : 2 * (M + S) ≤ (2 : ℝ) ^ (126 : ℤ) := by
  refine (show 2 * (M + S) ≤ 4 * (2 : ℝ) ^ (100 : ℤ) by linarith).trans ?_
  norm_num
/-- **C128 in `f64`, three planes.** The tolerance of `ulps_eq!` is `f64::EPSILON`. -/
theorem c128_three_f64 (h0 : (2 : ℝ) ^ (-400 : ℤ) ≤ M) (h1 : M ≤ (2 : ℝ) ^ (400 : ℤ)) {P1 P2 P3 : Plane ℝ} (f1 : PlaneFits binary64 M P1) (f2 : PlaneFits binary64 M P2) (f3 : PlaneFits binary64 M P3) :
    let D := P1.n.dot (P2.n.cross P3.n)
    let r := threePlanesF binary64 (numR binary64 eps64) (planeR binary64 P1) (planeR binary64 P2) (planeR binary64 P3)
    threePlanesMeetF binary64 (numR binary64 eps64) (planeR binary64 P1) (planeR binary64 P2) (planeR binary64 P3) = r.isSome ∧ (r = none → |D| ≤ 42 * (2 : ℝ) ^ (-53 : ℤ)) ∧
    ∀ q, r = some q → 640 * (2 : ℝ) ^ (-53 : ℤ) ≤ |D| → ∀ p : V3 ℝ, P1.On p ∧ P2.On p ∧ P3.On p → ∀ S, Sz3 S p → S ≤ (2 : ℝ) ^ (1000 : ℤ) →
      ∃ q', Rep3 binary64 q' ∧ q = vecR binary64 q' ∧ Near3 (64 * ((2 : ℝ) ^ (-53 : ℤ) * (M + S) / |D|)) q' p := by
  intro D r
  obtain ⟨a1, a2, -, a4⟩ := c128_three (planeStd64 h0 h1) (room64 h1) rep_eps64 f1 f2 f3
  have e : eps64 + 40 * (2 : ℝ) ^ (-53 : ℤ) = 42 * (2 : ℝ) ^ (-53 : ℤ) := by norm_num [eps64]
  refine ⟨a1, fun k => e ▸ a2 k, fun q hq hs p hp S sp hS => a4 q hq hs p hp S sp (sum64 h1 hS)⟩
/-- **C128 in `f64`, two planes.** -/
theorem c128_two_f64 (h0 : (2 : ℝ) ^ (-400 : ℤ) ≤ M) (h1 : M ≤ (2 : ℝ) ^ (400 : ℤ)) {P1 P2 : Plane ℝ} (f1 : PlaneFits binary64 M P1) (f2 : PlaneFits binary64 M P2) :
    let N := P1.n.cross P2.n
    let r := twoPlanesF binary64 (numR binary64 eps64) (planeR binary64 P1) (planeR binary64 P2)
    twoPlanesMeetF binary64 (numR binary64 eps64) (planeR binary64 P1) (planeR binary64 P2) = r.isSome ∧ (r = none → N.dot N ≤ 130 * (2 : ℝ) ^ (-53 : ℤ)) ∧
    ∀ l, r = some l → (∃ d, Rep3 binary64 d ∧ l.direction = vecR binary64 d ∧ Near3 (6 * (2 : ℝ) ^ (-53 : ℤ)) d N) ∧
      (2048 * (2 : ℝ) ^ (-53 : ℤ) ≤ N.dot N → ∀ p : V3 ℝ, Plane.Foot P1 P2 p → ∀ S, Sz3 S p → S ≤ (2 : ℝ) ^ (1000 : ℤ) →
        ∃ q, Rep3 binary64 q ∧ l.origin = vecR binary64 q ∧ Near3 (162 * ((2 : ℝ) ^ (-53 : ℤ) * (M + S) / N.dot N)) q p) := by
  intro N r
  obtain ⟨a1, a2, -, a4⟩ := c128_two (planeStd64 h0 h1) (room64 h1) rep_eps64 f1 f2
  have e : eps64 + 128 * (2 : ℝ) ^ (-53 : ℤ) = 130 * (2 : ℝ) ^ (-53 : ℤ) := by norm_num [eps64]
  exact ⟨a1, fun k => e ▸ a2 k, fun l hl => ⟨(a4 l hl).1, fun hs p hp S sp hS => (a4 l hl).2 hs p hp S sp (sum64 h1 hS)⟩⟩
/-- **C128 in `f32`, three planes.** The tolerance of `ulps_eq!` is `f32::EPSILON`. -/
theorem c128_three_f32 (h0 : (2 : ℝ) ^ (-60 : ℤ) ≤ M) (h1 : M ≤ (2 : ℝ) ^ (100 : ℤ)) {P1 P2 P3 : Plane ℝ} (f1 : PlaneFits binary32 M P1) (f2 : PlaneFits binary32 M P2) (f3 : PlaneFits binary32 M P3) :
    let D := P1.n.dot (P2.n.cross P3.n)
    let r := threePlanesF binary32 (numR binary32 eps32) (planeR binary32 P1) (planeR binary32 P2) (planeR binary32 P3)
    threePlanesMeetF binary32 (numR binary32 eps32) (planeR binary32 P1) (planeR binary32 P2) (planeR binary32 P3) = r.isSome ∧ (r = none → |D| ≤ 42 * (2 : ℝ) ^ (-24 : ℤ)) ∧
    ∀ q, r = some q → 640 * (2 : ℝ) ^ (-24 : ℤ) ≤ |D| → ∀ p : V3 ℝ, P1.On p ∧ P2.On p ∧ P3.On p → ∀ S, Sz3 S p → S ≤ (2 : ℝ) ^ (100 : ℤ) →
      ∃ q', Rep3 binary32 q' ∧ q = vecR binary32 q' ∧ Near3 (64 * ((2 : ℝ) ^ (-24 : ℤ) * (M + S) / |D|)) q' p := by
  intro D r
  obtain ⟨a1, a2, -, a4⟩ := c128_three (planeStd32 h0 h1) (room32 h1) rep_eps32 f1 f2 f3
  have e : eps32 + 40 * (2 : ℝ) ^ (-24 : ℤ) = 42 * (2 : ℝ) ^ (-24 : ℤ) := by norm_num [eps32]
  refine ⟨a1, fun k => e ▸ a2 k, fun q hq hs p hp S sp hS => a4 q hq hs p hp S sp (sum32 h1 hS)⟩
/-- **C128 in `f32`, two planes.** -/
theorem c128_two_f32 (h0 : (2 : ℝ) ^ (-60 : ℤ) ≤ M) (h1 : M ≤ (2 : ℝ) ^ (100 : ℤ)) {P1 P2 : Plane ℝ} (f1 : PlaneFits binary32 M P1) (f2 : PlaneFits binary32 M P2) :
    let N := P1.n.cross P2.n
    let r := twoPlanesF binary32 (numR binary32 eps32) (planeR binary32 P1) (planeR binary32 P2)
    twoPlanesMeetF binary32 (numR binary32 eps32) (planeR binary32 P1) (planeR binary32 P2) = r.isSome ∧ (r = none → N.dot N ≤ 130 * (2 : ℝ) ^ (-24 : ℤ)) ∧
    ∀ l, r = some l → (∃ d, Rep3 binary32 d ∧ l.direction = vecR binary32 d ∧ Near3 (6 * (2 : ℝ) ^ (-24 : ℤ)) d N) ∧
      (2048 * (2 : ℝ) ^ (-24 : ℤ) ≤ N.dot N → ∀ p : V3 ℝ, Plane.Foot P1 P2 p → ∀ S, Sz3 S p → S ≤ (2 : ℝ) ^ (100 : ℤ) →
        ∃ q, Rep3 binary32 q ∧ l.origin = vecR binary32 q ∧ Near3 (162 * ((2 : ℝ) ^ (-24 : ℤ) * (M + S) / N.dot N)) q p) := by
  intro N r
  obtain ⟨a1, a2, -, a4⟩ := c128_two (planeStd32 h0 h1) (room32 h1) rep_eps32 f1 f2
  have e : eps32 + 128 * (2 : ℝ) ^ (-24 : ℤ) = 130 * (2 : ℝ) ^ (-24 : ℤ) := by norm_num [eps32]
  exact ⟨a1, fun k => e ▸ a2 k, fun l hl => ⟨(a4 l hl).1, fun hs p hp S sp hS => (a4 l hl).2 hs p hp S sp (sum32 h1 hS)⟩⟩

/-! ## Examples in `f32` -/
/-- The planes `x = 1`, `y = 2` and `(x + z) / 2 = 1`. -/
def wallX : Plane ℝ := ⟨⟨1, 0, 0⟩, 1⟩
def wallY : Plane ℝ := ⟨⟨0, 1, 0⟩, 2⟩
def ramp : Plane ℝ := ⟨⟨1 / 2, 0, 1 / 2⟩, 1⟩
theorem walls_fit : PlaneFits binary32 2 wallX ∧ PlaneFits binary32 2 wallY ∧ PlaneFits binary32 2 ramp := by
  have r0 := rep_zero (R := binary32)
  have r1 := rep_one (R := binary32)
  have r2 : Rep binary32 (2 : ℝ) := rep_of_rep32 ⟨2, 0, by norm_num, by norm_num, by norm_num, by norm_num⟩
  have rh : Rep binary32 ((1 : ℝ) / 2) := rep_of_rep32 ⟨1, -1, by norm_num, by norm_num, by norm_num, by norm_num⟩
  exact ⟨⟨⟨⟨r1, r0, r0⟩, by norm_num [Sz3, wallX]⟩, r1, by norm_num [wallX]⟩, ⟨⟨⟨r0, r1, r0⟩, by norm_num [Sz3, wallY]⟩, r2, by norm_num [wallY]⟩,
    ⟨⟨⟨rh, r0, rh⟩, by norm_num [Sz3, ramp]⟩, r1, by norm_num [ramp]⟩⟩
/-- The three planes meet near `(1, 2, 1)`; the first two in the line through a point near `(1, 2, 0)` with a direction near `(0, 0, 1)`. -/
example : (∃ q : V3 ℝ, threePlanesF binary32 (numR binary32 eps32) (planeR binary32 wallX) (planeR binary32 wallY) (planeR binary32 ramp) = some (vecR binary32 q) ∧ Near3 (1 / 1000) q ⟨1, 2, 1⟩) ∧
    ∃ q d : V3 ℝ, twoPlanesF binary32 (numR binary32 eps32) (planeR binary32 wallX) (planeR binary32 wallY) = some ⟨vecR binary32 q, vecR binary32 d⟩ ∧ Near3 (1 / 1000) q ⟨1, 2, 0⟩ ∧ Near3 (1 / 1000) d ⟨0, 0, 1⟩ := by
  obtain ⟨f1, f2, f3⟩ := walls_fit
  constructor
  · obtain ⟨-, q2, q3⟩ := c128_three_f32 (M := 2) (by norm_num) (by norm_num) f1 f2 f3
    have hD : wallX.n.dot (wallY.n.cross ramp.n) = 1 / 2 := by norm_num [wallX, wallY, ramp, V3.dot, V3.cross]
    cases e : threePlanesF binary32 (numR binary32 eps32) (planeR binary32 wallX) (planeR binary32 wallY) (planeR binary32 ramp) with
    | none =>
      have := q2 e
      rw [hD] at this
      norm_num at this
    | some q =>
      obtain ⟨q', -, rfl, hn⟩ := q3 q e (by rw [hD]; norm_num) ⟨1, 2, 1⟩ ⟨by norm_num [Plane.On, wallX], by norm_num [Plane.On, wallY], by norm_num [Plane.On, ramp]⟩ 2 (by norm_num [Sz3]) (by norm_num)
      refine ⟨q', rfl, hn.mono ?_⟩
      rw [hD]
      norm_num
  · obtain ⟨-, q2, q3⟩ := c128_two_f32 (M := 2) (by norm_num) (by norm_num) f1 f2
    have hN : wallX.n.cross wallY.n = ⟨0, 0, 1⟩ := by norm_num [wallX, wallY, V3.cross]
    rw [hN] at q2 q3
    have hD : (⟨0, 0, 1⟩ : V3 ℝ).dot ⟨0, 0, 1⟩ = 1 := by norm_num [V3.dot]
    rw [hD] at q2 q3
    cases e : twoPlanesF binary32 (numR binary32 eps32) (planeR binary32 wallX) (planeR binary32 wallY) with
    | none =>
      have := q2 e
      norm_num at this
    | some l =>
      obtain ⟨⟨d, -, hd, nd⟩, k⟩ := q3 l e
      obtain ⟨q', -, hq, hn⟩ := k (by norm_num) ⟨1, 2, 0⟩ ⟨by norm_num [Plane.On, wallX], by norm_num [Plane.On, wallY], by rw [hN]; norm_num [V3.dot]⟩ 2 (by norm_num [Sz3]) (by norm_num)
      obtain ⟨lo, ld⟩ := l
      obtain rfl : lo = _ := hq
      obtain rfl : ld = _ := hd
      exact ⟨q', d, rfl, hn.mono (by norm_num), nd.mono (by norm_num)⟩
end
end Verif.Scene
