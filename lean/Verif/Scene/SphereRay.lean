import Verif.Scene.SphereFormats
/-!
# C122: rays against spheres and circles in rounded arithmetic

The tests of rays against bounding spheres (`src/volume/sphere.rs:63-92`), sphere primitives (`src/primitive/sphere.rs:65-102`) and circles (`src/primitive/circle.rs:55-92`) with every operation rounded. The three share the
formula: with `l` from the origin of the ray to the centre, `tca = l · d`, `d2 = l · l - tca²`, `thc = sqrt(r² - d2)`. A difference of two squares is computed, so errors are relative to the square of the size of the scene, not to
the square of the radius.
-/
namespace Verif.Scene
open Verif Geom Primitive Minkowski
open Verif.Dbvt (Rounding SphereF subF mag2F F64 binary64 Rep64)
open Verif.Dbvt.B32 (F32 binary32 Rep32)
set_option linter.unusedSectionVars false
noncomputable section
open Classical
variable {F : Type} [LinearOrder F] {R : Rounding F} {u η Ω N : ℝ}

/-! ## The model -/
variable (R) in
/-- `dot` of cgmath: the products are summed from the left. -/
def dotF (a b : V3 F) : F := R.add (R.add (R.mul a.x b.x) (R.mul a.y b.y)) (R.mul a.z b.z)
variable (R) in
/-- The discrete test once `l` is known, `src/volume/sphere.rs:86-91`, `src/primitive/sphere.rs:72-77` -/
def hitTail (l : V3 F) (radius : F) (direction : V3 F) : Bool :=
  let tca := dotF R l direction
  if tca < R.zero then false else
  let d2 := R.sub (dotF R l l) (R.mul tca tca)
  d2 ≤ R.mul radius radius
variable (R) in
/-- The continuous test once `l` is known, `src/volume/sphere.rs:69-78`, `src/primitive/sphere.rs:91-100` -/
def pointTail (l : V3 F) (radius : F) (origin direction : V3 F) : Option (V3 F) :=
  let tca := dotF R l direction
  if tca < R.zero then none else
  let d2 := R.sub (dotF R l l) (R.mul tca tca)
  if d2 > R.mul radius radius then none else
  let thc := R.sqrt (R.sub (R.mul radius radius) d2)
  let t := R.sub tca thc
  some ⟨R.add origin.x (R.mul direction.x t), R.add origin.y (R.mul direction.y t), R.add origin.z (R.mul direction.z t)⟩
variable (R) in
/-- `Discrete<Ray3> for Sphere`, `src/volume/sphere.rs:83-92` -/
def SphereF.intersectsRay (s : SphereF F) (r : Ray3 F) : Bool := hitTail R (subF R s.center r.origin) s.radius r.direction
variable (R) in
/-- `Continuous<Ray3> for Sphere`, `src/volume/sphere.rs:65-79` -/
def SphereF.intersectionRay (s : SphereF F) (r : Ray3 F) : Option (V3 F) := pointTail R (subF R s.center r.origin) s.radius r.origin r.direction
variable (R) in
/-- The opposite number. -/
def oppF (a : F) : F := R.rnd (-R.val a)
variable (R) in
/-- `Discrete<Ray3>` for the sphere primitive with the given radius, `src/primitive/sphere.rs:69-78` -/
def ballHitF (radius : F) (r : Ray3 F) : Bool := hitTail R ⟨oppF R r.origin.x, oppF R r.origin.y, oppF R r.origin.z⟩ radius r.direction
variable (R) in
/-- `Continuous<Ray3>` for the sphere primitive, `src/primitive/sphere.rs:87-101` -/
def ballPointF (radius : F) (r : Ray3 F) : Option (V3 F) := pointTail R ⟨oppF R r.origin.x, oppF R r.origin.y, oppF R r.origin.z⟩ radius r.origin r.direction
variable (R) in
/-- `dot` of vectors with two components. -/
def dotF2 (a b : V2 F) : F := R.add (R.mul a.x b.x) (R.mul a.y b.y)
variable (R) in
/-- `Discrete<Ray2> for Circle`, `src/primitive/circle.rs:59-68` -/
def circleHitF (radius : F) (r : Ray2 F) : Bool :=
  let l : V2 F := ⟨oppF R r.origin.x, oppF R r.origin.y⟩
  let tca := dotF2 R l r.direction
  if tca < R.zero then false else
  let d2 := R.sub (dotF2 R l l) (R.mul tca tca)
  d2 ≤ R.mul radius radius
variable (R) in
/-- `Continuous<Ray2> for Circle`, `src/primitive/circle.rs:77-91` -/
def circlePointF (radius : F) (r : Ray2 F) : Option (V2 F) :=
  let l : V2 F := ⟨oppF R r.origin.x, oppF R r.origin.y⟩
  let tca := dotF2 R l r.direction
  if tca < R.zero then none else
  let d2 := R.sub (dotF2 R l l) (R.mul tca tca)
  if d2 > R.mul radius radius then none else
  let thc := R.sqrt (R.sub (R.mul radius radius) d2)
  let t := R.sub tca thc
  some ⟨R.add r.origin.x (R.mul r.direction.x t), R.add r.origin.y (R.mul r.direction.y t)⟩

/-! ## Real lemmas -/
theorem tca_sq {T τ ε : ℝ} (hN : 0 < N) (e0 : 0 ≤ ε) (eN : ε ≤ N / 4096) (hT : |T - τ| ≤ 78 * ε) (hτ : |τ| ≤ 401 / 100 * N) : |T| ≤ 5 * N ∧ |T * T - τ * τ| ≤ 710 * (ε * N) := by
  have h1 : |T| ≤ |τ| + |T - τ| := by
    have := abs_add_le τ (T - τ)
    rwa [add_sub_cancel] at this
  refine ⟨by linarith, ?_⟩
  have e : T * T - τ * τ = (T - τ) * (T + τ) := by ring
  rw [e, abs_mul]
  have h2 := abs_add_le T τ
  have h3 : |T + τ| ≤ 91 / 10 * N := by linarith
  calc _ ≤ 78 * ε * (91 / 10 * N) := mul_le_mul hT h3 (abs_nonneg _) (by linarith)
    _ ≤ _ := by nlinarith [mul_nonneg e0 hN.le]
/-- The square of the distance of the point at `t` from the centre. -/
theorem far2_eq (L d : V3 ℝ) (t : ℝ) : (L - d * t).dot (L - d * t) = L.dot L - 2 * t * L.dot d + t * t * d.dot d := by
  simp [V3.dot]; ring
theorem cauchy3 (L d : V3 ℝ) : L.dot d * L.dot d ≤ L.dot L * d.dot d := by
  simp only [V3.dot]
  nlinarith [sq_nonneg (L.x * d.y - L.y * d.x), sq_nonneg (L.y * d.z - L.z * d.y), sq_nonneg (L.x * d.z - L.z * d.x)]
/-- A reported ray comes close. -/
theorem sound_real {S τ δ r2 W ε : ℝ} (W0 : 0 ≤ W) (e0 : 0 ≤ ε) (eW : 6084 * (ε * ε) ≤ 2 * W) (hδ : δ * (τ * τ) ≤ 136 * W) (hτ : -(78 * ε) ≤ τ) (h : S - τ * τ ≤ r2 + 1003 * W) :
    ∃ t : ℝ, 0 ≤ t ∧ S - 2 * t * τ + t * t * (1 + δ) ≤ r2 + 1300 * W := by
  rcases le_or_gt 0 τ with h0 | h0
  · refine ⟨τ, h0, ?_⟩
    have : S - 2 * τ * τ + τ * τ * (1 + δ) = S - τ * τ + δ * (τ * τ) := by ring
    rw [this]
    linarith
  · refine ⟨0, le_rfl, ?_⟩
    have : τ * τ ≤ 6084 * (ε * ε) := by nlinarith
    linarith
/-- The nearest point of the line is close enough. -/
theorem line_real {S τ δ r2 W t : ℝ} (W0 : 0 < W) (hδ : |δ| * (τ * τ) ≤ 136 * W) (hδ1 : |δ| ≤ 1 / 256) (h : S - 2 * t * τ + t * t * (1 + δ) + 1300 * W ≤ r2) : S - τ * τ ≤ r2 - 1028 * W := by
  have hd := abs_le.1 hδ1
  rcases le_or_gt (S - r2 + 1300 * W) 0 with hs | hs
  · have := mul_self_nonneg τ
    linarith
  · -- the minimum over all `t` is `S - τ² / (1 + δ)`
    have hp : 0 < 1 + δ := by linarith
    have h3 : 0 ≤ (t * (1 + δ) - τ) * (t * (1 + δ) - τ) := mul_self_nonneg _
    have h4 : (t * (1 + δ) - τ) * (t * (1 + δ) - τ) = (1 + δ) * (t * t * (1 + δ) - 2 * t * τ) + τ * τ := by ring
    have h5 : (1 + δ) * (S - r2 + 1300 * W) ≤ τ * τ := by
      have : (1 + δ) * (t * t * (1 + δ) - 2 * t * τ) ≤ (1 + δ) * (r2 - S - 1300 * W) := mul_le_mul_of_nonneg_left (by linarith) hp.le
      nlinarith
    have h6 : -(|δ| * (S - r2 + 1300 * W)) ≤ δ * (S - r2 + 1300 * W) := by
      have := mul_le_mul_of_nonneg_right (neg_abs_le δ) (show 0 ≤ S - r2 + 1300 * W by linarith)
      linarith
    have h7 : |δ| * (S - r2 + 1300 * W) ≤ |δ| * (2 * (τ * τ)) := by
      refine mul_le_mul_of_nonneg_left ?_ (abs_nonneg δ)
      have : (1 / 2) * (S - r2 + 1300 * W) ≤ (1 + δ) * (S - r2 + 1300 * W) := mul_le_mul_of_nonneg_right (by linarith) (by linarith)
      linarith
    clear h3 h4 h7
    nlinarith
/-- A ray from outside that comes close enough is reported. -/
theorem complete_real {S τ δ r2 W ε t : ℝ} (W0 : 0 < W) (e0 : 0 ≤ ε) (eW : 6084 * (ε * ε) ≤ 2 * W) (hδ : |δ| * (τ * τ) ≤ 136 * W) (hδ1 : |δ| ≤ 1 / 256) (t0 : 0 ≤ t) (hout : r2 ≤ S) (h : S - 2 * t * τ + t * t * (1 + δ) + 1300 * W ≤ r2) :
    78 * ε ≤ τ ∧ S - τ * τ ≤ r2 - 1028 * W := by
  refine ⟨?_, line_real W0 hδ hδ1 h⟩
  have hd := abs_le.1 hδ1
  by_contra hcon
  push Not at hcon
  have h1 : 0 ≤ t * t := mul_nonneg t0 t0
  have h2 : 2 * t * τ ≤ 2 * t * (78 * ε) := mul_le_mul_of_nonneg_left hcon.le (by linarith)
  have h3 : t * t * (1 / 2) ≤ t * t * (1 + δ) := mul_le_mul_of_nonneg_left (by linarith) h1
  have h4 : 0 ≤ (t - 156 * ε) * (t - 156 * ε) := mul_self_nonneg _
  have h6 : (t - 156 * ε) * (t - 156 * ε) = t * t - 2 * (2 * t * (78 * ε)) + 4 * (6084 * (ε * ε)) := by ring
  linarith

theorem abs_le_of_mul_self_le {a b : ℝ} (hb : 0 ≤ b) (h : a * a ≤ b * b) : a ≤ b := by
  by_contra hcon
  push Not at hcon
  have := mul_self_lt_mul_self hb hcon
  linarith
/-- The point that is returned: its distance from the centre, and what lies before it. -/
theorem point_real {S τ δ r2 W ε s : ℝ} (hN : 0 < N) (W0 : 0 < W) (WN : 4096 * W ≤ N * N) (r0 : r2 ≤ N * N) (S0 : 0 ≤ S) (hτ : |τ| ≤ 401 / 100 * N) (hδ : |δ| * (N * N) ≤ 8 * W) (s0 : 0 ≤ s)
    (hs : |s - (r2 - (S - τ * τ))| ≤ 1060 * W) (e0 : 0 ≤ ε) (eW : 6084 * (ε * ε) ≤ 2 * W) (hτ' : -(78 * ε) ≤ τ) (hrep : S - τ * τ ≤ r2 + 1003 * W) :
    Real.sqrt s ≤ 21 / 5 * N ∧ |S - 2 * (τ - Real.sqrt s) * τ + (τ - Real.sqrt s) * (τ - Real.sqrt s) * (1 + δ) - r2| ≤ 1700 * W ∧ (r2 + 1300 * W ≤ S → 0 ≤ τ - Real.sqrt s) ∧
      ∀ t : ℝ, 0 ≤ t → t ≤ τ - Real.sqrt s → r2 - 2000 * W ≤ S - 2 * t * τ + t * t * (1 + δ) := by
  have w0 := Real.sqrt_nonneg s
  have ww := Real.mul_self_sqrt s0
  set w := Real.sqrt s
  have τ2 : τ * τ ≤ 161 / 10 * (N * N) := by
    have := mul_self_le_mul_self (abs_nonneg τ) hτ
    rw [abs_mul_abs_self] at this
    nlinarith [mul_pos hN hN]
  obtain ⟨s1, s2⟩ := abs_le.1 hs
  have NN := mul_pos hN hN
  have hw : w ≤ 21 / 5 * N := by
    by_contra hcon
    push Not at hcon
    have := mul_self_lt_mul_self (by linarith) hcon
    nlinarith
  have ht : |τ - w| ≤ 83 / 10 * N := by
    have := abs_sub τ w
    rw [abs_of_nonneg w0] at this
    linarith
  have t2 : (τ - w) * (τ - w) ≤ 69 * (N * N) := by
    have := mul_self_le_mul_self (abs_nonneg _) ht
    rw [abs_mul_abs_self] at this
    nlinarith
  have hδt : |δ * ((τ - w) * (τ - w))| ≤ 552 * W := by
    rw [abs_mul, abs_of_nonneg (mul_self_nonneg (τ - w))]
    have := mul_le_mul_of_nonneg_left t2 (abs_nonneg δ)
    linarith
  have e1 : S - 2 * (τ - w) * τ + (τ - w) * (τ - w) * (1 + δ) - r2 = (s - (r2 - (S - τ * τ))) + δ * ((τ - w) * (τ - w)) := by linear_combination ww
  have f1 : |S - 2 * (τ - w) * τ + (τ - w) * (τ - w) * (1 + δ) - r2| ≤ 1700 * W := by
    rw [e1]
    have := abs_add_le (s - (r2 - (S - τ * τ))) (δ * ((τ - w) * (τ - w)))
    linarith
  refine ⟨hw, f1, ?_, ?_⟩
  · intro hout
    have hτ0 : 0 ≤ τ := by
      by_contra hcon
      push Not at hcon
      have : τ * τ ≤ 6084 * (ε * ε) := by nlinarith
      linarith
    have h1 : w * w ≤ τ * τ := by linarith
    have := abs_le_of_mul_self_le hτ0 h1
    linarith
  · intro t t0 tle
    have tτ : τ - w ≤ τ := by linarith
    set z := τ - w
    have z0 : 0 ≤ z := t0.trans tle
    have h1 : |δ| * (z * z) ≤ 552 * W := by
      have := mul_le_mul_of_nonneg_left t2 (abs_nonneg δ)
      linarith
    have h2 : S - 2 * t * τ + t * t * (1 + δ) - (S - 2 * z * τ + z * z * (1 + δ)) = 2 * ((z - t) * (τ - z)) + (z - t) * (z - t) - δ * ((z - t) * (z + t)) := by ring
    have h3 : 0 ≤ (z - t) * (τ - z) := mul_nonneg (by linarith) (by linarith)
    have h4 : 0 ≤ (z - t) * (z - t) := mul_self_nonneg _
    have zz : (z - t) * (z + t) ≤ z * z := by nlinarith
    have zz0 : 0 ≤ (z - t) * (z + t) := mul_nonneg (by linarith) (by linarith)
    have h5 : δ * ((z - t) * (z + t)) ≤ |δ| * (z * z) := by
      calc _ ≤ |δ| * ((z - t) * (z + t)) := mul_le_mul_of_nonneg_right (le_abs_self δ) zz0
        _ ≤ _ := mul_le_mul_of_nonneg_left zz (abs_nonneg δ)
    have z2 : z * z ≤ 161 / 10 * (N * N) := (mul_self_le_mul_self z0 tτ).trans τ2
    have h6 : |δ| * (z * z) ≤ 130 * W := by
      have := mul_le_mul_of_nonneg_left z2 (abs_nonneg δ)
      linarith
    have := (abs_le.1 f1).1
    linarith

/-! ## Errors -/
variable (R) in
/-- What is assumed of a ray: numbers of the format, the origin is within the scene, the direction has length 1 up to rounding. -/
structure RayIn (u N : ℝ) (o d : V3 ℝ) : Prop where
  ro : Rep3 R o
  rd : Rep3 R d
  so : Sz3 N o
  unit : |d.dot d - 1| ≤ 8 * u

theorem RayIn.dir {o d : V3 ℝ} (h : TreeStd R u η Ω N) (hr : RayIn R u N o d) : Sz3 (101 / 100) d := by
  have h1 := (abs_le.1 hr.unit).2
  have hu := h.u'
  have hx := mul_self_nonneg d.x
  have hy := mul_self_nonneg d.y
  have hz := mul_self_nonneg d.z
  simp only [V3.dot] at h1
  refine ⟨?_, ?_, ?_⟩ <;> refine abs_le_of_mul_self_le (by norm_num) ?_ <;> rw [abs_mul_abs_self] <;> linarith

/-- What the rounded test computes, up to the comparison: `T` for `tca`, `E` for `d2`, `q` for the square of the radius. -/
theorem tail_err (h : TreeStd R u η Ω N) (hΩ : 2 ≤ Ω) {L v o d : V3 ℝ} {r D : ℝ} (hr : RayIn R u N o d) (rv : Rep3 R v) (hv : |v.x - L.x| ≤ 3 * (u * N) ∧ |v.y - L.y| ≤ 3 * (u * N) ∧ |v.z - L.z| ≤ 3 * (u * N))
    (sv : Sz3 (3 * N) v) (rD : Rep R D) (eD : dotF R (toV3 R v) (toV3 R v) = toF R D) (hD : |D - L.dot L| ≤ 170 * (u * N * N)) (hL : L.dot L ≤ 16 * (N * N)) (rr : Rep R r) (r0 : 0 ≤ r) (rN : r ≤ N) :
    ∃ T Q E q : ℝ, Rep R T ∧ Rep R Q ∧ Rep R E ∧ Rep R q ∧ dotF R (toV3 R v) (toV3 R d) = toF R T ∧ R.mul (toF R T) (toF R T) = toF R Q ∧ R.sub (toF R D) (toF R Q) = toF R E ∧ R.mul (toF R r) (toF R r) = toF R q ∧
      |L.dot d| ≤ 401 / 100 * N ∧ |T - L.dot d| ≤ 78 * (u * N) ∧ |T| ≤ 5 * N ∧ |E - (L.dot L - L.dot d * L.dot d)| ≤ 1000 * (u * N * N) ∧ |q - r * r| ≤ 2 * (u * N * N) ∧ 0 ≤ q ∧ |E| ≤ 43 * (N * N) ∧ q ≤ 2 * (N * N) := by
  obtain ⟨e0, eη, eηη, hη, hu⟩ := h.eps
  have hN := h.N0
  have hu' := h.u'
  have eN : u * N ≤ N / 4096 := by
    have := mul_le_mul_of_nonneg_right hu' hN.le
    linarith
  have W0 : 0 ≤ u * N * N := mul_nonneg e0 hN.le
  have WN : 4096 * (u * N * N) ≤ N * N := by
    have := mul_le_mul_of_nonneg_right eN hN.le
    linarith
  have ηW : η ≤ u * N * N := by
    have h1 : (u * N) * (u * N) ≤ (u * N) * (N / 4096) := mul_le_mul_of_nonneg_left eN e0
    linarith
  have NN := mul_pos hN hN
  have hh := h.high
  have hh' := h.high'
  have sd := hr.dir h
  have sd2 : Sz3 2 d := ⟨sd.1.trans (by norm_num), sd.2.1.trans (by norm_num), sd.2.2.trans (by norm_num)⟩
  obtain ⟨T, rT, eT, dT⟩ := dot3_err h.std rv hr.rd sv sd2 (by linarith)
  have hτ2 : L.dot d * L.dot d ≤ 161 / 10 * (N * N) := by
    have h1 := cauchy3 L d
    have h2 := (abs_le.1 hr.unit).2
    have h3 : d.dot d ≤ 1 + 1 / 512 := by linarith
    have h4 : 0 ≤ d.dot d := V3.dot_self_nonneg d
    have h5 : L.dot L * d.dot d ≤ 16 * (N * N) * (1 + 1 / 512) := mul_le_mul hL h3 h4 (by linarith)
    linarith
  have hτ : |L.dot d| ≤ 401 / 100 * N := by
    refine abs_le_of_mul_self_le (by linarith) ?_
    rw [abs_mul_abs_self]
    have h1 : (401 / 100 * N) * (401 / 100 * N) = 160801 / 10000 * (N * N) := by ring
    have h2 := cauchy3 L d
    have h3 := (abs_le.1 hr.unit).2
    have h4 : d.dot d ≤ 1 + 1 / 512 := by linarith
    have h5 : L.dot L * d.dot d ≤ 16 * (N * N) * (1 + 1 / 512) := mul_le_mul hL h4 (V3.dot_self_nonneg d) (by linarith)
    linarith
  have hT : |T - L.dot d| ≤ 78 * (u * N) := by
    have h1 : |(v - L).dot d| ≤ 3 * (3 * (u * N) * 2) := dot3_abs_le (a := v - L) ⟨hv.1, hv.2.1, hv.2.2⟩ sd2
    have e : T - L.dot d = (T - v.dot d) + (v - L).dot d := by simp [V3.dot]; ring
    rw [e]
    have := abs_add_le (T - v.dot d) ((v - L).dot d)
    have e2 : 9 * (u * (3 * N * 2)) = 54 * (u * N) := by ring
    rw [e2] at dT
    linarith
  obtain ⟨T5, TT⟩ := tca_sq hN e0 eN hT hτ
  have T25 : |T * T| ≤ 25 * (N * N) := by
    rw [abs_mul]
    have := mul_self_le_mul_self (abs_nonneg T) T5
    linarith
  obtain ⟨Q, rQ, eQ, dQ⟩ := h.std.fl T25 (by linarith)
  have eW : u * (N * N) = u * N * N := by ring
  have dQ' : |Q - T * T| ≤ 26 * (u * N * N) := by
    have : u * (25 * (N * N)) = 25 * (u * N * N) := by ring
    rw [this] at dQ
    linarith
  have S0 := V3.dot_self_nonneg L
  have Dle : |D - Q| ≤ 42 * (N * N) := by
    have h1 := abs_le.1 hD
    have h2 := abs_le.1 dQ'
    have h3 := abs_le.1 T25
    have h4 := mul_self_nonneg T
    rw [abs_le]
    constructor <;> linarith
  obtain ⟨E, rE, eE, dE⟩ := h.std.fl Dle (by linarith)
  have dE' : |E - (D - Q)| ≤ 43 * (u * N * N) := by
    have : u * (42 * (N * N)) = 42 * (u * N * N) := by ring
    rw [this] at dE
    linarith
  have rr1 : |r * r| ≤ N * N := by
    rw [abs_of_nonneg (mul_nonneg r0 r0)]
    exact mul_self_le_mul_self r0 rN
  obtain ⟨q, rq, eq, dq⟩ := h.std.fl rr1 (by linarith)
  rw [eW] at dq
  have q0 : 0 ≤ q := fl_ge rq rep_zero eq (mul_nonneg r0 r0)
  refine ⟨T, Q, E, q, rT, rQ, rE, rq, eT, by rw [rmul rT rT, eQ], by rw [rsub rD rQ, eE], by rw [rmul rr rr, eq], hτ, hT, T5, ?_, by linarith, q0, ?_, ?_⟩
  · have h1 := abs_le.1 hD
    have h2 := abs_le.1 dQ'
    have h3 := abs_le.1 TT
    have h4 := abs_le.1 dE'
    have e3 : u * N * N = u * N * N := rfl
    rw [abs_le]
    constructor <;> linarith
  · have h1 := abs_le.1 dE'
    have h2 := abs_le.1 Dle
    rw [abs_le]
    constructor <;> linarith
  · have h1 := abs_le.1 dq
    have h2 := abs_le.1 rr1
    linarith

/-! ## Specification -/
/-- The square of the distance of two points. -/
def far2 (c p : V3 ℝ) : ℝ := (c - p).dot (c - p)
variable (R) in
/-- What a discrete test `hit` and a continuous test `pt` may answer for the ray from `o` in direction `d` and the sphere with centre `c` and radius `r`, in a scene of size `N` with unit roundoff `u`. -/
structure RayOk (u N : ℝ) (c : V3 ℝ) (r : ℝ) (o d : V3 ℝ) (hit : Bool) (pt : Option (V3 F)) : Prop where
  /-- The two tests agree. -/
  agree : pt.isSome = hit
  /-- A hit is reported only if the ray enters the sphere or passes it within rounding. -/
  reported : hit = true → ∃ t : ℝ, 0 ≤ t ∧ far2 c (o + d * t) ≤ r * r + 1300 * (u * N * N)
  /-- A ray that starts outside and enters the sphere by more than rounding is reported. -/
  found : r * r ≤ far2 c o → (∃ t : ℝ, 0 ≤ t ∧ far2 c (o + d * t) + 1300 * (u * N * N) ≤ r * r) → hit = true
  /-- A ray that enters the sphere by more than rounding is also reported from inside, if the centre is ahead. -/
  ahead : 78 * (u * N) ≤ (c - o).dot d → (∃ t : ℝ, far2 c (o + d * t) + 1300 * (u * N * N) ≤ r * r) → hit = true
  /-- The returned point is finite, on the ray, on the surface and the first such point; all up to rounding. -/
  point : ∀ p, pt = some p → ∃ (t : ℝ) (p' : V3 ℝ), Rep3 R p' ∧ p = toV3 R p' ∧ Sz3 (120 * (u * N)) (p' - (o + d * t)) ∧ |far2 c (o + d * t) - r * r| ≤ 1700 * (u * N * N) ∧
    (r * r + 1300 * (u * N * N) ≤ far2 c o → 0 ≤ t) ∧ ∀ t' : ℝ, 0 ≤ t' → t' ≤ t → r * r - 2000 * (u * N * N) ≤ far2 c (o + d * t')

theorem far2_ray (c o d : V3 ℝ) (t : ℝ) : far2 c (o + d * t) = (c - o).dot (c - o) - 2 * t * (c - o).dot d + t * t * (1 + (d.dot d - 1)) := by
  rw [show 1 + (d.dot d - 1) = d.dot d by ring, ← far2_eq]
  unfold far2
  congr 1 <;> (ext <;> simp <;> ring)

/-- One coordinate of the returned point. -/
theorem coord_err (h : TreeStd R u η Ω N) {o d t t' : ℝ} (ro : Rep R o) (rd : Rep R d) (rt : Rep R t') (ho : |o| ≤ N) (hd : |d| ≤ 101 / 100) (ht : |t' - t| ≤ 95 * (u * N)) (ht' : |t'| ≤ 9 * N) :
    ∃ p, Rep R p ∧ R.add (toF R o) (R.mul (toF R d) (toF R t')) = toF R p ∧ |p - (o + d * t)| ≤ 120 * (u * N) := by
  obtain ⟨e0, eη, eηη, hη, hu⟩ := h.eps
  have hN := h.N0
  have hu' := h.u'
  have hh' := h.high'
  have eN : u * N ≤ N / 4096 := by
    have := mul_le_mul_of_nonneg_right hu' hN.le
    linarith
  have h1 : |d * t'| ≤ 10 * N := by
    rw [abs_mul]
    have := mul_le_mul hd ht' (abs_nonneg _) (by norm_num)
    linarith
  obtain ⟨a, ra, ea, da⟩ := h.std.fl h1 (by linarith)
  have da' : |a - d * t'| ≤ 11 * (u * N) := by
    have : u * (10 * N) = 10 * (u * N) := by ring
    rw [this] at da
    linarith
  have h2 : |o + a| ≤ 12 * N := by
    have h3 := abs_le.1 da'
    have h4 := abs_le.1 h1
    have h5 := abs_le.1 ho
    rw [abs_le]
    constructor <;> linarith
  obtain ⟨p, rp, ep, dp⟩ := h.std.fl h2 (by linarith)
  refine ⟨p, rp, by rw [rmul rd rt, ea, radd ro ra, ep], ?_⟩
  have dp' : |p - (o + a)| ≤ 13 * (u * N) := by
    have : u * (12 * N) = 12 * (u * N) := by ring
    rw [this] at dp
    linarith
  have h3 : |d * (t' - t)| ≤ 96 * (u * N) := by
    rw [abs_mul]
    have := mul_le_mul hd ht (abs_nonneg _) (by norm_num)
    linarith
  have h4 := abs_le.1 da'
  have h5 := abs_le.1 dp'
  have h6 := abs_le.1 h3
  rw [abs_le]
  constructor <;> linarith

set_option maxHeartbeats 1000000 in
/-- The common part of the three tests. -/
theorem tail_ok (h : TreeStd R u η Ω N) (up : 0 < u) (hΩ : 2 ≤ Ω) {c v o d : V3 ℝ} {r D : ℝ} (hr : RayIn R u N o d) (rv : Rep3 R v)
    (hv : |v.x - (c - o).x| ≤ 3 * (u * N) ∧ |v.y - (c - o).y| ≤ 3 * (u * N) ∧ |v.z - (c - o).z| ≤ 3 * (u * N)) (sv : Sz3 (3 * N) v) (rD : Rep R D) (eD : dotF R (toV3 R v) (toV3 R v) = toF R D)
    (hD : |D - (c - o).dot (c - o)| ≤ 170 * (u * N * N)) (hL : (c - o).dot (c - o) ≤ 16 * (N * N)) (rr : Rep R r) (r0 : 0 ≤ r) (rN : r ≤ N) :
    RayOk R u N c r o d (hitTail R (toV3 R v) (toF R r) (toV3 R d)) (pointTail R (toV3 R v) (toF R r) (toV3 R o) (toV3 R d)) := by
  obtain ⟨T, Q, E, q, rT, rQ, rE, rq, eT, eQ, eE, eq, hτ, hT, T5, hE, hq, q0, E43, q2⟩ := tail_err h hΩ hr rv hv sv rD eD hD hL rr r0 rN
  obtain ⟨e0, eη, eηη, hη, hu⟩ := h.eps
  have hN := h.N0
  have hu' := h.u'
  have hh := h.high
  have hh' := h.high'
  have eN : u * N ≤ N / 4096 := by
    have := mul_le_mul_of_nonneg_right hu' hN.le
    linarith
  have W0 : 0 < u * N * N := mul_pos (mul_pos up hN) hN
  have NN := mul_pos hN hN
  have WN : 4096 * (u * N * N) ≤ N * N := by
    have := mul_le_mul_of_nonneg_right eN hN.le
    linarith
  have eW : 6084 * ((u * N) * (u * N)) ≤ 2 * (u * N * N) := by
    have h1 : (u * N) * (u * N) ≤ (u * N) * (N / 4096) := mul_le_mul_of_nonneg_left eN e0
    linarith
  have ηW : η ≤ u * N * N := by
    have h1 : (u * N) * (u * N) ≤ (u * N) * (N / 4096) := mul_le_mul_of_nonneg_left eN e0
    linarith
  have hδN : |d.dot d - 1| * (N * N) ≤ 8 * (u * N * N) := by
    have := mul_le_mul_of_nonneg_right hr.unit NN.le
    linarith
  have hδ1 : |d.dot d - 1| ≤ 1 / 256 := by linarith [hr.unit]
  have z1 : @LT.lt F _ (toF R T) R.zero ↔ T < 0 := by
    have e : (R.zero : F) = toF R 0 := (show toF R 0 = R.zero from toF_zero).symm
    rw [e]
    exact toF_lt rT rep_zero
  have hhit : hitTail R (toV3 R v) (toF R r) (toV3 R d) = true ↔ 0 ≤ T ∧ E ≤ q := by
    unfold hitTail
    simp only [eT, eD]
    have z2 : R.sub (toF R D) (R.mul (toF R T) (toF R T)) ≤ R.mul (toF R r) (toF R r) ↔ E ≤ q := by
      rw [eQ, eE, eq]
      exact toF_le rE rq
    by_cases hneg : T < 0
    · rw [if_pos (z1.2 hneg)]
      constructor
      · intro hf; cases hf
      · intro hf; linarith [hf.1]
    · rw [if_neg (fun hc => hneg (z1.1 hc)), decide_eq_true_iff, z2]
      exact ⟨fun hq => ⟨not_lt.1 hneg, hq⟩, fun hq => hq.2⟩
  have hpt : pointTail R (toV3 R v) (toF R r) (toV3 R o) (toV3 R d) = if T < 0 then none else if q < E then none else
      some ⟨R.add (toF R o.x) (R.mul (toF R d.x) (R.sub (toF R T) (R.sqrt (R.sub (toF R q) (toF R E))))), R.add (toF R o.y) (R.mul (toF R d.y) (R.sub (toF R T) (R.sqrt (R.sub (toF R q) (toF R E))))),
        R.add (toF R o.z) (R.mul (toF R d.z) (R.sub (toF R T) (R.sqrt (R.sub (toF R q) (toF R E)))))⟩ := by
    unfold pointTail
    simp only [eT, eD, eQ, eE, eq]
    have z2 : @GT.gt F _ (toF R E) (toF R q) ↔ q < E := toF_lt rq rE
    by_cases hneg : T < 0
    · rw [if_pos (z1.2 hneg), if_pos hneg]
    · rw [if_neg (fun hc => hneg (z1.1 hc)), if_neg hneg]
      by_cases hb : q < E
      · rw [if_pos (z2.2 hb), if_pos hb]
      · rw [if_neg (fun hc => hb (z2.1 hc)), if_neg hb]
        rfl
  have hqE := abs_le.1 hE
  have hqq := abs_le.1 hq
  have hTT := abs_le.1 hT
  have hδτ : |d.dot d - 1| * ((c - o).dot d * (c - o).dot d) ≤ 136 * (u * N * N) := by
    have h1 := mul_self_le_mul_self (abs_nonneg _) hτ
    rw [abs_mul_abs_self] at h1
    have h2 : (c - o).dot d * (c - o).dot d ≤ 17 * (N * N) := by linarith
    have h3 := mul_le_mul_of_nonneg_left h2 (abs_nonneg (d.dot d - 1))
    linarith
  refine ⟨?_, ?_, ?_, ?_, ?_⟩
  · rw [Bool.eq_iff_iff, hhit, hpt]
    by_cases hneg : T < 0
    · rw [if_pos hneg]
      simp [hneg]
    · rw [if_neg hneg]
      by_cases hb : q < E
      · rw [if_pos hb]
        simp [hb]
      · rw [if_neg hb]
        simp [not_lt.1 hneg, not_lt.1 hb]
  · intro hh1
    obtain ⟨T0, Eq⟩ := hhit.1 hh1
    simp only [far2_ray]
    refine sound_real W0.le e0 eW (le_trans ?_ hδτ) (by linarith) (by linarith)
    exact mul_le_mul_of_nonneg_right (le_abs_self _) (mul_self_nonneg _)
  · rintro hout ⟨t, t0, ht⟩
    rw [far2_ray] at ht
    have hout' : r * r ≤ (c - o).dot (c - o) := hout
    obtain ⟨h1, h2⟩ := complete_real W0 e0 eW hδτ hδ1 t0 hout' ht
    exact hhit.2 ⟨by linarith, by linarith⟩
  · rintro hfront ⟨t, ht⟩
    rw [far2_ray] at ht
    have h2 := line_real W0 hδτ hδ1 ht
    exact hhit.2 ⟨by linarith, by linarith⟩
  · intro p hp
    rw [hpt] at hp
    by_cases hneg : T < 0
    · rw [if_pos hneg] at hp
      cases hp
    rw [if_neg hneg] at hp
    by_cases hb : q < E
    · rw [if_pos hb] at hp
      cases hp
    rw [if_neg hb] at hp
    have hneg' := not_lt.1 hneg
    have hb' := not_lt.1 hb
    -- the square root
    have b1 : |q - E| ≤ 45 * (N * N) := by
      have := abs_le.1 E43
      rw [abs_le]
      constructor <;> linarith
    obtain ⟨s, rs, es, ds⟩ := h.std.fl b1 (by linarith)
    have s0 : 0 ≤ s := fl_ge rs rep_zero es (by linarith)
    have ds' : |s - (q - E)| ≤ 46 * (u * N * N) := by
      have : u * (45 * (N * N)) = 45 * (u * N * N) := by ring
      rw [this] at ds
      linarith
    have dss := abs_le.1 ds'
    have hs : |s - (r * r - ((c - o).dot (c - o) - (c - o).dot d * (c - o).dot d))| ≤ 1060 * (u * N * N) := by
      rw [abs_le]
      constructor <;> linarith
    obtain ⟨w1, w2, w3, w4⟩ := point_real (ε := u * N) hN W0 WN (mul_self_le_mul_self r0 rN) (V3.dot_self_nonneg (c - o)) hτ hδN s0 hs e0 eW (by linarith) (by linarith)
    have w0 := Real.sqrt_nonneg s
    obtain ⟨k, rk, ek, dk⟩ := h.std.fl (show |Real.sqrt s| ≤ 5 * N by rw [abs_of_nonneg w0]; linarith) (by linarith)
    have dk' : |k - Real.sqrt s| ≤ 6 * (u * N) := by
      have : u * (5 * N) = 5 * (u * N) := by ring
      rw [this] at dk
      linarith
    have dkk := abs_le.1 dk'
    have k0 : 0 ≤ k := fl_ge rk rep_zero ek w0
    have T5' := abs_le.1 T5
    obtain ⟨z, rz, ez, dz⟩ := h.std.fl (show |T - k| ≤ 6 * N by rw [abs_le]; constructor <;> linarith) (by linarith)
    have dz' : |z - (T - k)| ≤ 7 * (u * N) := by
      have : u * (6 * N) = 6 * (u * N) := by ring
      rw [this] at dz
      linarith
    have dzz := abs_le.1 dz'
    have et : R.sub (toF R T) (R.sqrt (R.sub (toF R q) (toF R E))) = toF R z := by
      rw [rsub rq rE, es, rsqrt rs, ek, rsub rT rk, ez]
    rw [et] at hp
    have zt : |z - ((c - o).dot d - Real.sqrt s)| ≤ 95 * (u * N) := by
      rw [abs_le]
      constructor <;> linarith
    have z9 : |z| ≤ 9 * N := by
      rw [abs_le]
      constructor <;> linarith
    have sd := hr.dir h
    obtain ⟨px, rx, ex, dx⟩ := coord_err h hr.ro.1 hr.rd.1 rz hr.so.1 sd.1 zt z9
    obtain ⟨py, ry, ey, dy⟩ := coord_err h hr.ro.2.1 hr.rd.2.1 rz hr.so.2.1 sd.2.1 zt z9
    obtain ⟨pz, rz', ez', dz''⟩ := coord_err h hr.ro.2.2 hr.rd.2.2 rz hr.so.2.2 sd.2.2 zt z9
    refine ⟨(c - o).dot d - Real.sqrt s, ⟨px, py, pz⟩, ⟨rx, ry, rz'⟩, ?_, ⟨dx, dy, dz''⟩, ?_, ?_, ?_⟩
    · rw [ex, ey, ez'] at hp
      exact (Option.some.inj hp).symm
    · rw [far2_ray]
      exact w2
    · exact w3
    · intro t' h1 h2
      rw [far2_ray]
      exact w4 t' h1 h2

theorem dot_bound {a b : V3 ℝ} (ha : Sz3 N a) (hb : Sz3 N b) : (a - b).dot (a - b) ≤ 16 * (N * N) := by
  have h1 := norm_diff_le ha hb
  have h2 := mul_self_le_mul_self (V3.norm_nonneg _) h1
  rw [V3.norm_sq] at h2
  linarith

/-- **C122, bounding spheres.** In rounded arithmetic the tests of a ray against a bounding sphere answer within rounding. -/
theorem c122_volume (h : TreeStd R u η Ω N) (up : 0 < u) (hΩ : 2 ≤ Ω) {s : RSphere} (rs : RpS R s) (hs : InS N N s) {o d : V3 ℝ} (hr : RayIn R u N o d) :
    RayOk R u N s.center s.radius o d (SphereF.intersectsRay R (toS R s) ⟨toV3 R o, toV3 R d⟩) (SphereF.intersectionRay R (toS R s) ⟨toV3 R o, toV3 R d⟩) := by
  obtain ⟨e0, eη, eηη, hη, hu⟩ := h.eps
  have hN := h.N0
  have eN : u * N ≤ N / 4096 := by
    have := mul_le_mul_of_nonneg_right h.u' hN.le
    linarith
  obtain ⟨v, D, rv, rD, ev, eD, ⟨v1, v2, v3⟩, D0, -, hD⟩ := dist2_err h rs.1 hr.ro hs.1 hr.so
  have comp : ∀ {a b x : ℝ}, |a| ≤ N → |b| ≤ N → |x - (a - b)| ≤ u * |a - b| + η → |x - (a - b)| ≤ 3 * (u * N) ∧ |x| ≤ 3 * N := by
    intro a b x ha hb hx
    have h1 : |a - b| ≤ 2 * N := by
      have := abs_sub a b
      linarith
    have h2 := mul_le_mul_of_nonneg_left h1 hu
    have h3 : |x - (a - b)| ≤ 3 * (u * N) := by linarith
    have h4 := abs_add_le (x - (a - b)) (a - b)
    rw [sub_add_cancel] at h4
    exact ⟨h3, by linarith⟩
  obtain ⟨a1, b1⟩ := comp hs.1.1 hr.so.1 v1
  obtain ⟨a2, b2⟩ := comp hs.1.2.1 hr.so.2.1 v2
  obtain ⟨a3, b3⟩ := comp hs.1.2.2 hr.so.2.2 v3
  have hL := dot_bound hs.1 hr.so
  have e : SphereF.intersectsRay R (toS R s) ⟨toV3 R o, toV3 R d⟩ = hitTail R (toV3 R v) (toF R s.radius) (toV3 R d) ∧
      SphereF.intersectionRay R (toS R s) ⟨toV3 R o, toV3 R d⟩ = pointTail R (toV3 R v) (toF R s.radius) (toV3 R o) (toV3 R d) := by
    exact ⟨congrArg (fun l => hitTail R l (toF R s.radius) (toV3 R d)) ev, congrArg (fun l => pointTail R l (toF R s.radius) (toV3 R o) (toV3 R d)) ev⟩
  rw [e.1, e.2]
  refine tail_ok h up hΩ hr rv ⟨a1, a2, a3⟩ ⟨b1, b2, b3⟩ rD eD ?_ hL rs.2 hs.2.1 hs.2.2
  rw [V3.norm_sq] at hD
  have h1 := mul_le_mul_of_nonneg_left hL hu
  have h2 : (u * N) * (u * N) ≤ (u * N) * (N / 4096) := mul_le_mul_of_nonneg_left eN e0
  have W0 : 0 ≤ u * N * N := mul_nonneg e0 hN.le
  linarith

theorem oppF_toF {x : ℝ} (hx : Rep R x) : oppF R (toF R x) = toF R (-x) := toF_neg hx

/-- **C122, sphere primitives** (at the origin of their own coordinates). -/
theorem c122_ball (h : TreeStd R u η Ω N) (up : 0 < u) (hΩ : 2 ≤ Ω) {r : ℝ} (rr : Rep R r) (r0 : 0 ≤ r) (rN : r ≤ N) {o d : V3 ℝ} (hr : RayIn R u N o d) :
    RayOk R u N 0 r o d (ballHitF R (toF R r) ⟨toV3 R o, toV3 R d⟩) (ballPointF R (toF R r) ⟨toV3 R o, toV3 R d⟩) := by
  obtain ⟨e0, eη, eηη, hη, hu⟩ := h.eps
  have hN := h.N0
  have hh := h.high
  have hh' := h.high'
  have eN : u * N ≤ N / 4096 := by
    have := mul_le_mul_of_nonneg_right h.u' hN.le
    linarith
  have W0 : 0 ≤ u * N * N := mul_nonneg e0 hN.le
  have hso := hr.so
  have hro := hr.ro
  have n1 := h.std.rep_neg (by linarith [hso.1]) hro.1
  have n2 := h.std.rep_neg (by linarith [hso.2.1]) hro.2.1
  have n3 := h.std.rep_neg (by linarith [hso.2.2]) hro.2.2
  have e : ballHitF R (toF R r) ⟨toV3 R o, toV3 R d⟩ = hitTail R (toV3 R (-o)) (toF R r) (toV3 R d) ∧ ballPointF R (toF R r) ⟨toV3 R o, toV3 R d⟩ = pointTail R (toV3 R (-o)) (toF R r) (toV3 R o) (toV3 R d) := by
    have e1 : (⟨oppF R (toV3 R o).x, oppF R (toV3 R o).y, oppF R (toV3 R o).z⟩ : V3 F) = toV3 R (-o) := by
      show (⟨oppF R (toF R o.x), oppF R (toF R o.y), oppF R (toF R o.z)⟩ : V3 F) = _
      rw [oppF_toF hro.1, oppF_toF hro.2.1, oppF_toF hro.2.2]
      rfl
    unfold ballHitF ballPointF
    exact ⟨congrArg (fun l => hitTail R l (toF R r) (toV3 R d)) e1, congrArg (fun l => pointTail R l (toF R r) (toV3 R o) (toV3 R d)) e1⟩
  rw [e.1, e.2]
  have rno : Rep3 R (-o) := ⟨n1, n2, n3⟩
  have sno : Sz3 N (-o) := ⟨by simpa using hso.1, by simpa using hso.2.1, by simpa using hso.2.2⟩
  have zo : (0 : V3 ℝ) - o = -o := by ext <;> simp
  have sz : Sz3 N (0 : V3 ℝ) := by
    refine ⟨?_, ?_, ?_⟩ <;> simpa using hN.le
  obtain ⟨D, rD, eD, dD⟩ := dot3_err h.std rno rno sno sno (by linarith [mul_self_nonneg N])
  refine tail_ok h up hΩ hr rno ?_ ⟨sno.1.trans (by linarith), sno.2.1.trans (by linarith), sno.2.2.trans (by linarith)⟩ rD eD ?_ (dot_bound sz hso) rr r0 rN
  · rw [zo]
    simp only [sub_self, abs_zero]
    exact ⟨by linarith, by linarith, by linarith⟩
  · rw [zo]
    have h2 : (u * N) * (u * N) ≤ (u * N) * (N / 4096) := mul_le_mul_of_nonneg_left eN e0
    linarith

/-! ## Circles -/
/-- The square of the distance of two points of the plane. -/
def far2p (c p : V2 ℝ) : ℝ := (c - p).dot (c - p)
variable (R) in
/-- As `RayIn`, in the plane. -/
structure RayIn2 (u N : ℝ) (o d : V2 ℝ) : Prop where
  ro : Rep R o.x ∧ Rep R o.y
  rd : Rep R d.x ∧ Rep R d.y
  so : |o.x| ≤ N ∧ |o.y| ≤ N
  unit : |d.dot d - 1| ≤ 8 * u
variable (R) in
/-- As `RayOk`, for the circle with centre 0 and radius `r`. -/
structure RayOk2 (u N r : ℝ) (o d : V2 ℝ) (hit : Bool) (pt : Option (V2 F)) : Prop where
  agree : pt.isSome = hit
  reported : hit = true → ∃ t : ℝ, 0 ≤ t ∧ far2p 0 (o + d * t) ≤ r * r + 1300 * (u * N * N)
  found : r * r ≤ far2p 0 o → (∃ t : ℝ, 0 ≤ t ∧ far2p 0 (o + d * t) + 1300 * (u * N * N) ≤ r * r) → hit = true
  point : ∀ p, pt = some p → ∃ (t : ℝ) (p' : V2 ℝ), (Rep R p'.x ∧ Rep R p'.y) ∧ p = toV2 R p' ∧ (|p'.x - (o.x + d.x * t)| ≤ 120 * (u * N) ∧ |p'.y - (o.y + d.y * t)| ≤ 120 * (u * N)) ∧
    |far2p 0 (o + d * t) - r * r| ≤ 1700 * (u * N * N) ∧ (r * r + 1300 * (u * N * N) ≤ far2p 0 o → 0 ≤ t) ∧ ∀ t' : ℝ, 0 ≤ t' → t' ≤ t → r * r - 2000 * (u * N * N) ≤ far2p 0 (o + d * t')

/-- The point of the plane `z = 0`. -/
def lift (v : V2 ℝ) : V3 ℝ := ⟨v.x, v.y, 0⟩
theorem far2_lift (o d : V2 ℝ) (t : ℝ) : far2 0 (lift o + lift d * t) = far2p 0 (o + d * t) := by
  simp [far2, far2p, lift, V3.dot, V2.dot]
theorem far2_lift0 (o : V2 ℝ) : far2 0 (lift o) = far2p 0 o := by simp [far2, far2p, lift, V3.dot, V2.dot]
theorem add_zeroF (x : F) : R.add x R.zero = x := by
  unfold Rounding.add
  rw [R.val_zero, add_zero, R.rnd_val]
theorem mul_zeroF (x : F) : R.mul R.zero x = R.zero := by
  unfold Rounding.mul
  rw [R.val_zero, zero_mul, ← R.val_zero, R.rnd_val]
theorem oppF_zero : oppF R R.zero = R.zero := by
  unfold oppF
  rw [R.val_zero, neg_zero, ← R.val_zero, R.rnd_val]
/-- A circle is the section of a sphere. -/
theorem circle_ball (radius : F) (r : Ray2 F) : circleHitF R radius r = ballHitF R radius ⟨⟨r.origin.x, r.origin.y, R.zero⟩, ⟨r.direction.x, r.direction.y, R.zero⟩⟩ ∧
    circlePointF R radius r = (ballPointF R radius ⟨⟨r.origin.x, r.origin.y, R.zero⟩, ⟨r.direction.x, r.direction.y, R.zero⟩⟩).map fun p => ⟨p.x, p.y⟩ := by
  unfold circleHitF circlePointF ballHitF ballPointF hitTail pointTail dotF dotF2
  simp only [oppF_zero, mul_zeroF, add_zeroF]
  refine ⟨trivial, ?_⟩
  split_ifs <;> rfl

/-- **C122, circles.** -/
theorem c122_circle (h : TreeStd R u η Ω N) (up : 0 < u) (hΩ : 2 ≤ Ω) {r : ℝ} (rr : Rep R r) (r0 : 0 ≤ r) (rN : r ≤ N) {o d : V2 ℝ} (hr : RayIn2 R u N o d) :
    RayOk2 R u N r o d (circleHitF R (toF R r) ⟨toV2 R o, toV2 R d⟩) (circlePointF R (toF R r) ⟨toV2 R o, toV2 R d⟩) := by
  have hz : (R.zero : F) = toF R 0 := (show toF R 0 = R.zero from toF_zero).symm
  obtain ⟨c1, c2⟩ := circle_ball (R := R) (toF R r) ⟨toV2 R o, toV2 R d⟩
  rw [hz] at c1 c2
  have hr3 : RayIn R u N (lift o) (lift d) := by
    refine ⟨⟨hr.ro.1, hr.ro.2, rep_zero⟩, ⟨hr.rd.1, hr.rd.2, rep_zero⟩, ⟨hr.so.1, hr.so.2, ?_⟩, ?_⟩
    · show |(0 : ℝ)| ≤ N
      rw [abs_zero]
      exact h.N0.le
    · have : (lift d).dot (lift d) = d.dot d := by simp [lift, V3.dot, V2.dot]
      rw [this]
      exact hr.unit
  have key := c122_ball h up hΩ rr r0 rN hr3
  have c1' : circleHitF R (toF R r) ⟨toV2 R o, toV2 R d⟩ = ballHitF R (toF R r) ⟨toV3 R (lift o), toV3 R (lift d)⟩ := c1
  have c2' : circlePointF R (toF R r) ⟨toV2 R o, toV2 R d⟩ = (ballPointF R (toF R r) ⟨toV3 R (lift o), toV3 R (lift d)⟩).map fun p => ⟨p.x, p.y⟩ := c2
  refine ⟨?_, ?_, ?_, ?_⟩
  · rw [c1', c2', Option.isSome_map]
    exact key.agree
  · rw [c1']
    intro hh
    obtain ⟨t, t0, ht⟩ := key.reported hh
    rw [far2_lift] at ht
    exact ⟨t, t0, ht⟩
  · rw [c1']
    rintro hout ⟨t, t0, ht⟩
    rw [← far2_lift] at ht
    rw [← far2_lift0] at hout
    exact key.found hout ⟨t, t0, ht⟩
  · intro p hp
    rw [c2', Option.map_eq_some_iff] at hp
    obtain ⟨p3, h3, rfl⟩ := hp
    obtain ⟨t, p', rp, ep, sp, f1, f2, f3⟩ := key.point p3 h3
    rw [far2_lift] at f1
    rw [far2_lift0] at f2
    refine ⟨t, ⟨p'.x, p'.y⟩, ⟨rp.1, rp.2.1⟩, ?_, ⟨sp.1, sp.2.1⟩, f1, f2, ?_⟩
    · rw [ep]
      rfl
    · intro t' h1 h2
      rw [← far2_lift]
      exact f3 t' h1 h2

/-! ## The formats -/
/-- **C122 in `f64`**, for scenes of size `2^-400` to `2^500`. -/
theorem c122_f64_volume (h1 : (2 : ℝ) ^ (-400 : ℤ) ≤ N) (h2 : N ≤ (2 : ℝ) ^ (500 : ℤ)) {s : RSphere} (rs : RpS binary64 s) (hs : InS N N s) {o d : V3 ℝ} (hr : RayIn binary64 ((2 : ℝ) ^ (-53 : ℤ)) N o d) :
    RayOk binary64 ((2 : ℝ) ^ (-53 : ℤ)) N s.center s.radius o d (SphereF.intersectsRay binary64 (toS binary64 s) ⟨toV3 binary64 o, toV3 binary64 d⟩) (SphereF.intersectionRay binary64 (toS binary64 s) ⟨toV3 binary64 o, toV3 binary64 d⟩) :=
  c122_volume (tree64 h1 h2) (zpow2_pos _) (by simpa using zpow2_le (show (1 : ℤ) ≤ 1022 by norm_num)) rs hs hr
theorem c122_f64_ball (h1 : (2 : ℝ) ^ (-400 : ℤ) ≤ N) (h2 : N ≤ (2 : ℝ) ^ (500 : ℤ)) {r : ℝ} (rr : Rep binary64 r) (r0 : 0 ≤ r) (rN : r ≤ N) {o d : V3 ℝ} (hr : RayIn binary64 ((2 : ℝ) ^ (-53 : ℤ)) N o d) :
    RayOk binary64 ((2 : ℝ) ^ (-53 : ℤ)) N 0 r o d (ballHitF binary64 (toF binary64 r) ⟨toV3 binary64 o, toV3 binary64 d⟩) (ballPointF binary64 (toF binary64 r) ⟨toV3 binary64 o, toV3 binary64 d⟩) :=
  c122_ball (tree64 h1 h2) (zpow2_pos _) (by simpa using zpow2_le (show (1 : ℤ) ≤ 1022 by norm_num)) rr r0 rN hr
theorem c122_f64_circle (h1 : (2 : ℝ) ^ (-400 : ℤ) ≤ N) (h2 : N ≤ (2 : ℝ) ^ (500 : ℤ)) {r : ℝ} (rr : Rep binary64 r) (r0 : 0 ≤ r) (rN : r ≤ N) {o d : V2 ℝ} (hr : RayIn2 binary64 ((2 : ℝ) ^ (-53 : ℤ)) N o d) :
    RayOk2 binary64 ((2 : ℝ) ^ (-53 : ℤ)) N r o d (circleHitF binary64 (toF binary64 r) ⟨toV2 binary64 o, toV2 binary64 d⟩) (circlePointF binary64 (toF binary64 r) ⟨toV2 binary64 o, toV2 binary64 d⟩) :=
  c122_circle (tree64 h1 h2) (zpow2_pos _) (by simpa using zpow2_le (show (1 : ℤ) ≤ 1022 by norm_num)) rr r0 rN hr
/-- **C122 in `f32`**, for scenes of size `2^-36` to `2^59`. -/
theorem c122_f32_volume (h1 : (2 : ℝ) ^ (-36 : ℤ) ≤ N) (h2 : N ≤ (2 : ℝ) ^ (59 : ℤ)) {s : RSphere} (rs : RpS binary32 s) (hs : InS N N s) {o d : V3 ℝ} (hr : RayIn binary32 ((2 : ℝ) ^ (-24 : ℤ)) N o d) :
    RayOk binary32 ((2 : ℝ) ^ (-24 : ℤ)) N s.center s.radius o d (SphereF.intersectsRay binary32 (toS binary32 s) ⟨toV3 binary32 o, toV3 binary32 d⟩) (SphereF.intersectionRay binary32 (toS binary32 s) ⟨toV3 binary32 o, toV3 binary32 d⟩) :=
  c122_volume (tree32 h1 h2) (zpow2_pos _) (by norm_num) rs hs hr
theorem c122_f32_ball (h1 : (2 : ℝ) ^ (-36 : ℤ) ≤ N) (h2 : N ≤ (2 : ℝ) ^ (59 : ℤ)) {r : ℝ} (rr : Rep binary32 r) (r0 : 0 ≤ r) (rN : r ≤ N) {o d : V3 ℝ} (hr : RayIn binary32 ((2 : ℝ) ^ (-24 : ℤ)) N o d) :
    RayOk binary32 ((2 : ℝ) ^ (-24 : ℤ)) N 0 r o d (ballHitF binary32 (toF binary32 r) ⟨toV3 binary32 o, toV3 binary32 d⟩) (ballPointF binary32 (toF binary32 r) ⟨toV3 binary32 o, toV3 binary32 d⟩) :=
  c122_ball (tree32 h1 h2) (zpow2_pos _) (by norm_num) rr r0 rN hr
theorem c122_f32_circle (h1 : (2 : ℝ) ^ (-36 : ℤ) ≤ N) (h2 : N ≤ (2 : ℝ) ^ (59 : ℤ)) {r : ℝ} (rr : Rep binary32 r) (r0 : 0 ≤ r) (rN : r ≤ N) {o d : V2 ℝ} (hr : RayIn2 binary32 ((2 : ℝ) ^ (-24 : ℤ)) N o d) :
    RayOk2 binary32 ((2 : ℝ) ^ (-24 : ℤ)) N r o d (circleHitF binary32 (toF binary32 r) ⟨toV2 binary32 o, toV2 binary32 d⟩) (circlePointF binary32 (toF binary32 r) ⟨toV2 binary32 o, toV2 binary32 d⟩) :=
  c122_circle (tree32 h1 h2) (zpow2_pos _) (by norm_num) rr r0 rN hr

/-! ## Without rounding these are the functions of C37 and C57 -/
open Verif.Dbvt (exactR sphereE exact_sub3)
theorem exact_dot3 (a b : V3 ℝ) : dotF exactR (Dbvt.V3.ereal a) (Dbvt.V3.ereal b) = ((a.dot b : ℝ) : EReal) := by
  simp only [dotF, Dbvt.V3.ereal, Rounding.mul, Rounding.add, exactR, id, V3.dot, EReal.coe_mul, EReal.coe_add]
theorem exact_opp (x : ℝ) : oppF exactR (x : EReal) = ((-x : ℝ) : EReal) := by simp only [oppF, exactR, id, EReal.coe_neg]
theorem exact_sqrt (x : ℝ) : exactR.sqrt (x : EReal) = ((Real.sqrt x : ℝ) : EReal) := by
  simp only [Rounding.sqrt, exactR, id, EReal.coe_ne_top, if_false, EReal.toReal_coe]
theorem exact_tail (l : V3 ℝ) (r : ℝ) (o d : V3 ℝ) : (hitTail exactR (Dbvt.V3.ereal l) r (Dbvt.V3.ereal d) = if l.dot d < 0 then false else decide (l.dot l - l.dot d * l.dot d ≤ r * r)) ∧
    pointTail exactR (Dbvt.V3.ereal l) r (Dbvt.V3.ereal o) (Dbvt.V3.ereal d) = (if l.dot d < 0 then none else if l.dot l - l.dot d * l.dot d > r * r then none else
      some (o + d * (l.dot d - Real.sqrt (r * r - (l.dot l - l.dot d * l.dot d))))).map Dbvt.V3.ereal := by
  have z : (exactR.zero : EReal) = ((0 : ℝ) : EReal) := rfl
  unfold hitTail pointTail
  simp only [exact_dot3, z, Rounding.sub, Rounding.mul]
  simp only [exactR, id, ← EReal.coe_mul, ← EReal.coe_sub, gt_iff_lt, EReal.coe_lt_coe_iff, EReal.coe_le_coe_iff]
  constructor
  · trivial
  · by_cases h1 : l.dot d < 0
    · simp only [if_pos h1, Option.map_none]
    · rw [if_neg h1, if_neg h1]
      by_cases h2 : r * r < l.dot l - l.dot d * l.dot d
      · rw [if_pos h2, if_pos h2]; rfl
      · rw [if_neg h2, if_neg h2]
        have e := exact_sqrt (r * r - (l.dot l - l.dot d * l.dot d))
        unfold exactR at e
        rw [e]
        simp only [Dbvt.V3.ereal, Rounding.add, id, ← EReal.coe_mul, ← EReal.coe_sub, ← EReal.coe_add, Option.map_some, V3.add_x, V3.add_y, V3.add_z, V3.mul_x, V3.mul_y, V3.mul_z]
theorem c122_exact_volume (s : Sphere) (r : Ray3 ℝ) : SphereF.intersectsRay exactR (sphereE s) ⟨Dbvt.V3.ereal r.origin, Dbvt.V3.ereal r.direction⟩ = s.intersectsRay r ∧
    SphereF.intersectionRay exactR (sphereE s) ⟨Dbvt.V3.ereal r.origin, Dbvt.V3.ereal r.direction⟩ = (s.intersectionRay r).map Dbvt.V3.ereal := by
  unfold SphereF.intersectsRay SphereF.intersectionRay Sphere.intersectsRay Sphere.intersectionRay sphereE
  simp only [exact_sub3]
  obtain ⟨h1, h2⟩ := exact_tail (s.center - r.origin) s.radius r.origin r.direction
  refine ⟨h1.trans ?_, h2⟩
  congr
theorem c122_exact_ball (s : Ball) (r : Ray3 ℝ) : ballHitF exactR s.radius ⟨Dbvt.V3.ereal r.origin, Dbvt.V3.ereal r.direction⟩ = s.intersectsRay r ∧
    ballPointF exactR s.radius ⟨Dbvt.V3.ereal r.origin, Dbvt.V3.ereal r.direction⟩ = (s.intersectionRay r).map Dbvt.V3.ereal := by
  unfold ballHitF ballPointF Ball.intersectsRay Ball.intersectionRay
  obtain ⟨h1, h2⟩ := exact_tail ⟨-r.origin.x, -r.origin.y, -r.origin.z⟩ s.radius r.origin r.direction
  have e : (⟨oppF exactR (Dbvt.V3.ereal r.origin).x, oppF exactR (Dbvt.V3.ereal r.origin).y, oppF exactR (Dbvt.V3.ereal r.origin).z⟩ : V3 EReal) = Dbvt.V3.ereal ⟨-r.origin.x, -r.origin.y, -r.origin.z⟩ := by
    simp only [Dbvt.V3.ereal, exact_opp]
  simp only [e]
  refine ⟨h1.trans ?_, h2⟩
  congr

/-! ## The hypotheses are met -/
/-- The ray from `(-10, 3, 0)` along the first axis. -/
theorem c122_example_ray : RayIn binary32 ((2 : ℝ) ^ (-24 : ℤ)) 10 ⟨-10, 3, 0⟩ ⟨1, 0, 0⟩ := by
  have a : Rep binary32 (-10) := by simpa using rep32_int (-10) (by norm_num)
  have b : Rep binary32 3 := by simpa using rep32_int 3 (by norm_num)
  refine ⟨⟨a, b, rep_zero⟩, ⟨rep_one, rep_zero, rep_zero⟩, ⟨?_, ?_, ?_⟩, ?_⟩
  · show |(-10 : ℝ)| ≤ 10; norm_num
  · show |(3 : ℝ)| ≤ 10; norm_num [abs_of_nonneg]
  · show |(0 : ℝ)| ≤ 10; norm_num
  · norm_num [V3.dot]
/-- It hits the sphere with centre `(2, 0, 0)` and radius 5 in `f32`, and the returned point is on the ray and on the sphere up to rounding, in front. -/
theorem c122_example : ∃ p, SphereF.intersectionRay binary32 (toS binary32 ⟨⟨2, 0, 0⟩, 5⟩) ⟨toV3 binary32 ⟨-10, 3, 0⟩, toV3 binary32 ⟨1, 0, 0⟩⟩ = some p ∧
    ∃ (t : ℝ) (p' : V3 ℝ), p = toV3 binary32 p' ∧ 0 ≤ t ∧ |p'.x - (-10 + t)| ≤ 1 / 1000 ∧ |p'.y - 3| ≤ 1 / 1000 ∧ |far2 ⟨2, 0, 0⟩ ⟨-10 + t, 3, 0⟩ - 25| ≤ 1 / 50 := by
  have h2 : Rep binary32 2 := by simpa using rep32_int 2 (by norm_num)
  have h5 : Rep binary32 5 := by simpa using rep32_int 5 (by norm_num)
  have u3 : (2 : ℝ) ^ (-24 : ℤ) = 1 / 16777216 := by norm_num
  have key := c122_f32_volume (N := 10) (s := ⟨⟨2, 0, 0⟩, 5⟩) (by norm_num) (by norm_num) ⟨⟨h2, rep_zero, rep_zero⟩, h5⟩
    ⟨⟨by show |(2 : ℝ)| ≤ 10; norm_num [abs_of_nonneg], by show |(0 : ℝ)| ≤ 10; norm_num, by show |(0 : ℝ)| ≤ 10; norm_num⟩, by norm_num, by norm_num⟩ c122_example_ray
  have hhit := key.found (by norm_num [far2, V3.dot]) ⟨12, by norm_num, by rw [u3]; norm_num [far2, V3.dot]⟩
  have hs := key.agree
  rw [hhit] at hs
  obtain ⟨p, hp⟩ := Option.isSome_iff_exists.1 hs
  obtain ⟨t, p', -, ep, ⟨sx, sy, -⟩, f1, f2, -⟩ := key.point p hp
  have e : (⟨-10, 3, 0⟩ : V3 ℝ) + (⟨1, 0, 0⟩ : V3 ℝ) * t = ⟨-10 + t, 3, 0⟩ := by ext <;> simp
  rw [e] at sx sy f1
  refine ⟨p, hp, t, p', ep, f2 (by rw [u3]; norm_num [far2, V3.dot]), sx.trans (by rw [u3]; norm_num), sy.trans (by rw [u3]; norm_num), ?_⟩
  rw [u3] at f1
  norm_num at f1 ⊢
  exact f1.trans (by norm_num)

/-! ## The bound is needed -/
/-- The direction `(1 - 2^-24, 0, 0)`: a number of `f32`, and its length is 1 up to one unit roundoff. -/
def nearUnit : V3 ℝ := ⟨1 - 1 / 16777216, 0, 0⟩
theorem nearUnit_ray : RayIn binary32 ((2 : ℝ) ^ (-24 : ℤ)) 8192 0 nearUnit := by
  have a : Rep binary32 (1 - 1 / 16777216) := rep_of_rep32 ⟨16777215, -24, by norm_num, by norm_num, by norm_num, by norm_num⟩
  refine ⟨⟨rep_zero, rep_zero, rep_zero⟩, ⟨a, rep_zero, rep_zero⟩, ⟨?_, ?_, ?_⟩, ?_⟩
  · show |(0 : ℝ)| ≤ _; norm_num
  · show |(0 : ℝ)| ≤ _; norm_num
  · show |(0 : ℝ)| ≤ _; norm_num
  · norm_num [V3.dot, nearUnit, abs_le]
/-- The sphere of radius 1 with centre `(8192, 0, 0)`. -/
def farBall : RSphere := ⟨⟨8192, 0, 0⟩, 1⟩
theorem farBall_ok : RpS binary32 farBall ∧ InS 8192 8192 farBall := by
  have a : Rep binary32 8192 := by simpa using rep32_int 8192 (by norm_num)
  refine ⟨⟨⟨a, rep_zero, rep_zero⟩, rep_one⟩, ⟨?_, ?_, ?_⟩, ?_, ?_⟩
  · show |(8192 : ℝ)| ≤ 8192; norm_num [abs_of_nonneg]
  · show |(0 : ℝ)| ≤ _; norm_num
  · show |(0 : ℝ)| ≤ _; norm_num
  · norm_num [farBall]
  · norm_num [farBall]
/-- The tests on this sphere and this ray. -/
theorem farBall_miss : SphereF.intersectsRay binary32 (toS binary32 farBall) ⟨toV3 binary32 0, toV3 binary32 nearUnit⟩ = false := by
  have r1 : Rep binary32 8192 := by simpa using rep32_int 8192 (by norm_num)
  have r2 : Rep binary32 (1 - 1 / 16777216) := nearUnit_ray.rd.1
  have r3 : Rep binary32 (8192 - 1 / 2048) := rep_of_rep32 ⟨16777215, -11, by norm_num, by norm_num, by norm_num, by norm_num⟩
  have r4 : Rep binary32 67108864 := rep_of_rep32 ⟨1, 26, by norm_num, by norm_num, by norm_num, by norm_num⟩
  have r5 : Rep binary32 67108860 := rep_of_rep32 ⟨16777215, 2, by norm_num, by norm_num, by norm_num, by norm_num⟩
  have r6 : Rep binary32 4 := by simpa using rep32_int 4 (by norm_num)
  have z : (binary32.zero : F32) = toF binary32 0 := (show toF binary32 0 = binary32.zero from toF_zero).symm
  have el : subF binary32 (toV3 binary32 farBall.center) (toV3 binary32 0) = toV3 binary32 ⟨8192, 0, 0⟩ := by
    show (⟨binary32.sub (toF binary32 8192) (toF binary32 0), binary32.sub (toF binary32 0) (toF binary32 0), binary32.sub (toF binary32 0) (toF binary32 0)⟩ : V3 F32) = _
    rw [rsub r1 rep_zero, rsub rep_zero rep_zero, sub_zero, sub_zero]
    rfl
  have dot1 : ∀ {a b c : ℝ}, Rep binary32 a → Rep binary32 b → Rep binary32 c → a * b = c → dotF binary32 (toV3 binary32 ⟨a, 0, 0⟩) (toV3 binary32 ⟨b, 0, 0⟩) = toF binary32 c := by
    intro a b c ra rb rc e
    show binary32.add (binary32.add (binary32.mul (toF binary32 a) (toF binary32 b)) (binary32.mul (toF binary32 0) (toF binary32 0))) (binary32.mul (toF binary32 0) (toF binary32 0)) = _
    rw [rmul ra rb, rmul rep_zero rep_zero, e, mul_zero, radd rc rep_zero, add_zero, radd rc rep_zero, add_zero]
  have e1 := dot1 r1 r2 r3 (by norm_num)
  have e2 := dot1 r1 r1 r4 (by norm_num)
  have hq := std32.err ((8192 - 1 / 2048) * (8192 - 1 / 2048)) (by norm_num [abs_of_nonneg])
  obtain ⟨q, rq, eq, -⟩ := hq
  have q1 : q ≤ 67108860 := fl_below rq r5 eq (by norm_num)
  have hs := std32.err (67108864 - q) (by
    have : 0 ≤ q := fl_ge rq rep_zero eq (by norm_num)
    rw [abs_of_nonneg (by linarith)]
    norm_num
    linarith)
  obtain ⟨w, rw', ew, -⟩ := hs
  have w4 : 4 ≤ w := fl_ge rw' r6 ew (by linarith)
  have e3 : hitTail binary32 (toV3 binary32 ⟨8192, 0, 0⟩) (toF binary32 1) (toV3 binary32 nearUnit) = false := by
    unfold hitTail nearUnit
    simp only [e1, e2, rmul r3 r3, eq, rsub r4 rq, ew, rmul rep_one rep_one, mul_one, z]
    have n1 : ¬ @LT.lt F32 _ (toF binary32 (8192 - 1 / 2048)) (toF binary32 0) := fun hc => by
      have : (8192 - 1 / 2048 : ℝ) < 0 := (toF_lt r3 rep_zero).1 hc
      norm_num at this
    have n2 : ¬ @LE.le F32 _ (toF binary32 w) (toF binary32 1) := fun hc => by
      have : w ≤ 1 := (toF_le rw' rep_one).1 hc
      linarith
    rw [if_neg n1]
    exact decide_eq_false n2
  exact (congrArg (fun l => hitTail binary32 l (toF binary32 1) (toV3 binary32 nearUnit)) el).trans e3
/-- **C122 without a bound is false.** In `f32` there are a sphere of radius 1, a distance of 8192 away, and a ray whose direction has length 1 up to rounding and that passes exactly through the centre, and the ray is not reported. -/
theorem c122_false : ∃ (s : RSphere) (o d : V3 ℝ), RpS binary32 s ∧ InS 8192 8192 s ∧ s.radius = 1 ∧ RayIn binary32 ((2 : ℝ) ^ (-24 : ℤ)) 8192 o d ∧ s.radius * s.radius ≤ far2 s.center o ∧
    (∃ t : ℝ, 0 ≤ t ∧ far2 s.center (o + d * t) = 0) ∧ SphereF.intersectsRay binary32 (toS binary32 s) ⟨toV3 binary32 o, toV3 binary32 d⟩ = false := by
  refine ⟨farBall, 0, nearUnit, farBall_ok.1, farBall_ok.2, rfl, nearUnit_ray, by norm_num [far2, farBall, V3.dot], ⟨8192 / (1 - 1 / 16777216), by norm_num, ?_⟩, farBall_miss⟩
  norm_num [far2, farBall, nearUnit, V3.dot]
end
end Verif.Scene
