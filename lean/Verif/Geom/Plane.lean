import Verif.Geom.Sphere
import Verif.Geom.RayBox
import Mathlib.Tactic.LinearCombination
import Mathlib.Tactic.Positivity
/-!
# Planes: model of `src/plane.rs`; C38-C40 and the plane part of C32
-/
namespace Verif.Geom
set_option linter.unusedSectionVars false
variable {K : Type} [Field K] [LinearOrder K]

/-- `Plane`, `src/plane.rs:32-37`; documented equation `n.x*x + n.y*y + n.z*z - d = 0` -/
@[ext] structure Plane (K : Type) where
  n : V3 K
  d : K
  deriving DecidableEq

/-- `cgmath::Vector4` -/
@[ext] structure V4 (K : Type) where
  x : K
  y : K
  z : K
  w : K
  deriving DecidableEq

/-- IEEE `x / y`; `neg` is the sign bit of a zero `y`. (The sign of a zero result is not tracked.) -/
def Ext.div (neg : Bool) (x y : K) : Ext K :=
  if y ≠ 0 then .fin (x / y) else if x = 0 then .nan else
  if (0 < x) = !neg then .pinf else .ninf

namespace Plane
/-- `src/plane.rs:43-45` -/
def new (n : V3 K) (d : K) : Plane K := ⟨n, d⟩
/-- `src/plane.rs:53-58` -/
def fromAbcd (a b c d : K) : Plane K := ⟨⟨a, b, c⟩, d⟩
/-- `src/plane.rs:61-66` -/
def fromVector4 (v : V4 K) : Plane K := ⟨⟨v.x, v.y, v.z⟩, v.w⟩
/-- `src/plane.rs:70-75` -/
def fromVector4Alt (v : V4 K) : Plane K := ⟨⟨v.x, v.y, v.z⟩, -v.w⟩
/-- `src/plane.rs:99-101` -/
def fromPointNormal (p n : V3 K) : Plane K := ⟨n, p.dot n⟩
/-- `src/plane.rs:78-95` (`ulps_eq!` with zero as exact equality) -/
noncomputable def fromPoints (a b c : V3 ℝ) : Option (Plane ℝ) :=
  let v0 := b - a
  let v1 := c - a
  let n := v0.cross v1
  if n = 0 then none else
  let n := n.normalize
  let d := -a.dot n
  some (new n d)
/-- `src/plane.rs:104-111` -/
noncomputable def normalize (p : Plane ℝ) : Option (Plane ℝ) :=
  if p.n = 0 then none else
  let denom := 1 / p.n.norm
  some (new (p.n * denom) (p.d * denom))
/-- The parameter computed by both ray tests, `src/plane.rs:181, 193`; `neg` is the sign bit of a zero
denominator. -/
def rayT (neg : Bool) (p : Plane K) (r : Ray3 K) : Ext K :=
  Ext.div neg (-(p.d + r.origin.dot p.n)) (r.direction.dot p.n)
/-- `Continuous<Ray3>`, `src/plane.rs:178-187` -/
def intersectionRay (neg : Bool) (p : Plane K) (r : Ray3 K) : Option (V3 (Ext K)) :=
  if Ext.lt (p.rayT neg r) (.fin 0) then none else some (r.atE (p.rayT neg r))
/-- `Discrete<Ray3>`, `src/plane.rs:191-195` -/
def intersectsRay (neg : Bool) (p : Plane K) (r : Ray3 K) : Bool := Ext.le (.fin 0) (p.rayT neg r)
/-- `Continuous<Plane>`, `src/plane.rs:201-211` -/
def intersectionPlane (p1 p2 : Plane K) : Option (Ray3 K) :=
  let d := p1.n.cross p2.n
  let denom := d.dot d
  if denom = 0 then none else
  let p := (p2.n * p1.d - p1.n * p2.d).cross d / denom
  some ⟨p, d⟩
/-- `Discrete<Plane>`, `src/plane.rs:215-220` -/
def intersectsPlane (p1 p2 : Plane K) : Bool :=
  let d := p1.n.cross p2.n
  d.dot d ≠ 0
/-- `Continuous<(Plane, Plane)>`, `src/plane.rs:226-236` -/
def intersectionPlanes (p1 p2 p3 : Plane K) : Option (V3 K) :=
  let u := p2.n.cross p3.n
  let denom := p1.n.dot u
  if |denom| = 0 then none else
  some ((u * p1.d + p1.n.cross (p2.n * p3.d - p3.n * p2.d)) / denom)
/-- `Discrete<(Plane, Plane)>`, `src/plane.rs:240-245` -/
def intersectsPlanes (p1 p2 p3 : Plane K) : Bool :=
  let u := p2.n.cross p3.n
  |p1.n.dot u| ≠ 0
end Plane

/-- Specification: the point satisfies the documented equation `A*x + B*y + C*z - D = 0`. -/
def Plane.On (P : Plane K) (p : V3 K) : Prop := P.n.x * p.x + P.n.y * p.y + P.n.z * p.z - P.d = 0
/-- Specification: the point satisfies the other common convention `A*x + B*y + C*z + D = 0`. -/
def Plane.OnAlt (P : Plane K) (p : V3 K) : Prop := P.n.x * p.x + P.n.y * p.y + P.n.z * p.z + P.d = 0

variable [IsStrictOrderedRing K]

/-! ## C38 -/

/-- C38: `from_point_normal`, `from_abcd`, `from_vector4` and `from_vector4_alt` satisfy the equations
their documentation states. -/
theorem c38_constructors (q n : V3 K) (a b c d : K) (v : V4 K) :
    ((Plane.fromPointNormal q n).On q ∧ (Plane.fromPointNormal q n).n = n) ∧
    (∀ p, (Plane.fromAbcd a b c d).On p ↔ a * p.x + b * p.y + c * p.z - d = 0) ∧
    (∀ p, (Plane.fromVector4 v).On p ↔ v.x * p.x + v.y * p.y + v.z * p.z - v.w = 0) ∧
    (∀ p, (Plane.fromVector4Alt v).On p ↔ v.x * p.x + v.y * p.y + v.z * p.z + v.w = 0) := by
  refine ⟨⟨?_, rfl⟩, fun p => Iff.rfl, fun p => Iff.rfl, fun p => ?_⟩
  · simp [Plane.On, Plane.fromPointNormal, V3.dot]; ring
  · simp [Plane.On, Plane.fromVector4Alt]

/-- C38: `normalize` fails exactly for a zero normal; otherwise the normal is a unit vector with the same direction,
and the plane has the same points. -/
theorem c38_normalize (P : Plane ℝ) :
    (P.normalize = none ↔ P.n = 0) ∧
    ∀ Q, P.normalize = some Q → Q.n.norm = 1 ∧ (∃ k : ℝ, 0 < k ∧ Q.n = P.n * k ∧ Q.d = P.d * k) ∧ ∀ p, Q.On p ↔ P.On p := by
  unfold Plane.normalize
  by_cases h : P.n = 0
  · simp [h]
  · refine ⟨by simp [h], ?_⟩
    intro Q hQ
    simp only [h, if_false, Option.some.injEq] at hQ
    subst hQ
    have hp := V3.norm_pos h
    have hk : 0 < 1 / P.n.norm := by positivity
    refine ⟨V3.norm_normalize h, ⟨_, hk, rfl, rfl⟩, ?_⟩
    intro p
    have : (Plane.new (P.n * (1 / P.n.norm)) (P.d * (1 / P.n.norm))).n.x * p.x +
        (Plane.new (P.n * (1 / P.n.norm)) (P.d * (1 / P.n.norm))).n.y * p.y +
        (Plane.new (P.n * (1 / P.n.norm)) (P.d * (1 / P.n.norm))).n.z * p.z -
        (Plane.new (P.n * (1 / P.n.norm)) (P.d * (1 / P.n.norm))).d =
        (1 / P.n.norm) * (P.n.x * p.x + P.n.y * p.y + P.n.z * p.z - P.d) := by
      simp [Plane.new]; ring
    unfold Plane.On
    rw [this, mul_eq_zero]
    constructor
    · rintro (h | h)
      · exact absurd h hk.ne'
      · exact h
    · exact Or.inr

/-- The cross product vanishes exactly for linearly dependent vectors. -/
theorem cross_eq_zero_iff (a b : V3 K) : a.cross b = 0 ↔ ∃ s t : K, (s ≠ 0 ∨ t ≠ 0) ∧ a * s + b * t = 0 := by
  constructor
  · intro h
    have hx := congrArg V3.x h; have hy := congrArg V3.y h; have hz := congrArg V3.z h
    simp only [V3.cross, V3.zero_x, V3.zero_y, V3.zero_z] at hx hy hz
    by_cases h0 : b.x = 0 ∧ b.y = 0 ∧ b.z = 0
    · exact ⟨0, 1, by simp, by ext <;> simp [h0]⟩
    · have : b.x ≠ 0 ∨ b.y ≠ 0 ∨ b.z ≠ 0 := by
        by_contra hc; push Not at hc; exact h0 hc
      rcases this with h1 | h1 | h1
      · exact ⟨b.x, -a.x, Or.inl h1, by ext <;> simp <;> linarith⟩
      · exact ⟨b.y, -a.y, Or.inl h1, by ext <;> simp <;> linarith⟩
      · exact ⟨b.z, -a.z, Or.inl h1, by ext <;> simp <;> linarith⟩
  · rintro ⟨s, t, hst, h⟩
    have hx := congrArg V3.x h; have hy := congrArg V3.y h; have hz := congrArg V3.z h
    simp at hx hy hz
    rcases hst with h1 | h1
    · ext <;> simp only [V3.cross, V3.zero_x, V3.zero_y, V3.zero_z] <;> apply mul_left_cancel₀ h1
      · linear_combination b.z * hy - b.y * hz
      · linear_combination b.x * hz - b.z * hx
      · linear_combination b.y * hx - b.x * hy
    · ext <;> simp only [V3.cross, V3.zero_x, V3.zero_y, V3.zero_z] <;> apply mul_left_cancel₀ h1
      · linear_combination a.y * hz - a.z * hy
      · linear_combination a.z * hx - a.x * hz
      · linear_combination a.x * hy - a.y * hx

/-- C38 for `from_points`, in the convention the code uses (missing: the documented equation `A*x+B*y+C*z-D=0`, which is
false for `from_points`, see `c38_false`): `None` exactly for collinear points; otherwise the normal is a unit vector and the
three points satisfy `A*x+B*y+C*z+D=0`. -/
theorem c38_from_points_partial (a b c : V3 ℝ) :
    (Plane.fromPoints a b c = none ↔ ∃ s t : ℝ, (s ≠ 0 ∨ t ≠ 0) ∧ (b - a) * s + (c - a) * t = 0) ∧
    ∀ P, Plane.fromPoints a b c = some P → P.n.norm = 1 ∧ P.OnAlt a ∧ P.OnAlt b ∧ P.OnAlt c := by
  unfold Plane.fromPoints
  dsimp only
  rw [← cross_eq_zero_iff]
  by_cases h : (b - a).cross (c - a) = 0
  · simp [h]
  · refine ⟨by simp [h], ?_⟩
    intro P hP
    simp only [h, if_false, Option.some.injEq] at hP
    subst hP
    refine ⟨V3.norm_normalize h, ?_, ?_, ?_⟩ <;> simp [Plane.OnAlt, Plane.new, V3.normalize, V3.dot, V3.cross] <;> ring

/-- C38 as stated is false for `from_points`: the plane through (0,0,1), (1,0,1), (0,1,1) has none of these
points on `A*x+B*y+C*z-D=0`. -/
theorem c38_false : ∃ (a b c : V3 ℝ) (P : Plane ℝ), Plane.fromPoints a b c = some P ∧ ¬ P.On a ∧ ¬ P.On b ∧ ¬ P.On c := by
  have hc : ((⟨1, 0, 1⟩ : V3 ℝ) - ⟨0, 0, 1⟩).cross (⟨0, 1, 1⟩ - ⟨0, 0, 1⟩) = ⟨0, 0, 1⟩ := by
    ext <;> simp [V3.cross]
  have hn : (⟨0, 0, 1⟩ : V3 ℝ).normalize = ⟨0, 0, 1⟩ := by
    ext <;> simp [V3.normalize, V3.norm, V3.dot]
  have h0 : (⟨0, 0, 1⟩ : V3 ℝ) ≠ 0 := by intro h; have := congrArg V3.z h; simp at this
  refine ⟨⟨0, 0, 1⟩, ⟨1, 0, 1⟩, ⟨0, 1, 1⟩, ⟨⟨0, 0, 1⟩, -1⟩, ?_, ?_, ?_, ?_⟩
  · simp only [Plane.fromPoints, hc, hn, h0, if_false]
    simp [Plane.new, V3.dot]
  all_goals simp [Plane.On]; try norm_num

/-! ## C39 -/

theorem rayT_fin (neg : Bool) (P : Plane K) (r : Ray3 K) (h : r.direction.dot P.n ≠ 0) :
    P.rayT neg r = .fin (-(P.d + r.origin.dot P.n) / r.direction.dot P.n) := by
  simp [Plane.rayT, Ext.div, h]

/-- C39 in the convention the code uses (missing: the documented equation, for which it is false, see `c39_false`): if
the ray is not parallel to the plane, the result is `Some` exactly if the ray meets the plane
`A*x+B*y+C*z+D=0`, and then the point is the one point of the ray on that plane. -/
theorem c39_ray_plane_partial (neg : Bool) (P : Plane K) (r : Ray3 K) (h : r.direction.dot P.n ≠ 0) :
    (P.intersectionRay neg r = none ↔ ¬ ∃ t, 0 ≤ t ∧ P.OnAlt (r.at t)) ∧
    (∀ q, P.intersectionRay neg r = some q → ∃ t, 0 ≤ t ∧ q = (r.at t).toExt ∧ P.OnAlt (r.at t) ∧
      ∀ u, P.OnAlt (r.at u) → u = t) := by
  have hon : ∀ t, P.OnAlt (r.at t) ↔ t = -(P.d + r.origin.dot P.n) / r.direction.dot P.n := by
    intro t
    rw [eq_div_iff h]
    simp only [Plane.OnAlt, Ray3.at, V3.dot, V3.add_x, V3.add_y, V3.add_z, V3.mul_x, V3.mul_y, V3.mul_z]
    constructor <;> intro h <;> linear_combination h
  unfold Plane.intersectionRay
  rw [rayT_fin neg P r h, atE3]
  generalize hT : -(P.d + r.origin.dot P.n) / r.direction.dot P.n = T
  simp only [hT] at hon
  simp only [Ext.lt, decide_eq_true_eq, hon]
  by_cases h0 : T < 0
  · simp only [h0, if_true]
    refine ⟨⟨fun _ => ?_, fun _ => trivial⟩, by simp⟩
    rintro ⟨t, t0, rfl⟩
    exact absurd h0 (not_lt.2 t0)
  · simp only [h0, if_false]
    refine ⟨by simpa using h0, ?_⟩
    intro q hq
    simp only [Option.some.injEq] at hq
    exact ⟨T, not_lt.1 h0, hq.symm, rfl, fun u => id⟩

/-- C39 as stated is false: a ray that meets the plane `z = 1` (as documented, and as `from_point_normal` builds it)
is reported as a miss. -/
theorem c39_false : ∃ (p n : V3 ℚ) (r : Ray3 ℚ), r.direction.dot (Plane.fromPointNormal p n).n ≠ 0 ∧
    (∃ t, 0 ≤ t ∧ (Plane.fromPointNormal p n).On (r.at t)) ∧
    ∀ neg, (Plane.fromPointNormal p n).intersectionRay neg r = none := by
  refine ⟨⟨0, 0, 1⟩, ⟨0, 0, 1⟩, ⟨⟨0, 0, 0⟩, ⟨0, 0, 1⟩⟩, by decide +kernel, ⟨1, by norm_num, by unfold Plane.On; decide +kernel⟩, ?_⟩
  intro neg
  cases neg <;> decide +kernel

/-- `from_points` and the ray test use the same convention: a non-parallel ray is tested correctly against the plane
through three points, i.e. the plane of all `q` with `(q-a)·((b-a)×(c-a)) = 0`. -/
theorem c39_from_points (neg : Bool) (a b c : V3 ℝ) (P : Plane ℝ) (hP : Plane.fromPoints a b c = some P) (r : Ray3 ℝ)
    (h : r.direction.dot ((b - a).cross (c - a)) ≠ 0) :
    (P.intersectionRay neg r = none ↔ ¬ ∃ t, 0 ≤ t ∧ (r.at t - a).dot ((b - a).cross (c - a)) = 0) ∧
    (∀ q, P.intersectionRay neg r = some q → ∃ t, 0 ≤ t ∧ q = (r.at t).toExt ∧ (r.at t - a).dot ((b - a).cross (c - a)) = 0) := by
  have hne : (b - a).cross (c - a) ≠ 0 := by
    intro h0; rw [h0] at h; simp [V3.dot] at h
  have hk := V3.norm_pos hne
  have e : P = ⟨((b - a).cross (c - a)).normalize, -a.dot ((b - a).cross (c - a)).normalize⟩ := by
    simp only [Plane.fromPoints, hne, if_false, Option.some.injEq, Plane.new] at hP
    exact hP.symm
  have hon : ∀ q, P.OnAlt q ↔ (q - a).dot ((b - a).cross (c - a)) = 0 := by
    intro q
    rw [e]
    have : ∀ n : V3 ℝ, 0 < n.norm → (((⟨n.normalize, -a.dot n.normalize⟩ : Plane ℝ).OnAlt q) ↔ (q - a).dot n = 0) := by
      intro n hn
      have : (q - a).dot n = n.norm * (n.normalize.x * q.x + n.normalize.y * q.y + n.normalize.z * q.z + -a.dot n.normalize) := by
        simp [V3.normalize, V3.dot]; field_simp; ring
      rw [this, mul_eq_zero]
      unfold Plane.OnAlt
      exact ⟨Or.inr, fun h => h.resolve_left hn.ne'⟩
    exact this _ hk
  have hd : r.direction.dot P.n ≠ 0 := by
    rw [e]
    have : r.direction.dot ((b - a).cross (c - a)).normalize = r.direction.dot ((b - a).cross (c - a)) * (1 / ((b - a).cross (c - a)).norm) := by
      simp only [V3.normalize, V3.dot, V3.mul_x, V3.mul_y, V3.mul_z]; ring
    simp only [this]
    positivity
  obtain ⟨h1, h2⟩ := c39_ray_plane_partial neg P r hd
  simp only [hon] at h1 h2
  refine ⟨h1, fun q hq => ?_⟩
  obtain ⟨t, t0, e, ho, -⟩ := h2 q hq
  exact ⟨t, t0, e, ho⟩

/-! ## C40 -/

theorem dot_self_eq_zero3 (v : V3 K) : v.dot v = 0 ↔ v = 0 := by
  constructor
  · intro h
    simp only [V3.dot] at h
    have hx := mul_self_nonneg v.x
    have hy := mul_self_nonneg v.y
    have hz := mul_self_nonneg v.z
    ext <;> simp <;> apply mul_self_eq_zero.1 <;> linarith
  · rintro rfl; simp [V3.dot]

/-- C40, two planes: `None` exactly for dependent normals; otherwise every point of the returned line is on both
planes, and every common point of the planes is on the line. -/
theorem c40_two_planes (p1 p2 : Plane K) :
    (p1.intersectionPlane p2 = none ↔ ∃ s t : K, (s ≠ 0 ∨ t ≠ 0) ∧ p1.n * s + p2.n * t = 0) ∧
    (p1.intersectsPlane p2 = (p1.intersectionPlane p2).isSome) ∧
    ∀ r, p1.intersectionPlane p2 = some r → r.direction ≠ 0 ∧ ∀ q, (p1.On q ∧ p2.On q) ↔ ∃ t, q = r.at t := by
  rw [← cross_eq_zero_iff]
  have h1 : p1.intersectionPlane p2 = none ↔ p1.n.cross p2.n = 0 := by
    rw [← dot_self_eq_zero3]; simp [Plane.intersectionPlane]
  refine ⟨h1, ?_, ?_⟩
  · unfold Plane.intersectsPlane Plane.intersectionPlane
    dsimp only
    split
    · rename_i h; simp [h]
    · rename_i h; simp [h]
  · intro r hr
    have hne : p1.n.cross p2.n ≠ 0 := by rw [ne_eq, ← h1, hr]; simp
    have hdd : (p1.n.cross p2.n).dot (p1.n.cross p2.n) ≠ 0 := by rwa [ne_eq, dot_self_eq_zero3]
    simp only [Plane.intersectionPlane, hdd, if_false, Option.some.injEq] at hr
    subst hr
    refine ⟨hne, ?_⟩
    have hP1 : p1.On ((p2.n * p1.d - p1.n * p2.d).cross (p1.n.cross p2.n) / (p1.n.cross p2.n).dot (p1.n.cross p2.n)) := by
      simp only [Plane.On, V3.div_x, V3.div_y, V3.div_z]
      field_simp
      simp [V3.cross, V3.dot]; ring
    have hP2 : p2.On ((p2.n * p1.d - p1.n * p2.d).cross (p1.n.cross p2.n) / (p1.n.cross p2.n).dot (p1.n.cross p2.n)) := by
      simp only [Plane.On, V3.div_x, V3.div_y, V3.div_z]
      field_simp
      simp [V3.cross, V3.dot]; ring
    generalize (p2.n * p1.d - p1.n * p2.d).cross (p1.n.cross p2.n) / (p1.n.cross p2.n).dot (p1.n.cross p2.n) = P at hP1 hP2
    intro q
    constructor
    · rintro ⟨a, b⟩
      refine ⟨(q - P).dot (p1.n.cross p2.n) / (p1.n.cross p2.n).dot (p1.n.cross p2.n), ?_⟩
      have e1 : p1.n.x * (q.x - P.x) + p1.n.y * (q.y - P.y) + p1.n.z * (q.z - P.z) = 0 := by
        unfold Plane.On at a hP1; linear_combination a - hP1
      have e2 : p2.n.x * (q.x - P.x) + p2.n.y * (q.y - P.y) + p2.n.z * (q.z - P.z) = 0 := by
        unfold Plane.On at b hP2; linear_combination b - hP2
      have key : (q - P) * (p1.n.cross p2.n).dot (p1.n.cross p2.n) = (p1.n.cross p2.n) * (q - P).dot (p1.n.cross p2.n) := by
        ext <;> simp [V3.cross, V3.dot]
        · linear_combination (p1.n.x * (p2.n.x * p2.n.x + p2.n.y * p2.n.y + p2.n.z * p2.n.z) - p2.n.x * (p1.n.x * p2.n.x + p1.n.y * p2.n.y + p1.n.z * p2.n.z)) * e1 + (p2.n.x * (p1.n.x * p1.n.x + p1.n.y * p1.n.y + p1.n.z * p1.n.z) - p1.n.x * (p1.n.x * p2.n.x + p1.n.y * p2.n.y + p1.n.z * p2.n.z)) * e2
        · linear_combination (p1.n.y * (p2.n.x * p2.n.x + p2.n.y * p2.n.y + p2.n.z * p2.n.z) - p2.n.y * (p1.n.x * p2.n.x + p1.n.y * p2.n.y + p1.n.z * p2.n.z)) * e1 + (p2.n.y * (p1.n.x * p1.n.x + p1.n.y * p1.n.y + p1.n.z * p1.n.z) - p1.n.y * (p1.n.x * p2.n.x + p1.n.y * p2.n.y + p1.n.z * p2.n.z)) * e2
        · linear_combination (p1.n.z * (p2.n.x * p2.n.x + p2.n.y * p2.n.y + p2.n.z * p2.n.z) - p2.n.z * (p1.n.x * p2.n.x + p1.n.y * p2.n.y + p1.n.z * p2.n.z)) * e1 + (p2.n.z * (p1.n.x * p1.n.x + p1.n.y * p1.n.y + p1.n.z * p1.n.z) - p1.n.z * (p1.n.x * p2.n.x + p1.n.y * p2.n.y + p1.n.z * p2.n.z)) * e2
      have kx := congrArg V3.x key; have ky := congrArg V3.y key; have kz := congrArg V3.z key
      simp only [V3.mul_x, V3.mul_y, V3.mul_z, V3.sub_x, V3.sub_y, V3.sub_z] at kx ky kz
      ext <;> simp only [Ray3.at, V3.add_x, V3.add_y, V3.add_z, V3.mul_x, V3.mul_y, V3.mul_z] <;> field_simp <;> linarith
    · rintro ⟨t, rfl⟩
      unfold Plane.On at *
      constructor
      · simp only [Ray3.at, V3.add_x, V3.add_y, V3.add_z, V3.mul_x, V3.mul_y, V3.mul_z, V3.cross]
        linear_combination hP1
      · simp only [Ray3.at, V3.add_x, V3.add_y, V3.add_z, V3.mul_x, V3.mul_y, V3.mul_z, V3.cross]
        linear_combination hP2

/-- The triple product vanishes exactly for linearly dependent vectors. -/
theorem triple_eq_zero_iff (a b c : V3 K) : a.dot (b.cross c) = 0 ↔
    ∃ r s t : K, (r ≠ 0 ∨ s ≠ 0 ∨ t ≠ 0) ∧ a * r + b * s + c * t = 0 := by
  constructor
  · intro h
    by_cases hu : b.cross c = 0
    · obtain ⟨s, t, hst, e⟩ := (cross_eq_zero_iff b c).1 hu
      refine ⟨0, s, t, Or.inr hst, ?_⟩
      have hx := congrArg V3.x e; have hy := congrArg V3.y e; have hz := congrArg V3.z e
      simp at hx hy hz
      ext <;> simp <;> assumption
    · have hd : (b.cross c).dot (b.cross c) ≠ 0 := by rwa [ne_eq, dot_self_eq_zero3]
      refine ⟨(b.cross c).dot (b.cross c), -(a.dot (c.cross (b.cross c))), -(a.dot ((b.cross c).cross b)), Or.inl hd, ?_⟩
      simp only [V3.dot, V3.cross] at h
      ext <;> simp [V3.dot, V3.cross]
      · linear_combination (b.y * c.z - b.z * c.y) * h
      · linear_combination (b.z * c.x - b.x * c.z) * h
      · linear_combination (b.x * c.y - b.y * c.x) * h
  · rintro ⟨r, s, t, hrst, e⟩
    have hx := congrArg V3.x e; have hy := congrArg V3.y e; have hz := congrArg V3.z e
    simp at hx hy hz
    simp only [V3.dot, V3.cross]
    rcases hrst with h | h | h <;> apply mul_left_cancel₀ h
    · linear_combination (b.y * c.z - b.z * c.y) * hx + (b.z * c.x - b.x * c.z) * hy + (b.x * c.y - b.y * c.x) * hz
    · linear_combination (c.y * a.z - c.z * a.y) * hx + (c.z * a.x - c.x * a.z) * hy + (c.x * a.y - c.y * a.x) * hz
    · linear_combination (a.y * b.z - a.z * b.y) * hx + (a.z * b.x - a.x * b.z) * hy + (a.x * b.y - a.y * b.x) * hz

/-- C40, three planes: `None` exactly for dependent normals; otherwise the returned point is the only common point. -/
theorem c40_three_planes (p1 p2 p3 : Plane K) :
    (p1.intersectionPlanes p2 p3 = none ↔
      ∃ r s t : K, (r ≠ 0 ∨ s ≠ 0 ∨ t ≠ 0) ∧ p1.n * r + p2.n * s + p3.n * t = 0) ∧
    (p1.intersectsPlanes p2 p3 = (p1.intersectionPlanes p2 p3).isSome) ∧
    ∀ p, p1.intersectionPlanes p2 p3 = some p → ∀ q, (p1.On q ∧ p2.On q ∧ p3.On q) ↔ q = p := by
  rw [← triple_eq_zero_iff]
  have h1 : p1.intersectionPlanes p2 p3 = none ↔ p1.n.dot (p2.n.cross p3.n) = 0 := by
    simp [Plane.intersectionPlanes]
  refine ⟨h1, ?_, ?_⟩
  · unfold Plane.intersectsPlanes Plane.intersectionPlanes
    dsimp only
    split
    · rename_i h; simp [h]
    · rename_i h; simp [h]
  · intro p hp
    have hne : p1.n.dot (p2.n.cross p3.n) ≠ 0 := by rw [ne_eq, ← h1, hp]; simp
    simp only [Plane.intersectionPlanes, abs_eq_zero, hne, if_false, Option.some.injEq] at hp
    subst hp
    intro q
    constructor
    · rintro ⟨a, b, c⟩
      unfold Plane.On at a b c
      ext <;> simp only [V3.div_x, V3.div_y, V3.div_z] <;> rw [eq_div_iff hne] <;> simp [V3.dot, V3.cross]
      · linear_combination (p2.n.y * p3.n.z - p2.n.z * p3.n.y) * a + (p3.n.y * p1.n.z - p3.n.z * p1.n.y) * b + (p1.n.y * p2.n.z - p1.n.z * p2.n.y) * c
      · linear_combination (p2.n.z * p3.n.x - p2.n.x * p3.n.z) * a + (p3.n.z * p1.n.x - p3.n.x * p1.n.z) * b + (p1.n.z * p2.n.x - p1.n.x * p2.n.z) * c
      · linear_combination (p2.n.x * p3.n.y - p2.n.y * p3.n.x) * a + (p3.n.x * p1.n.y - p3.n.y * p1.n.x) * b + (p1.n.x * p2.n.y - p1.n.y * p2.n.x) * c
    · rintro rfl
      refine ⟨?_, ?_, ?_⟩ <;> simp only [Plane.On, V3.div_x, V3.div_y, V3.div_z] <;> field_simp <;>
        simp [V3.cross, V3.dot] <;> ring

/-- The coordinate planes x=1, y=2, z=3 meet in (1,2,3); the first two in a vertical line. -/
example : (⟨⟨1, 0, 0⟩, 1⟩ : Plane ℚ).intersectionPlanes ⟨⟨0, 1, 0⟩, 2⟩ ⟨⟨0, 0, 1⟩, 3⟩ = some ⟨1, 2, 3⟩ ∧
    (⟨⟨1, 0, 0⟩, 1⟩ : Plane ℚ).intersectionPlane ⟨⟨0, 1, 0⟩, 2⟩ = some ⟨⟨1, 2, 0⟩, ⟨0, 0, 1⟩⟩ := by
  decide +kernel

/-- A ray hitting a plane (code's convention: this is the plane z = 3). -/
example (neg : Bool) : (⟨⟨0, 0, 1⟩, -3⟩ : Plane ℚ).intersectionRay neg ⟨⟨1, 1, 0⟩, ⟨0, 0, 1⟩⟩ = some (V3.toExt ⟨1, 1, 3⟩) := by
  cases neg <;> decide +kernel

/-! ## C32, planes -/

/-- C32 for ray/plane, under the condition that the ray does not lie in the plane the code tests (missing: that case, where the parameter is
NaN and the two tests disagree, see `c32_plane_false`). -/
theorem c32_plane_partial (neg : Bool) (P : Plane K) (r : Ray3 K)
    (h : r.direction.dot P.n ≠ 0 ∨ ¬ P.OnAlt r.origin) : P.intersectsRay neg r = (P.intersectionRay neg r).isSome := by
  have hn : P.rayT neg r ≠ .nan := by
    unfold Plane.rayT Ext.div
    by_cases h0 : r.direction.dot P.n = 0
    · have h1 := h.resolve_left (fun h => h h0)
      have h2 : -(P.d + r.origin.dot P.n) ≠ 0 := by
        intro h2; apply h1; unfold Plane.OnAlt; simp only [V3.dot] at h2; linear_combination -h2
      simp only [h0, ne_eq, not_true, if_false, h2]
      split <;> simp
    · simp [h0]
  unfold Plane.intersectsRay Plane.intersectionRay
  rw [Ext.lt_iff_not_le hn (by simp)]
  cases Ext.le (.fin 0) (P.rayT neg r) <;> simp

/-- C32 is false for ray/plane: for a ray in the plane, `intersection` returns a point (of NaN coordinates) but `intersects`
is false. -/
theorem c32_plane_false : ∃ (P : Plane ℚ) (r : Ray3 ℚ), P.n ≠ 0 ∧ r.direction ≠ 0 ∧
    ∀ neg, P.intersectsRay neg r = false ∧ P.intersectionRay neg r = some ⟨.nan, .nan, .nan⟩ := by
  refine ⟨⟨⟨0, 0, 1⟩, 0⟩, ⟨⟨0, 0, 0⟩, ⟨1, 1, 0⟩⟩, by decide +kernel, by decide +kernel, ?_⟩
  intro neg
  cases neg <;> decide +kernel

end Verif.Geom
