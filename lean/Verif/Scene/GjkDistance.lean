import Verif.Scene.MatrixPlanes
import Verif.Minkowski.F64Hit
import Verif.Minkowski.Distance
/-!
# C126: the distance query of GJK in 2D, in rounded arithmetic
-/
namespace Verif.Scene
open Verif Geom Primitive Minkowski
open Verif.Dbvt (Rounding mag2F F64 binary64 Rep64)
open Verif.Dbvt.B32 (F32 binary32 Rep32)
set_option linter.unusedSectionVars false
noncomputable section
open Classical

/-! ## The program, for any arithmetic -/
section generic
variable {K : Type} [Add K] [Sub K] [Mul K] [Div K] [Neg K] [Zero K] [One K] [LinearOrder K]

/-- `get_closest_point_on_edge` with the origin as the point, `src/primitive/util.rs:96-113`. `normalize` of cgmath multiplies by `1 / magnitude`. When the squared length of the edge is (or is rounded to) zero, the code divides by zero and the
parameter is an infinity or NaN: the answer is then the start, the end or NaN (`none`), given by `under`. -/
def closestEdgeG (sqrt : K → K) (under : V2 K → V2 K → Option (V2 K)) (start «end» : V2 K) : Option (V2 K) :=
  let line := «end» - start
  if line.dot line = 0 then under start «end»
  else
    let lineDir := line * (1 / sqrt (line.dot line))
    let v := 0 - start
    let d := v.dot lineDir
    some (if d < 0 then start else if line.dot line < d * d then «end» else start + lineDir * d)
/-- `SimplexProcessor2::get_closest_point_to_origin`, `src/algorithm/minkowski/gjk/simplex/simplex2d.rs:72-89`; `none` stands for a vector of NaN. -/
def closestG2 (eps : K) (sqrt : K → K) (under : V2 K → V2 K → Option (V2 K)) (simplex : List (SP (V2 K))) : Res (Option (V2 K) × List (SP (V2 K))) :=
  let r := reduceG2 eps simplex 0
  if r.1 then .ok (some r.2.2, r.2.1)
  else
    match r.2.1 with
    | [s0] => .ok (some s0.v, [s0])
    | s0 :: s1 :: rest => .ok (closestEdgeG sqrt under s1.v s0.v, s0 :: s1 :: rest)
    | [] => .panic
/-- The loop of `GJK::distance`, `src/algorithm/minkowski/gjk/mod.rs:304-320`; `nan` is the support point found for a direction of NaN components (every comparison with it is false, so the loop goes on with it). -/
def distanceLoopG2 (eps tolerance : K) (sqrt : K → K) (under : V2 K → V2 K → Option (V2 K)) (left right : V2 K → Res (V2 K)) (nan : Res (SP (V2 K))) :
    Nat → List (SP (V2 K)) → Res (Option K)
  | 0, _ => .ok none
  | n + 1, simplex => do
    let c ← closestG2 eps sqrt under simplex
    match c.1 with
    | none => do
      let p ← nan
      distanceLoopG2 eps tolerance sqrt under left right nan n (c.2 ++ [p])
    | some v =>
    if NearG2 eps v then return none
    else do
      let d := -v
      let p ← SP.fromMinkowski left right d
      let dp := p.v.dot d
      let s0 ← Res.ofOption c.2[0]?
      let d0 := s0.v.dot d
      if dp - d0 < tolerance then return some (sqrt (d.dot d))
      else distanceLoopG2 eps tolerance sqrt under left right nan n (c.2 ++ [p])
/-- `GJK::distance`, `src/algorithm/minkowski/gjk/mod.rs:271-321` -/
def gjkDistanceG2 (eps tolerance : K) (sqrt : K → K) (under : V2 K → V2 K → Option (V2 K)) (maxIterations : Nat) (left right : V2 K → Res (V2 K)) (nan : Res (SP (V2 K))) (leftPos rightPos : V2 K) : Res (Option K) := do
  let d := firstDirectionG2 eps leftPos rightPos
  let s0 ← SP.fromMinkowski left right d
  let s1 ← SP.fromMinkowski left right (-d)
  distanceLoopG2 eps tolerance sqrt under left right nan maxIterations [s0, s1]

/-- The vertex that `support_point` takes for a direction of NaN components, with which every comparison is false: `get_max_point` (`src/primitive/util.rs:21-28`) returns its initial value, the origin of the shape, also for rectangles and squares; a line
(`src/primitive/line.rs:14-26`) returns its origin. -/
def nanLocalG : Flat2 K → V2 K
  | .line l => l.origin
  | _ => 0
/-- `SupportPoint::from_minkowski` for a direction of NaN components. -/
def nanSupportG (s t : Flat2 K) (D E : Dec2 K) : SP (V2 K) := ⟨pointG2 D (nanLocalG s) - pointG2 E (nanLocalG t), pointG2 D (nanLocalG s), pointG2 E (nanLocalG t)⟩
/-- `GJK::distance` of two placed primitives. -/
def distanceG2 (eps tolerance : K) (sqrt : K → K) (under : V2 K → V2 K → Option (V2 K)) (maxIterations : Nat) (s t : Flat2 K) (D E : Dec2 K) : Res (Option K) :=
  gjkDistanceG2 eps tolerance sqrt under maxIterations (s.supportG D) (t.supportG E) (.ok (nanSupportG s t D E)) (pointG2 D 0) (pointG2 E 0)
end generic

/-! ## Over the real numbers: the closest point of an edge, with errors -/
/-- The error of a computed closest point `d` of the edge from `a` to `b`: it is close to a point of the edge, and the end is not nearer to the origin in its direction. -/
structure EdgeNear (e e2 : ℝ) (a b d : V2 ℝ) : Prop where
  near : ∃ c, OnSeg2 a b c ∧ Sz e (d - c)
  ahead : d.dot d ≤ b.dot d + e2

theorem EdgeNear.mono {e e2 f f2 : ℝ} {a b d : V2 ℝ} (h : EdgeNear e e2 a b d) (h1 : e ≤ f) (h2 : e2 ≤ f2) : EdgeNear f f2 a b d := by
  obtain ⟨⟨c, hc, hs⟩, k⟩ := h
  exact ⟨⟨c, hc, hs.mono h1⟩, by linarith⟩
theorem onSeg_start (a b : V2 ℝ) : OnSeg2 a b a := ⟨0, le_rfl, zero_le_one, by ext <;> simp⟩
theorem onSeg_end (a b : V2 ℝ) : OnSeg2 a b b := ⟨1, zero_le_one, le_rfl, by ext <;> simp⟩
theorem sz_self (a : V2 ℝ) {e : ℝ} (he : 0 ≤ e) : Sz e (a - a) := by
  constructor <;> simpa using he

/-- The end itself. -/
theorem edge_end {a b : V2 ℝ} {e e2 : ℝ} (he : 0 ≤ e) (he2 : 0 ≤ e2) : EdgeNear e e2 a b b := ⟨⟨b, onSeg_end a b, sz_self b he⟩, by linarith⟩
/-- A point close to the start, when the edge is short. -/
theorem edge_short {a b d : V2 ℝ} {e A r : ℝ} (hd : Sz e (d - a)) (hab : Sz r (b - a)) (hA : Sz A d) : EdgeNear e (2 * (A * (e + r))) a b d := by
  refine ⟨⟨a, onSeg_start a b, hd⟩, ?_⟩
  have h1 := dot_abs_le (a := d) (b := d - b) hA (B := e + r) (by
    constructor
    · have : (d - b).x = (d - a).x - (b - a).x := by simp
      rw [this]
      exact (abs_sub _ _).trans (add_le_add hd.1 hab.1)
    · have : (d - b).y = (d - a).y - (b - a).y := by simp
      rw [this]
      exact (abs_sub _ _).trans (add_le_add hd.2 hab.2))
  have h2 : d.dot (d - b) = d.dot d - b.dot d := by simp [V2.dot]; ring
  rw [h2] at h1
  linarith [abs_le.1 h1]

/-- A long edge: `l` its length, `e` its direction, `g` the computed direction, `t` the computed parameter. -/
structure LongEdge (u A : ℝ) (a b w e g : V2 ℝ) (l t : ℝ) : Prop where
  u0 : 0 ≤ u
  u1 : u ≤ 1 / 4096
  A1 : 1 ≤ A
  sa : Sz A a
  sb : Sz A b
  sw : Sz (21 / 10 * (u * A)) (w - (b - a))
  l0 : 0 < l
  l1 : l ≤ 3 * A
  we : w = e * l
  ee : e.dot e = 1
  ge : Sz (33 / 5 * u) (g - e)
  ht : |t + a.dot g| ≤ 51 / 5 * (u * A)

theorem unit_sz {e : V2 ℝ} (h : e.dot e = 1) : Sz 1 e := by
  have h' : e.x * e.x + e.y * e.y = 1 := h
  constructor
  · exact abs_le_one_iff_mul_self_le_one.2 (by linarith [mul_self_nonneg e.y])
  · exact abs_le_one_iff_mul_self_le_one.2 (by linarith [mul_self_nonneg e.x])

theorem LongEdge.param {u A l t : ℝ} {a b w e g : V2 ℝ} (h : LongEdge u A a b w e g l t) : |t + a.dot e| ≤ 24 * (u * A) := by
  have h1 := dot_abs_le h.sa h.ge
  have h2 : a.dot (g - e) = a.dot g - a.dot e := by simp [V2.dot]; ring
  rw [h2] at h1
  have h3 := abs_le.1 h1
  have h4 := abs_le.1 h.ht
  have : 0 ≤ u * A := mul_nonneg h.u0 (by linarith [h.A1])
  rw [abs_le]
  constructor <;> linarith

theorem LongEdge.start {u A l t : ℝ} {a b w e g : V2 ℝ} (h : LongEdge u A a b w e g l t) (ht : t < 0) : EdgeNear (40 * (u * A)) (400 * (u * (A * A))) a b a := by
  have hA := h.A1
  have uA : 0 ≤ u * A := mul_nonneg h.u0 (by linarith)
  refine ⟨⟨a, onSeg_start a b, sz_self a (by linarith)⟩, ?_⟩
  have h1 := abs_le.1 h.param
  have h2 := dot_abs_le h.sa h.sw
  have h3 : a.dot (w - (b - a)) = l * a.dot e - (b.dot a - a.dot a) := by rw [h.we]; simp [V2.dot]; ring
  rw [h3] at h2
  have h4 := abs_le.1 h2
  have h5 : -(24 * (u * A)) * l ≤ a.dot e * l := mul_le_mul_of_nonneg_right (by linarith) h.l0.le
  have h6 : 24 * (u * A) * l ≤ 24 * (u * A) * (3 * A) := mul_le_mul_of_nonneg_left h.l1 (by linarith)
  have h7 : 0 ≤ u * (A * A) := mul_nonneg h.u0 (by nlinarith)
  nlinarith

theorem LongEdge.mid {u A l t : ℝ} {a b w e g d : V2 ℝ} (h : LongEdge u A a b w e g l t) (ht : 0 ≤ t) (htl : t ≤ l * (1 + 11 / 5 * u)) (hd : Sz (6 * (u * A)) (d - (a + g * t))) :
    EdgeNear (40 * (u * A)) (400 * (u * (A * A))) a b d := by
  have hu := h.u0
  have hu1 := h.u1
  have hA := h.A1
  have uA : 0 ≤ u * A := mul_nonneg hu (by linarith)
  have uA1 : u * A ≤ 1 / 4096 * A := mul_le_mul_of_nonneg_right hu1 (by linarith)
  have se := unit_sz h.ee
  have hp := abs_le.1 h.param
  have ha := abs_le.1 (dot_abs_le h.sa se)
  have t1 : t ≤ 41 / 20 * A := by linarith
  have tabs : |t| ≤ 41 / 20 * A := by rw [abs_of_nonneg ht]; exact t1
  -- the point on the line with the exact direction
  have hw : Sz (20 * (u * A)) (d - (a + e * t)) := by
    have k : ∀ {x y z r : ℝ}, |x - (y + z * t)| ≤ 6 * (u * A) → |z - r| ≤ 33 / 5 * u → |x - (y + r * t)| ≤ 20 * (u * A) := by
      intro x y z r h1 h2
      have h3 := mul_abs_le h2 tabs
      have h4 : x - (y + r * t) = (x - (y + z * t)) + (z - r) * t := by ring
      rw [h4]
      refine (abs_add_le _ _).trans ?_
      linarith
    exact ⟨k hd.1 h.ge.1, k hd.2 h.ge.2⟩
  refine ⟨?_, ?_⟩
  · have l0 := h.l0
    set s := min (t / l) 1 with hs
    have s0 : 0 ≤ s := le_min (by positivity) zero_le_one
    have s1 : s ≤ 1 := min_le_right _ _
    have st : |t - l * s| ≤ 11 / 5 * u * l := by
      have e1 : t / l * l = t := div_mul_cancel₀ _ l0.ne'
      rcases min_choice (t / l) 1 with h1 | h1
      · rw [hs, h1, mul_div_cancel₀ _ l0.ne', sub_self, abs_zero]
        exact mul_nonneg (by linarith) l0.le
      · rw [hs, h1, mul_one]
        have : 1 ≤ t / l := by rw [← h1]; exact min_le_left _ _
        have : l ≤ t := by rwa [le_div_iff₀ l0, one_mul] at this
        rw [abs_of_nonneg (by linarith)]
        linarith
    refine ⟨a + (b - a) * s, ⟨s, s0, s1, rfl⟩, ?_⟩
    have stA : |t - l * s| ≤ 33 / 5 * (u * A) := by
      have := mul_le_mul_of_nonneg_left h.l1 (show 0 ≤ 11 / 5 * u by linarith)
      linarith
    have k : ∀ {x y z r q : ℝ}, |x - (y + r * t)| ≤ 20 * (u * A) → |r| ≤ 1 → q = r * l → |q - (z - y)| ≤ 21 / 10 * (u * A) → |x - (y + (z - y) * s)| ≤ 40 * (u * A) := by
      intro x y z r q h1 h2 h3 h4
      have h5 : x - (y + (z - y) * s) = (x - (y + r * t)) + (r * (t - l * s) + (q - (z - y)) * s) := by rw [h3]; ring
      have h6 := mul_abs_le h2 stA
      have h7 := mul_abs_le h4 (show |s| ≤ 1 by rw [abs_of_nonneg s0]; exact s1)
      rw [h5]
      have h8 := abs_add_le (x - (y + r * t)) (r * (t - l * s) + (q - (z - y)) * s)
      have h9 := abs_add_le (r * (t - l * s)) ((q - (z - y)) * s)
      linarith
    exact ⟨k hw.1 se.1 (congrArg V2.x h.we) h.sw.1, k hw.2 se.2 (congrArg V2.y h.we) h.sw.2⟩
  · have sd : Sz (16 / 5 * A) d := by
      have k : ∀ {x y r : ℝ}, |x - (y + r * t)| ≤ 20 * (u * A) → |y| ≤ A → |r| ≤ 1 → |x| ≤ 16 / 5 * A := by
        intro x y r h1 h2 h3
        have h4 := mul_abs_le h3 tabs
        rw [abs_le] at *
        constructor <;> linarith
      exact ⟨k hw.1 h.sa.1 se.1, k hw.2 h.sa.2 se.2⟩
    have hde : |d.dot e| ≤ 64 * (u * A) := by
      have h1 := abs_le.1 (dot_abs_le hw se)
      have h2 : (d - (a + e * t)).dot e = d.dot e - (a.dot e + t * e.dot e) := by simp [V2.dot]; ring
      rw [h2, h.ee, mul_one] at h1
      rw [abs_le]
      constructor <;> linarith
    have h1 : |l - t| ≤ 3 * A := by
      have : l * (1 + 11 / 5 * u) ≤ l * 2 := mul_le_mul_of_nonneg_left (by linarith) h.l0.le
      rw [abs_le]
      constructor <;> linarith [h.l1]
    have h2 := abs_le.1 (mul_abs_le h1 hde)
    have h3 := abs_le.1 (dot_abs_le sd h.sw)
    have h4 := abs_le.1 (dot_abs_le sd hw)
    have h5 : b.dot d - d.dot d = (l - t) * d.dot e - d.dot (w - (b - a)) - d.dot (d - (a + e * t)) := by rw [h.we]; simp [V2.dot]; ring
    have h7 : 0 ≤ u * (A * A) := mul_nonneg hu (by nlinarith)
    nlinarith

/-! ## The program in rounded arithmetic -/
variable {F : Type} [LinearOrder F] {R : Rounding F} {u η Ω N M A : ℝ}
/-- What the arithmetic must satisfy for edges with coordinates up to `A`. -/
structure EdgeStd (R : Rounding F) (u η Ω A : ℝ) : Prop where
  mat : MatStd R u η Ω A 0
  A1 : 1 ≤ A
  tiny : ∀ x, Rep R x → 0 < x → η ≤ x
  inv : 2 ≤ Ω * (Ω * η)

/-- The squared length of a representable vector, computed in the plane. -/
theorem dot_self_F (h : EdgeStd R u η Ω A) {v : V2 ℝ} (rv : Rp R v) (sv : Sz (3 * A) v) :
    ∃ D, Rep R D ∧ (toV2 R v).dot (toV2 R v) = toF R D ∧ mag2F R (toV3 R ⟨v.x, v.y, 0⟩) = toF R D ∧ 0 ≤ D ∧ |D - v.dot v| ≤ 31 / 10 * (u * v.dot v) + 6 * η := by
  have h0 : |(0 : ℝ)| ≤ 3 * A := by rw [abs_zero]; linarith [h.A1]
  obtain ⟨D, rD, eD, D0, dD⟩ := mag2_err h.mat (v := ⟨v.x, v.y, 0⟩) ⟨rv.1, rv.2, rep_zero⟩ ⟨sv.1, sv.2, h0⟩
  rw [V3.norm_sq, show (⟨v.x, v.y, 0⟩ : V3 ℝ).dot ⟨v.x, v.y, 0⟩ = v.dot v by simp [V2.dot, V3.dot]] at dD
  refine ⟨D, rD, ?_, eD, D0, dD⟩
  have hΩ : 3 * (3 * A * (3 * A)) + 1 ≤ Ω := by
    have := h.mat.sq
    have := mul_self_nonneg A
    linarith
  obtain ⟨r, rr, er, -⟩ := dot_err h.mat.std rv rv sv sv hΩ
  rw [er, ← eD]
  show toF R r = R.add (R.add (R.mul (toF R v.x) (toF R v.x)) (R.mul (toF R v.y) (toF R v.y))) (R.mul (toF R 0) (toF R 0))
  have e1 : R.add (R.mul (toF R v.x) (toF R v.x)) (R.mul (toF R v.y) (toF R v.y)) = toF R r := er
  rw [e1, rmul rep_zero rep_zero, mul_zero, radd rr rep_zero, add_zero]

/-- The length of a vector of the plane. -/
theorem norm_flat (v : V2 ℝ) : (⟨v.x, v.y, 0⟩ : V3 ℝ).norm * (⟨v.x, v.y, 0⟩ : V3 ℝ).norm = v.dot v := by
  rw [V3.norm_sq]; simp [V2.dot, V3.dot]

/-- Small consequences of the requirements. -/
theorem EdgeStd.eps (h : EdgeStd R u η Ω A) : 0 < u ∧ u ≤ 1 / 4096 ∧ 0 ≤ η ∧ 64 * η ≤ u * u * u ∧ η ≤ 1 / 1000000 * u ∧ η ≤ 1 / 100000 * (u * u) ∧ 0 < u * A ∧ u ≤ u * A ∧ u * A ≤ 1 / 4096 * A := by
  have up := h.mat.pos
  have hu' := h.mat.u'
  have hA := h.A1
  have low := h.mat.low
  have u1 : u * u ≤ 1 / 4096 * u := mul_le_mul_of_nonneg_right hu' up.le
  have u2 : u * u * u ≤ 1 / 4096 * (u * u) := by
    have := mul_le_mul_of_nonneg_right hu' (mul_self_nonneg u)
    linarith
  have uA : u * 1 ≤ u * A := mul_le_mul_of_nonneg_left hA up.le
  have uA1 : u * A ≤ 1 / 4096 * A := mul_le_mul_of_nonneg_right hu' (by linarith)
  have uu := mul_self_nonneg u
  exact ⟨up, hu', h.mat.std.η0, low, by linarith, by linarith, by linarith, by linarith, uA1⟩

/-- The difference of the ends. -/
theorem line_F (h : EdgeStd R u η Ω A) {a b : V2 ℝ} (ra : Rp R a) (rb : Rp R b) (sa : Sz A a) (sb : Sz A b) :
    ∃ w, Rp R w ∧ toV2 R b - toV2 R a = toV2 R w ∧ Sz (21 / 10 * (u * A)) (w - (b - a)) ∧ Sz (201 / 100 * A) w := by
  obtain ⟨up, hu', hη, -, η1, -, uA, uA1, uA2⟩ := h.eps
  have hA := h.A1
  obtain ⟨w, rw', ew, dw, -⟩ := sub_err h.mat.std rb ra sb sa (by linarith [h.mat.lin])
  have dw' : Sz (21 / 10 * (u * A)) (w - (b - a)) := dw.mono (by linarith)
  refine ⟨w, rw', ew, dw', ?_⟩
  have k : ∀ {x y z : ℝ}, |x - (y - z)| ≤ 21 / 10 * (u * A) → |y| ≤ A → |z| ≤ A → |x| ≤ 201 / 100 * A := by
    intro x y z h1 h2 h3
    rw [abs_le] at *
    constructor <;> linarith
  exact ⟨k dw'.1 sb.1 sa.1, k dw'.2 sb.2 sa.2⟩

/-- The negated start. -/
theorem neg_F {a : V2 ℝ} (ra : Rp R a) : (0 : V2 (Fl R)) - toV2 R a = toV2 R (-a) := by
  rw [← toV2_zero (R := R)]
  rw [toV2_sub (a := 0) ⟨rep_zero, rep_zero⟩ ra]
  congr 1
  ext <;> simp

/-- The last branch: `start + lineDir * d`. -/
theorem mid_F (h : EdgeStd R u η Ω A) {a g : V2 ℝ} {t : ℝ} (ra : Rp R a) (rg : Rp R g) (rt : Rep R t) (sa : Sz A a) {B : ℝ} (hB : 0 ≤ B) (sgt : Sz B (g * t)) (hBA : B ≤ 3 * A) :
    ∃ d, Rp R d ∧ toV2 R a + toV2 R g * toF R t = toV2 R d ∧ Sz (u * A + 21 / 10 * (u * B) + 3 * η) (d - (a + g * t)) := by
  obtain ⟨up, hu', hη, -, η1, -, uA, uA1, uA2⟩ := h.eps
  have hA := h.A1
  have lin := h.mat.lin
  have uB : 0 ≤ u * B := mul_nonneg up.le hB
  have uuB : u * (u * B) ≤ 1 / 4096 * (u * B) := mul_le_mul_of_nonneg_right hu' uB
  have uB1 : u * B ≤ 1 / 4096 * B := mul_le_mul_of_nonneg_right hu' hB
  have uη : u * η ≤ 1 / 4096 * η := mul_le_mul_of_nonneg_right hu' hη
  have k : ∀ {x y : ℝ}, Rep R x → Rep R y → |x| ≤ A → |y * t| ≤ B → ∃ z, Rep R z ∧ toF R x + toF R y * toF R t = toF R z ∧ |z - (x + y * t)| ≤ u * A + 21 / 10 * (u * B) + 3 * η := by
    intro x y rx ry hx hy
    obtain ⟨m, rm, em, dm⟩ := h.mat.std.fl hy (by linarith)
    have hm : |m| ≤ B + u * B + η := by
      rw [abs_le] at *
      constructor <;> linarith
    have hs : |x + m| ≤ A + (B + u * B + η) := (abs_add_le _ _).trans (add_le_add hx hm)
    obtain ⟨z, rz, ez, dz⟩ := h.mat.std.fl hs (by linarith)
    refine ⟨z, rz, by rw [toF_mul ry rt, em, toF_add rx rm, ez], ?_⟩
    have e1 : u * (A + (B + u * B + η)) = u * A + u * B + u * (u * B) + u * η := by ring
    rw [e1] at dz
    rw [abs_le] at *
    constructor <;> linarith
  obtain ⟨x, rx, ex, dx⟩ := k ra.1 rg.1 sa.1 sgt.1
  obtain ⟨y, ry, ey, dy⟩ := k ra.2 rg.2 sa.2 sgt.2
  refine ⟨⟨x, y⟩, ⟨rx, ry⟩, ?_, dx, dy⟩
  ext
  · exact ex
  · exact ey

/-- The components of a vector are at most its length. -/
theorem comp_le_of_dot {v : V2 ℝ} {r : ℝ} (hr : 0 ≤ r) (h : v.dot v ≤ r * r) : Sz r v := by
  have h' : v.x * v.x + v.y * v.y ≤ r * r := h
  constructor
  · exact abs_le_of_sq_le_sq (by nlinarith [mul_self_nonneg v.y]) hr
  · exact abs_le_of_sq_le_sq (by nlinarith [mul_self_nonneg v.x]) hr

/-- The parameter is not much larger than the length. -/
theorem param_le {t l u : ℝ} (ht : 0 ≤ t) (hl : 0 < l) (hu : 0 ≤ u) (hu1 : u ≤ 1 / 4096) (h : t * t * (1 - u) ≤ l * l * (1 + 16 / 5 * u)) : t ≤ l * (1 + 11 / 5 * u) := by
  by_contra hc
  push Not at hc
  have h1 : l * (1 + 11 / 5 * u) * (l * (1 + 11 / 5 * u)) < t * t := mul_self_lt_mul_self (by positivity) hc
  have h2 := mul_lt_mul_of_pos_right h1 (show 0 < 1 - u by linarith)
  have h3 : l * l * (1 + 16 / 5 * u) ≤ l * l * ((1 + 11 / 5 * u) * (1 + 11 / 5 * u) * (1 - u)) := by
    refine mul_le_mul_of_nonneg_left ?_ (mul_self_nonneg l)
    have uu : u * u ≤ 1 / 4096 * u := mul_le_mul_of_nonneg_right hu1 hu
    have : 0 ≤ u * u := mul_self_nonneg u
    have : u * u * u ≤ 1 / 4096 * (u * u) := by
      have := mul_le_mul_of_nonneg_right hu1 this
      linarith
    nlinarith
  nlinarith
/-- The reciprocal of the computed length of a short edge. -/
theorem short_inv (h : EdgeStd R u η Ω A) {D : ℝ} (rD : Rep R D) (Dp : 0 < D) (hD : D ≤ 1) :
    ∃ i, Rep R i ∧ (1 : Fl R) / sqrtF R (toF R D) = toF R i ∧ 0 ≤ i ∧ Real.sqrt D * i ≤ 101 / 100 := by
  obtain ⟨up, hu', hη, low, η1, η2, uA, uA1, uA2⟩ := h.eps
  have hηD := h.tiny D rD Dp
  have s0 := Real.sqrt_nonneg D
  have sp := Real.sqrt_pos.2 Dp
  have ss := Real.mul_self_sqrt Dp.le
  set s := Real.sqrt D
  have ηs : η ≤ 1 / 1000 * s := by
    refine le_of_sq_le_sq ?_ (by positivity)
    have : η * η ≤ 1 / 1000000 * η := mul_le_mul_of_nonneg_right (by linarith) hη
    nlinarith
  have s1 : s ≤ 1 := by nlinarith
  have hΩ4 : 4 ≤ Ω := by have := h.mat.sq; nlinarith [mul_self_nonneg A]
  obtain ⟨m, rm, em, dm⟩ := h.mat.std.err s (by rw [abs_of_nonneg s0]; linarith)
  rw [abs_of_nonneg s0] at dm
  have us : u * s ≤ 1 / 4096 * s := mul_le_mul_of_nonneg_right hu' s0
  have dm' := abs_le.1 dm
  have hm : 998 / 1000 * s ≤ m := by linarith
  have mp : 0 < m := by linarith
  have hinv : 1 / m ≤ Ω := by
    rw [div_le_iff₀ mp]
    refine le_of_sq_le_sq ?_ (by positivity)
    have h1 : (998 / 1000 * s) * (998 / 1000 * s) ≤ m * m := mul_self_le_mul_self (by positivity) hm
    have h2 : 9 / 10 * η ≤ m * m := by nlinarith
    have h3 : Ω * Ω * (9 / 10 * η) ≤ Ω * Ω * (m * m) := mul_le_mul_of_nonneg_left h2 (by positivity)
    have := h.inv
    nlinarith
  have inv0 : 0 ≤ 1 / m := by positivity
  obtain ⟨i, ri, ei, di⟩ := h.mat.std.err (1 / m) (by rw [abs_of_nonneg inv0]; exact hinv)
  rw [abs_of_nonneg inv0] at di
  refine ⟨i, ri, ?_, fl_ge ri rep_zero ei inv0, ?_⟩
  · rw [sqrtF_toF rD, em, ← toF_one, toF_div rep_one rm, ei]
  · have h1 : s * (1 / m) ≤ 1003 / 1000 := by
      rw [mul_one_div, div_le_iff₀ mp]
      linarith
    have h2 : i ≤ 1 / m + u * (1 / m) + η := by linarith [(abs_le.1 di).2]
    have h3 := mul_le_mul_of_nonneg_left h2 s0
    have h4 : u * (s * (1 / m)) ≤ 1 / 4096 * (s * (1 / m)) := mul_le_mul_of_nonneg_right hu' (by positivity)
    have h5 : s * η ≤ 1 * η := mul_le_mul_of_nonneg_right s1 hη
    nlinarith

set_option maxHeartbeats 2000000 in
/-- **The closest point of an edge in rounded arithmetic.** -/
theorem closestEdge_F (h : EdgeStd R u η Ω A) {under : V2 (Fl R) → V2 (Fl R) → Option (V2 (Fl R))} (hund : ∀ a b v, under a b = some v → v = a ∨ v = b) {a b : V2 ℝ} (ra : Rp R a) (rb : Rp R b) (sa : Sz A a) (sb : Sz A b)
    {v : V2 (Fl R)} (hv : closestEdgeG (sqrtF R) under (toV2 R a) (toV2 R b) = some v) :
    ∃ d, Rp R d ∧ v = toV2 R d ∧ EdgeNear (40 * (u * A)) (400 * (u * (A * A))) a b d := by
  obtain ⟨up, hu', hη, low, η1, η2, uA, uA1, uA2⟩ := h.eps
  have hA := h.A1
  have uAA : 0 ≤ u * (A * A) := mul_nonneg up.le (by nlinarith)
  obtain ⟨w, rw', ew, dw, sw⟩ := line_F h ra rb sa sb
  obtain ⟨D, rD, eD, eD3, D0, dD⟩ := dot_self_F h rw' (sw.mono (by linarith))
  have dD' := abs_le.1 dD
  -- short edges
  have short : ∀ {d : V2 ℝ} {e : ℝ}, w.dot w ≤ 16 * (u * u) + 7 * η → Sz e (d - a) → e ≤ 25 * (u * A) → EdgeNear (40 * (u * A)) (400 * (u * (A * A))) a b d := by
    intro d e hw hd he
    have h1 : Sz (5 * (u * A)) w := (comp_le_of_dot (r := 5 * u) (by linarith) (by nlinarith)).mono (by linarith)
    have h2 : Sz (8 * (u * A)) (b - a) := by
      have k : ∀ {x y : ℝ}, |x| ≤ 5 * (u * A) → |x - y| ≤ 21 / 10 * (u * A) → |y| ≤ 8 * (u * A) := by
        intro x y h1 h2
        rw [abs_le] at *
        constructor <;> linarith
      exact ⟨k h1.1 dw.1, k h1.2 dw.2⟩
    have h3 : Sz (2 * A) d := by
      have k : ∀ {x y : ℝ}, |x - y| ≤ e → |y| ≤ A → |x| ≤ 2 * A := by
        intro x y h1 h2
        rw [abs_le] at *
        constructor <;> linarith
      exact ⟨k hd.1 sa.1, k hd.2 sa.2⟩
    refine (edge_short (hd.mono he) h2 h3).mono (by linarith) ?_
    have : 2 * (2 * A * (25 * (u * A) + 8 * (u * A))) = 132 * (u * (A * A)) := by ring
    linarith
  have hstart : w.dot w ≤ 16 * (u * u) + 7 * η → ∃ d, Rp R d ∧ toV2 R a = toV2 R d ∧ EdgeNear (40 * (u * A)) (400 * (u * (A * A))) a b d :=
    fun hw => ⟨a, ra, rfl, short hw (sz_self a le_rfl) (by linarith)⟩
  have hend : ∃ d, Rp R d ∧ toV2 R b = toV2 R d ∧ EdgeNear (40 * (u * A)) (400 * (u * (A * A))) a b d := ⟨b, rb, rfl, edge_end (by linarith) (by linarith)⟩
  have ww : 0 ≤ w.dot w := by
    have : w.dot w = w.x * w.x + w.y * w.y := rfl
    rw [this]
    nlinarith [mul_self_nonneg w.x, mul_self_nonneg w.y]
  have uww : u * w.dot w ≤ 1 / 4096 * w.dot w := mul_le_mul_of_nonneg_right hu' ww
  unfold closestEdgeG at hv
  simp only [ew, eD] at hv
  by_cases hD0 : D = 0
  · rw [hD0, toF_zero, if_pos rfl] at hv
    rw [hD0] at dD'
    rcases hund _ _ _ hv with rfl | rfl
    · exact hstart (by nlinarith [mul_self_nonneg u])
    · exact hend
  have Dp : 0 < D := lt_of_le_of_ne D0 (Ne.symm hD0)
  rw [if_neg (by rw [← toF_zero, toF_inj rD rep_zero]; exact hD0)] at hv
  have hηD := h.tiny D rD Dp
  -- the computed direction and parameter
  set l := (⟨w.x, w.y, 0⟩ : V3 ℝ).norm with hl
  have l0 : 0 ≤ l := V3.norm_nonneg _
  have ll : l * l = w.dot w := norm_flat w
  have finish : ∀ {g : V2 ℝ} {t : ℝ}, Rp R g → Rep R t → toV2 R w * (1 / sqrtF R (toF R D)) = toV2 R g → (toV2 R (-a)).dot (toV2 R g) = toF R t →
      (t < 0 → EdgeNear (40 * (u * A)) (400 * (u * (A * A))) a b a) →
      (0 ≤ t → t * t * (1 - u) ≤ D + η → ∃ d, Rp R d ∧ toV2 R a + toV2 R g * toF R t = toV2 R d ∧ EdgeNear (40 * (u * A)) (400 * (u * (A * A))) a b d) →
      |t| ≤ 8 * A → ∃ d, Rp R d ∧ v = toV2 R d ∧ EdgeNear (40 * (u * A)) (400 * (u * (A * A))) a b d := by
    intro g t rg rt eg et h1 h2 h3
    rw [eg, neg_F ra, et] at hv
    have hv' := (Option.some.inj hv).symm
    have tt : |t * t| ≤ 64 * (A * A) := by
      have := mul_abs_le h3 h3
      linarith
    obtain ⟨q, rq, eq, dq⟩ := h.mat.std.err (t * t) (by have := h.mat.sq; have := mul_self_nonneg A; linarith)
    rw [abs_of_nonneg (mul_self_nonneg t)] at dq
    rw [toF_mul rt rt, eq, ← toF_zero] at hv'
    by_cases c1 : t < 0
    · rw [if_pos ((toF_lt rt rep_zero).2 c1)] at hv'
      exact ⟨a, ra, hv', h1 c1⟩
    rw [if_neg (by rw [toF_lt rt rep_zero]; exact c1)] at hv'
    by_cases c2 : D < q
    · rw [if_pos ((toF_lt rD rq).2 c2)] at hv'
      exact ⟨b, rb, hv', edge_end (by linarith) (by linarith)⟩
    rw [if_neg (by rw [toF_lt rD rq]; exact c2)] at hv'
    obtain ⟨d, rd, ed, hd⟩ := h2 (not_lt.1 c1) (by linarith [abs_le.1 dq, not_lt.1 c2])
    exact ⟨d, rd, by rw [hv', ed], hd⟩
  have rn : Rp R (-a) := ra.neg h.mat.std sa (by linarith [h.mat.lin])
  by_cases hlong : 3 * u ≤ l
  · have lp : 0 < l := by linarith
    obtain ⟨i, ri, ei, i0, di⟩ := inv_norm_err h.mat (v := ⟨w.x, w.y, 0⟩) ⟨rw'.1, rw'.2, rep_zero⟩ ⟨sw.1.trans (by linarith), sw.2.trans (by linarith), by show |(0 : ℝ)| ≤ _; rw [abs_zero]; linarith⟩ hlong
    rw [eD3] at ei
    have ei' : (1 : Fl R) / sqrtF R (toF R D) = toF R i := ei
    have wl := comp_le_of_dot l0 ll.ge
    have comp : ∀ x, Rep R x → |x| ≤ l → ∃ y, Rep R y ∧ toF R x * toF R i = toF R y ∧ |y - x / l| ≤ 33 / 5 * u := by
      intro x rx hx
      have hx1 : |x| / l ≤ 1 := (div_le_one lp).2 hx
      obtain ⟨y, ry, ey, dy⟩ := coef_err h.mat rx ri lp di (by have := h.mat.sq; nlinarith [mul_self_nonneg A])
      have : u * (|x| / l) ≤ u * 1 := mul_le_mul_of_nonneg_left hx1 up.le
      exact ⟨y, ry, ey, dy.trans (by linarith)⟩
    obtain ⟨g1, rg1, eg1, dg1⟩ := comp w.x rw'.1 wl.1
    obtain ⟨g2, rg2, eg2, dg2⟩ := comp w.y rw'.2 wl.2
    have ee : (⟨w.x / l, w.y / l⟩ : V2 ℝ).dot ⟨w.x / l, w.y / l⟩ = 1 := by
      have : w.x * w.x + w.y * w.y = l * l := ll.symm
      show w.x / l * (w.x / l) + w.y / l * (w.y / l) = 1
      field_simp
      linarith
    have ge : Sz (33 / 5 * u) ((⟨g1, g2⟩ : V2 ℝ) - ⟨w.x / l, w.y / l⟩) := ⟨dg1, dg2⟩
    have sg : Sz (101 / 100) (⟨g1, g2⟩ : V2 ℝ) := by
      refine (sz_sub ge (unit_sz ee)).mono (by linarith)
    obtain ⟨t, rt, et, dt, -⟩ := dot_err h.mat.std rn (b := ⟨g1, g2⟩) ⟨rg1, rg2⟩ sa.neg sg (by have := h.mat.sq; nlinarith [mul_self_nonneg (A - 1)])
    have htg : |t + a.dot (⟨g1, g2⟩ : V2 ℝ)| ≤ 51 / 5 * (u * A) := by
      have : t + a.dot (⟨g1, g2⟩ : V2 ℝ) = t - (-a).dot (⟨g1, g2⟩ : V2 ℝ) := by simp [V2.dot]; ring
      rw [this]
      refine dt.trans ?_
      linarith
    have l3 : l ≤ 3 * A := by
      refine le_of_sq_le_sq ?_ (by linarith)
      have k1 := mul_abs_le sw.1 sw.1
      have k2 := mul_abs_le sw.2 sw.2
      have : l * l = w.x * w.x + w.y * w.y := ll
      have := abs_le.1 k1
      have := abs_le.1 k2
      nlinarith [mul_self_nonneg A]
    have L : LongEdge u A a b w ⟨w.x / l, w.y / l⟩ ⟨g1, g2⟩ l t := by
      refine ⟨up.le, hu', hA, sa, sb, dw, lp, l3, ?_, ee, ge, htg⟩
      ext
      · show w.x = w.x / l * l
        rw [div_mul_cancel₀ _ lp.ne']
      · show w.y = w.y / l * l
        rw [div_mul_cancel₀ _ lp.ne']
    have tabs : |t| ≤ 203 / 100 * A := by
      have k1 := abs_le.1 (dot_abs_le sa sg)
      have k2 := abs_le.1 htg
      rw [abs_le]
      constructor <;> linarith
    refine finish (g := ⟨g1, g2⟩) (t := t) ⟨rg1, rg2⟩ rt ?_ et L.start ?_ (tabs.trans (by linarith))
    · rw [ei']
      ext
      · exact eg1
      · exact eg2
    · intro t0 htD
      have sgt : Sz (21 / 10 * A) ((⟨g1, g2⟩ : V2 ℝ) * t) := by
        constructor
        · exact (mul_abs_le sg.1 tabs).trans (by linarith)
        · exact (mul_abs_le sg.2 tabs).trans (by linarith)
      obtain ⟨d, rd, ed, dd⟩ := mid_F h ra (g := ⟨g1, g2⟩) ⟨rg1, rg2⟩ rt sa (by linarith) sgt (by linarith)
      refine ⟨d, rd, ed, L.mid t0 (param_le t0 lp up.le hu' ?_) (dd.mono ?_)⟩
      · rw [← ll] at dD'
        have h9 : 3 * u * (3 * u) ≤ l * l := mul_self_le_mul_self (by linarith) hlong
        have h10 := mul_le_mul_of_nonneg_left h9 up.le
        nlinarith
      · linarith
  · push Not at hlong
    have hw9 : w.dot w ≤ 9 * (u * u) := by
      rw [← ll]
      have := mul_self_le_mul_self l0 hlong.le
      linarith
    have uu : u * u ≤ 1 / 4096 * u := mul_le_mul_of_nonneg_right hu' up.le
    have D9 : D ≤ 91 / 10 * (u * u) := by
      have : u * w.dot w ≤ u * (9 * (u * u)) := mul_le_mul_of_nonneg_left hw9 up.le
      have : u * (u * u) ≤ 1 / 4096 * (u * u) := mul_le_mul_of_nonneg_right hu' (mul_self_nonneg u)
      linarith
    obtain ⟨i, ri, ei, i0, hi⟩ := short_inv h rD Dp (by linarith)
    have s0 := Real.sqrt_nonneg D
    have ss := Real.mul_self_sqrt Dp.le
    set s := Real.sqrt D
    have ws : Sz (27 / 10 * s) w := comp_le_of_dot (by positivity) (by nlinarith)
    have su : s ≤ 31 / 10 * u := by
      refine le_of_sq_le_sq ?_ (by linarith)
      nlinarith [mul_self_nonneg u]
    have comp : ∀ x, Rep R x → |x| ≤ 27 / 10 * s → ∃ y, Rep R y ∧ toF R x * toF R i = toF R y ∧ |y| ≤ 14 / 5 := by
      intro x rx hx
      have hxi : |x * i| ≤ 2727 / 1000 := by
        rw [abs_mul, abs_of_nonneg i0]
        have := mul_le_mul_of_nonneg_right hx i0
        linarith
      obtain ⟨y, ry, ey, dy⟩ := h.mat.std.fl hxi (by have := h.mat.sq; nlinarith [mul_self_nonneg A])
      refine ⟨y, ry, by rw [toF_mul rx ri, ey], ?_⟩
      rw [abs_le] at *
      constructor <;> linarith
    obtain ⟨g1, rg1, eg1, dg1⟩ := comp w.x rw'.1 ws.1
    obtain ⟨g2, rg2, eg2, dg2⟩ := comp w.y rw'.2 ws.2
    have sg : Sz (14 / 5) (⟨g1, g2⟩ : V2 ℝ) := ⟨dg1, dg2⟩
    obtain ⟨t, rt, et, dt, -⟩ := dot_err h.mat.std rn (b := ⟨g1, g2⟩) ⟨rg1, rg2⟩ sa.neg sg (by have := h.mat.sq; nlinarith [mul_self_nonneg (A - 1)])
    have tabs : |t| ≤ 8 * A := by
      have k1 := abs_le.1 (dot_abs_le sa.neg sg)
      have k2 := abs_le.1 dt
      rw [abs_le]
      constructor <;> linarith
    refine finish (g := ⟨g1, g2⟩) (t := t) ⟨rg1, rg2⟩ rt ?_ et (fun _ => short (by linarith [mul_self_nonneg u]) (sz_self a le_rfl) (by linarith)) ?_ tabs
    · rw [ei]
      ext
      · exact eg1
      · exact eg2
    · intro t0 htD
      have ts : t ≤ 3 / 2 * s := by
        refine le_of_sq_le_sq ?_ (by positivity)
        have : u * (t * t) ≤ 1 / 4096 * (t * t) := mul_le_mul_of_nonneg_right hu' (mul_self_nonneg t)
        nlinarith
      have tu : |t| ≤ 93 / 20 * u := by rw [abs_of_nonneg t0]; linarith
      have sgt : Sz (131 / 10 * (u * A)) ((⟨g1, g2⟩ : V2 ℝ) * t) := by
        constructor
        · exact (mul_abs_le sg.1 tu).trans (by linarith)
        · exact (mul_abs_le sg.2 tu).trans (by linarith)
      obtain ⟨d, rd, ed, dd⟩ := mid_F h ra (g := ⟨g1, g2⟩) ⟨rg1, rg2⟩ rt sa (by linarith) sgt (by linarith)
      refine ⟨d, rd, ed, short (by linarith [mul_self_nonneg u]) (e := 25 * (u * A)) ?_ le_rfl⟩
      have uuA : u * (131 / 10 * (u * A)) ≤ 1 / 4096 * (131 / 10 * (u * A)) := mul_le_mul_of_nonneg_right hu' (by linarith)
      have k : ∀ {x y z : ℝ}, |x - (y + z)| ≤ u * A + 21 / 10 * (u * (131 / 10 * (u * A))) + 3 * η → |z| ≤ 131 / 10 * (u * A) → |x - y| ≤ 25 * (u * A) := by
        intro x y z k1 k2
        rw [abs_le] at *
        constructor <;> linarith
      exact ⟨k dd.1 sgt.1, k dd.2 sgt.2⟩

/-! ## Support points -/
variable {E : ℝ} {s t : Flat2 ℝ} {D G : Dec2 ℝ} {L Rr : V2 ℝ → Prop}
/-- The arithmetic for scenes of size `M`: the standard model, with `M` far from underflow and overflow, and `E`, the tolerance of `ulps_eq!`, at least the unit roundoff. -/
structure DistStd (R : Rounding F) (u η Ω M E : ℝ) : Prop where
  M1 : 1 ≤ M
  edge : EdgeStd R u η Ω (11 * M)
  wide : 2 ^ 23 * M ^ 4 ≤ Ω
  repE : Rep R E
  E0 : u ≤ E

/-- The support point `a` is a difference of points of the two shapes up to `δ`, and its coordinates are numbers of the format of at most `11 M`. -/
def NearDiff (R : Rounding F) (δ M : ℝ) (L Rr : V2 ℝ → Prop) (a : SP (V2 (Fl R))) : Prop :=
  ∃ (v p q : V2 ℝ), L p ∧ Rr q ∧ a.v = toV2 R v ∧ Rp R v ∧ Sz (11 * M) v ∧ Sz δ (v - (p - q))

/-- The answer `δ` of the distance query is right up to `c1` and, with the stop test of tolerance `tol`, `c2`: there are points of the two shapes at most `δ + c1` apart, and no two points are nearer than `δ - (tol + c2) / δ`. -/
structure DistanceNear (c1 c2 tol : ℝ) (L Rr : V2 ℝ → Prop) (δ : ℝ) : Prop where
  pos : 0 < δ
  reach : ∃ p q, L p ∧ Rr q ∧ (p - q).norm ≤ δ + c1
  least : ∀ p q, L p → Rr q → δ * δ ≤ (p - q).norm * δ + tol + c2

theorem mink_support (h : Std R u η Ω) (hs : s.Fits R M) (ht : t.Fits R M) (hD : Fits2 R M D) (hG : Fits2 R M G) (hM : 1 ≤ M) {d : V2 ℝ} (rd : Rp R d) (sd : Sz N d) (hΩ : 64 * (M * (N + 1)) ≤ Ω) :
    ∃ a a', SP.fromMinkowski ((s.toFl R).supportG (decF R D)) ((t.toFl R).supportG (decF R G)) (toV2 R d) = .ok a ∧ a.v = toV2 R a' ∧ Rp R a' ∧ Sz (11 * M) a' ∧
      NearDiff R (29 * (u * M) + 11 * η) M (Image D.tr s.prim.Points) (Image G.tr t.prim.Points) a ∧
      ∀ p q, Image D.tr s.prim.Points p → Image G.tr t.prim.Points q → (p - q).dot d ≤ a'.dot d + 512 * (u * (M * N) + η * (M + N)) := by
  have hu := h.u0
  have hη := h.η0
  have hN := sd.nonneg
  have hMN : 0 ≤ M * N := mul_nonneg (by linarith) hN
  have rn := rd.neg h sd (by nlinarith)
  obtain ⟨w, rw', sw, ew, -, dw⟩ := support_near h hs hD hM rd sd hΩ
  obtain ⟨w2, rw2, sw2, ew2, -, dw2⟩ := support_near h ht hG hM rn sd.neg hΩ
  obtain ⟨a, a', ea, va, ra, sa, ⟨v, x, y, p, q, hp, hq, e, ⟨rv, -, -⟩, h1, -, -⟩, -⟩ := mink_near h hs ht hD hG hM rd sd hΩ
  have ev : toV2 R v = toV2 R a' := by rw [← va, e]
  have hva : v = a' := by
    ext
    · exact (toF_inj rv.1 ra.1).1 (congrArg V2.x ev)
    · exact (toF_inj rv.2 ra.2).1 (congrArg V2.y ev)
  subst hva
  refine ⟨a, v, ea, va, ra, sa, ⟨v, p, q, hp, hq, va, ra, sa, h1⟩, ?_⟩
  obtain ⟨c, rc, ec, dc, -⟩ := sub_err h rw' rw2 sw sw2 (by nlinarith)
  have hc : c = v := by
    unfold SP.fromMinkowski at ea
    rw [ew, Res.bind_ok, show -toV2 R d = toV2 R (-d) from toV2_neg rd, ew2, Res.bind_ok, ec] at ea
    have ea' : (⟨toV2 R c, toV2 R w, toV2 R w2⟩ : SP (V2 (Fl R))) = a := Res.ok.inj ea
    rw [← ea'] at va
    ext
    · exact (toF_inj rc.1 ra.1).1 (congrArg V2.x va)
    · exact (toF_inj rc.2 ra.2).1 (congrArg V2.y va)
  subst hc
  intro p q hp hq
  have h1 := dw p hp
  have h2 := dw2 q hq
  have h3 := dot_sub_le dc sd
  rw [show (w - w2).dot d = w.dot d - w2.dot d by simp [V2.dot]; ring] at h3
  rw [dot_neg2, dot_neg2] at h2
  rw [show (p - q).dot d = p.dot d - q.dot d by simp [V2.dot]; ring]
  rw [abs_le] at h3
  have q4 : 0 ≤ u * (M * N) := mul_nonneg hu hMN
  have q5 : 0 ≤ η * N := mul_nonneg hη hN
  have q6 : 0 ≤ η * M := mul_nonneg hη (by linarith)
  linarith

/-- What the closest point of a simplex is. -/
theorem closestG2_spec {eps : Fl R} {under : V2 (Fl R) → V2 (Fl R) → Option (V2 (Fl R))} {l : List (SP (V2 (Fl R)))} (hl : l ≠ []) :
    ∃ c, closestG2 eps (sqrtF R) under l = .ok c ∧ (∀ p ∈ c.2, p ∈ l) ∧ c.2 ≠ [] ∧
      ∀ v, c.1 = some v → v = 0 ∨ ∃ s0 rest, c.2 = s0 :: rest ∧ (v = s0.v ∨ ∃ s1 ∈ l, closestEdgeG (sqrtF R) under s1.v s0.v = some v) := by
  have hmem := fun p => reduceG2_mem (eps := eps) (l := l) (d := 0) (p := p)
  have hne : (reduceG2 eps l 0).2.1 ≠ [] := by
    match l with
    | [_] => exact List.cons_ne_nil _ _
    | [_, _] => exact List.cons_ne_nil _ _
    | _ :: _ :: _ :: _ :: _ => exact List.cons_ne_nil _ _
    | [s0, s1, s2] =>
      unfold reduceG2
      dsimp only
      split
      · exact List.cons_ne_nil _ _
      · split <;> exact List.cons_ne_nil _ _
  have htrue : (reduceG2 eps l 0).1 = true → (reduceG2 eps l 0).2.2 = 0 := by
    match l with
    | [_] => intro h; cases h
    | [_, _] => intro h; cases h
    | _ :: _ :: _ :: _ :: _ => intro h; cases h
    | [s0, s1, s2] =>
      unfold reduceG2
      dsimp only
      split
      · intro h; cases h
      · split
        · intro h; cases h
        · intro _; rfl
  unfold closestG2
  dsimp only
  generalize hr : reduceG2 eps l 0 = r at *
  obtain ⟨b, m, e⟩ := r
  dsimp only at *
  cases b with
  | true =>
    refine ⟨(some e, m), rfl, hmem, hne, fun v hv => Or.inl ?_⟩
    rw [← Option.some.inj hv]
    exact htrue rfl
  | false =>
    match m, hne with
    | [s0], _ => exact ⟨(some s0.v, [s0]), rfl, hmem, by simp, fun v hv => Or.inr ⟨s0, [], rfl, Or.inl (Option.some.inj hv).symm⟩⟩
    | s0 :: s1 :: rest, _ => exact ⟨(closestEdgeG (sqrtF R) under s1.v s0.v, s0 :: s1 :: rest), rfl, hmem, by simp, fun v hv => Or.inr ⟨s0, s1 :: rest, rfl, Or.inr ⟨s1, hmem _ (by simp), hv⟩⟩⟩

/-! ## The answer -/
/-- The bounds of the answer, over the real numbers: `n` is the length of the computed closest point `d`, `δ` the number returned. -/
theorem least_real {u M tol n δ x y : ℝ} (hu : 0 ≤ u) (hu1 : u ≤ 1 / 4096) (hM : 1 ≤ M) (n0 : 0 ≤ n) (n1 : n ≤ 17 * M) (hδ : |δ - n| ≤ 75 * (u * M)) (x0 : 0 ≤ x) (hy : y ≤ x * n)
    (h : n * n ≤ y + tol + 56500 * (u * (M * M))) (ht : 0 ≤ δ) (htol : 0 ≤ tol) : δ * δ ≤ x * δ + tol + 65536 * (u * (M * M)) := by
  have uM : 0 ≤ u * M := mul_nonneg hu (by linarith)
  have uM1 : u * M ≤ 1 / 4096 * M := mul_le_mul_of_nonneg_right hu1 (by linarith)
  have h1 := abs_le.1 hδ
  have δ1 : δ ≤ 18 * M := by linarith
  have uMM : 0 ≤ u * (M * M) := mul_nonneg hu (by nlinarith)
  -- the squares
  have k1 : δ * δ ≤ n * n + 2700 * (u * (M * M)) := by
    have e : δ * δ - n * n = (δ - n) * (δ + n) := by ring
    have e1 : (δ - n) * (δ + n) ≤ 75 * (u * M) * (δ + n) := mul_le_mul_of_nonneg_right (by linarith) (by linarith)
    have e2 : 75 * (u * M) * (δ + n) ≤ 75 * (u * M) * (35 * M) := mul_le_mul_of_nonneg_left (by linarith) (by linarith)
    nlinarith
  rcases le_total x n with hx | hx
  · have k2 : x * n ≤ x * δ + 1275 * (u * (M * M)) := by
      have e1 : x * (n - δ) ≤ x * (75 * (u * M)) := mul_le_mul_of_nonneg_left (by linarith) x0
      have e2 : x * (75 * (u * M)) ≤ 17 * M * (75 * (u * M)) := mul_le_mul_of_nonneg_right (by linarith) (by linarith)
      nlinarith
    linarith
  · have e1 : δ * δ ≤ (x + 75 * (u * M)) * δ := mul_le_mul_of_nonneg_right (by linarith) ht
    have e2 : 75 * (u * M) * δ ≤ 75 * (u * M) * (18 * M) := mul_le_mul_of_nonneg_left δ1 (by linarith)
    nlinarith

/-- The length of a vector of bounded coordinates. -/
theorem norm_le_sz2 {v : V2 ℝ} {r : ℝ} (h : Sz r v) : v.norm ≤ 17 / 12 * r := by
  have hr := h.nonneg
  rw [V2.norm_le_iff _ (by positivity)]
  have h1 := abs_le.1 (mul_abs_le h.1 h.1)
  have h2 := abs_le.1 (mul_abs_le h.2 h.2)
  show v.x * v.x + v.y * v.y ≤ _
  nlinarith [mul_self_nonneg r]

/-- The computed length of a vector. -/
theorem magnitude_F (h : EdgeStd R u η Ω A) {v : V2 ℝ} (rv : Rp R v) (sv : Sz (3 * A) v) (hv : ∃ E, u ≤ E ∧ (E < |v.x| ∨ E < |v.y|)) :
    ∃ δ, Rep R δ ∧ sqrtF R ((toV2 R v).dot (toV2 R v)) = toF R δ ∧ 0 < δ ∧ |δ - v.norm| ≤ 21 / 5 * (u * v.norm) + 11 / 10 * u := by
  obtain ⟨up, hu', hη, low, η1, η2, uA, uA1, uA2⟩ := h.eps
  have hA := h.A1
  obtain ⟨D, rD, eD, -, D0, dD⟩ := dot_self_F h rv sv
  have n0 : 0 ≤ v.norm := V2.norm_nonneg v
  rw [← V2.norm_sq] at dD
  have nu : u ≤ v.norm := by
    refine le_of_sq_le_sq ?_ n0
    rw [pow_two, pow_two, V2.norm_sq]
    show u * u ≤ v.x * v.x + v.y * v.y
    obtain ⟨E, hE, h1 | h1⟩ := hv
    · have := mul_self_le_mul_self up.le (hE.trans h1.le)
      rw [abs_mul_abs_self] at this
      linarith [mul_self_nonneg v.y]
    · have := mul_self_le_mul_self up.le (hE.trans h1.le)
      rw [abs_mul_abs_self] at this
      linarith [mul_self_nonneg v.x]
  have n4 : v.norm ≤ 17 / 4 * A := by
    have := norm_le_sz2 sv
    linarith
  set n := v.norm
  have hs := sqrt_near (c := 31 / 10 * u) (e := u) n0 (by linarith) up.le D0 (by nlinarith)
  have s0 := Real.sqrt_nonneg D
  have hDpos : 0 < D := by
    have h1 : u * u ≤ n * n := mul_self_le_mul_self up.le nu
    have h2 : u * (n * n) ≤ 1 / 4096 * (n * n) := mul_le_mul_of_nonneg_right hu' (mul_self_nonneg n)
    have h3 : 0 < u * u := mul_pos up up
    linarith [(abs_le.1 dD).1]
  have sp := Real.sqrt_pos.2 hDpos
  have ss := Real.mul_self_sqrt D0
  set s := Real.sqrt D
  have hs' := abs_le.1 hs
  have un : u * n ≤ 1 / 4096 * n := mul_le_mul_of_nonneg_right hu' n0
  have lin := h.mat.lin
  obtain ⟨δ, rδ, eδ, dδ⟩ := h.mat.std.err s (by rw [abs_of_nonneg s0]; linarith)
  rw [abs_of_nonneg s0] at dδ
  have us : u * s ≤ u * n + 31 / 10 * (u * (u * n)) + u * u := by
    have := mul_le_mul_of_nonneg_left (show s ≤ n + 31 / 10 * (u * n) + u by linarith) up.le
    linarith
  have uun : u * (u * n) ≤ 1 / 4096 * (u * n) := mul_le_mul_of_nonneg_right hu' (mul_nonneg up.le n0)
  have uu : u * u ≤ 1 / 4096 * u := mul_le_mul_of_nonneg_right hu' up.le
  have us' : u * s ≤ 1 / 4096 * s := mul_le_mul_of_nonneg_right hu' s0
  have dδ' := abs_le.1 dδ
  have hηD := h.tiny D rD hDpos
  have ηs : η ≤ 1 / 1000 * s := by
    refine le_of_sq_le_sq ?_ (by positivity)
    have : η * η ≤ 1 / 1000000 * η := mul_le_mul_of_nonneg_right (by linarith) hη
    nlinarith
  refine ⟨δ, rδ, by rw [eD, sqrtF_toF rD, eδ], by linarith, ?_⟩
  rw [abs_le]
  constructor <;> linarith

set_option maxHeartbeats 1000000 in
/-- One round of the loop that stops: the answer. -/
theorem stop_near (h : DistStd R u η Ω M E) (cL : Convex2 L) (cR : Convex2 Rr) {tol : ℝ} (rtol : Rep R tol) (tol0 : 0 ≤ tol) {a b d p : V2 ℝ} {q1 q2 : SP (V2 (Fl R))}
    (ha : NearDiff R (30 * (u * M)) M L Rr q1) (hb : NearDiff R (30 * (u * M)) M L Rr q2) (ea : q1.v = toV2 R a) (eb : q2.v = toV2 R b) (ra : Rp R a) (rb : Rp R b) (rd : Rp R d) (rp : Rp R p) (sp : Sz (11 * M) p)
    (hd : EdgeNear (440 * (u * M)) (48400 * (u * (M * M))) a b d)
    (hp : ∀ x y, L x → Rr y → (x - y).dot (-d) ≤ p.dot (-d) + 6200 * (u * (M * M)))
    (hfar : ¬ NearG2 (toF R E) (toV2 R d))
    (hstop : (toV2 R p).dot (-toV2 R d) - (toV2 R b).dot (-toV2 R d) < toF R tol) :
    ∃ δ, Rep R δ ∧ sqrtF R ((-toV2 R d).dot (-toV2 R d)) = toF R δ ∧ DistanceNear (1024 * (u * M)) (65536 * (u * (M * M))) tol L Rr δ := by
  obtain ⟨up, hu', hη, low, η1, η2, -, -, -⟩ := h.edge.eps
  have hM := h.M1
  have std := h.edge.mat.std
  have sq := h.edge.mat.sq
  have MM : 1 ≤ M * M := by nlinarith
  have uM : 0 ≤ u * M := mul_nonneg up.le (by linarith)
  have uM1 : u * M ≤ 1 / 4096 * M := mul_le_mul_of_nonneg_right hu' (by linarith)
  have uMu : u * 1 ≤ u * M := mul_le_mul_of_nonneg_left hM up.le
  have uMM : 0 ≤ u * (M * M) := mul_nonneg up.le (by linarith)
  have uMM1 : u * 1 ≤ u * (M * M) := mul_le_mul_of_nonneg_left MM up.le
  have uMM2 : u * (M * M) ≤ 1 / 4096 * (M * M) := mul_le_mul_of_nonneg_right hu' (by linarith)
  obtain ⟨a0, x1, y1, hx1, hy1, ea0, ra0, sa, na⟩ := ha
  obtain ⟨b0, x2, y2, hx2, hy2, eb0, rb0, sb, nb⟩ := hb
  have inj : ∀ {v w : V2 ℝ}, Rp R v → Rp R w → toV2 R v = toV2 R w → v = w := by
    intro v w rv rw' e
    ext
    · exact (toF_inj rv.1 rw'.1).1 (congrArg V2.x e)
    · exact (toF_inj rv.2 rw'.2).1 (congrArg V2.y e)
  obtain rfl := inj ra0 ra (ea0.symm.trans ea)
  obtain rfl := inj rb0 rb (eb0.symm.trans eb)
  obtain ⟨⟨c, ⟨k, k0, k1, hc⟩, hdc⟩, hahead⟩ := hd
  -- a point of the difference of the shapes near the computed closest point
  have hconv := mink2_convex cL cR (x1 - y1) (x2 - y2) k ⟨x1, y1, hx1, hy1, rfl⟩ ⟨x2, y2, hx2, hy2, rfl⟩ k0 k1
  obtain ⟨x, y, hx, hy, exy⟩ := hconv
  have sd : Sz (12 * M) d := by
    have kk : ∀ {z w v c : ℝ}, |z - c| ≤ 440 * (u * M) → c = w + (v - w) * k → |w| ≤ 11 * M → |v| ≤ 11 * M → |z| ≤ 12 * M := by
      intro z w v c h1 h2 h3 h4
      have e : c = (1 - k) * w + k * v := by rw [h2]; ring
      have h5 : |(1 - k) * w| ≤ (1 - k) * (11 * M) := mul_abs_le (by rw [abs_of_nonneg (by linarith)]) h3
      have h6 : |k * v| ≤ k * (11 * M) := mul_abs_le (by rw [abs_of_nonneg k0]) h4
      rw [abs_le] at *
      constructor <;> linarith
    exact ⟨kk hdc.1 (congrArg V2.x hc) sa.1 sb.1, kk hdc.2 (congrArg V2.y hc) sa.2 sb.2⟩
  have hdx : Sz (470 * (u * M)) (d - (x - y)) := by
    rw [← exy]
    have kk : ∀ {z w v c w' v' : ℝ}, |z - c| ≤ 440 * (u * M) → c = w + (v - w) * k → |w - w'| ≤ 30 * (u * M) → |v - v'| ≤ 30 * (u * M) → |z - (w' + (v' - w') * k)| ≤ 470 * (u * M) := by
      intro z w v c w' v' h1 h2 h3 h4
      have e : z - (w' + (v' - w') * k) = (z - c) + ((1 - k) * (w - w') + k * (v - v')) := by rw [h2]; ring
      have h5 : |(1 - k) * (w - w')| ≤ (1 - k) * (30 * (u * M)) := mul_abs_le (by rw [abs_of_nonneg (by linarith)]) h3
      have h6 : |k * (v - v')| ≤ k * (30 * (u * M)) := mul_abs_le (by rw [abs_of_nonneg k0]) h4
      rw [e]
      rw [abs_le] at *
      constructor <;> linarith
    exact ⟨kk hdc.1 (congrArg V2.x hc) na.1 nb.1, kk hdc.2 (congrArg V2.y hc) na.2 nb.2⟩
  -- the number returned
  have hΩ : 12 * M ≤ Ω := by nlinarith
  have rn : Rp R (-d) := rd.neg std sd hΩ
  have hfar' : ∃ E, u ≤ E ∧ (E < |(-d).x| ∨ E < |(-d).y|) := by
    refine ⟨E, h.E0, ?_⟩
    by_contra hc
    push Not at hc
    obtain ⟨h1, h2⟩ := hc
    have h1' : |d.x| ≤ E := by rw [← abs_neg]; exact h1
    have h2' : |d.y| ≤ E := by rw [← abs_neg]; exact h2
    refine hfar ⟨⟨(toF_le rd.1 h.repE).2 (abs_le.1 h1').2, ?_⟩, ⟨(toF_le rd.2 h.repE).2 (abs_le.1 h2').2, ?_⟩⟩
    · show -toF R d.x ≤ toF R E
      rw [toF_neg rd.1]
      exact (toF_le rn.1 h.repE).2 (neg_le.1 (abs_le.1 h1').1)
    · show -toF R d.y ≤ toF R E
      rw [toF_neg rd.2]
      exact (toF_le rn.2 h.repE).2 (neg_le.1 (abs_le.1 h2').1)
  obtain ⟨δ, rδ, eδ, δ0, dδ⟩ := magnitude_F h.edge rn (sd.neg.mono (by linarith)) hfar'
  rw [V2.norm_neg] at dδ
  have n17 : d.norm ≤ 17 * M := (norm_le_sz2 sd).trans (by linarith)
  have n0 : 0 ≤ d.norm := V2.norm_nonneg d
  have dδ75 : |δ - d.norm| ≤ 75 * (u * M) := by
    have := mul_le_mul_of_nonneg_left n17 up.le
    linarith
  refine ⟨δ, rδ, by rw [toV2_neg rd]; exact eδ, δ0, ⟨x, y, hx, hy, ?_⟩, ?_⟩
  · have h1 := V2.norm_add_le d ((x - y) - d)
    have h2 : d + ((x - y) - d) = x - y := by ext <;> simp
    rw [h2, V2.norm_sub_comm (x - y) d] at h1
    have h3 := norm_le_sz2 hdx
    have h4 := abs_le.1 dδ75
    linarith
  · -- the stop test
    rw [toV2_neg rd] at hstop
    obtain ⟨r1, rr1, er1, dr1, -⟩ := dot_err std rp rn sp sd.neg (by linarith)
    obtain ⟨r2, rr2, er2, dr2, -⟩ := dot_err std rb rn sb sd.neg (by linarith)
    rw [er1, er2, toF_sub rr1 rr2] at hstop
    have b1 := abs_le.1 (dot_abs_le sp sd.neg)
    have b2 := abs_le.1 (dot_abs_le sb sd.neg)
    have e12 : 11 * M * (12 * M) = 132 * (M * M) := by ring
    rw [e12] at dr1 dr2 b1 b2
    have dr1' := abs_le.1 dr1
    have dr2' := abs_le.1 dr2
    have e13 : u * (132 * (M * M)) = 132 * (u * (M * M)) := by ring
    rw [e13] at dr1' dr2'
    have hr : |r1 - r2| ≤ 530 * (M * M) := by
      rw [abs_le]
      constructor <;> linarith
    obtain ⟨r, rr, er, dr⟩ := std.fl hr (by linarith)
    rw [er, toF_lt rr rtol] at hstop
    have dr' := abs_le.1 dr
    have hpb : p.dot (-d) - b0.dot (-d) ≤ tol + 1860 * (u * (M * M)) := by linarith
    intro x' y' hx' hy'
    have h1 := hp x' y' hx' hy'
    have h2 := V2.cauchy (x' - y') d
    rw [dot_neg2, dot_neg2] at h1 hpb
    refine least_real up.le hu' hM n0 n17 dδ75 (V2.norm_nonneg _) h2 ?_ δ0.le tol0
    rw [V2.norm_sq]
    linarith

/-- What the program answers. -/
def DistanceAnswer (R : Rounding F) (c1 c2 tol : ℝ) (L Rr : V2 ℝ → Prop) (o : Option (Fl R)) : Prop := ∀ x, o = some x → ∃ δ, Rep R δ ∧ x = toF R δ ∧ DistanceNear c1 c2 tol L Rr δ

/-- Sizes for the support points. -/
theorem DistStd.room (h : DistStd R u η Ω M E) : 64 * (M * (12 * M + 1)) ≤ Ω ∧ 29 * (u * M) + 11 * η ≤ 30 * (u * M) ∧ 512 * (u * (M * (12 * M)) + η * (M + 12 * M)) ≤ 6200 * (u * (M * M)) ∧ 12 * M ≤ Ω := by
  obtain ⟨up, hu', hη, low, η1, η2, -, -, -⟩ := h.edge.eps
  have hM := h.M1
  have sq := h.edge.mat.sq
  have MM : M ≤ M * M := by nlinarith
  have uM : u * 1 ≤ u * M := mul_le_mul_of_nonneg_left hM up.le
  have uMM : u * M ≤ u * (M * M) := mul_le_mul_of_nonneg_left MM up.le
  have ηM : η * M ≤ 1 / 1000000 * u * M := mul_le_mul_of_nonneg_right η1 (by linarith)
  refine ⟨by linarith, by linarith, by linarith, by linarith⟩

set_option maxHeartbeats 1000000 in
/-- The loop. -/
theorem distance_loop (h : DistStd R u η Ω M E) (hs : s.Fits R M) (ht : t.Fits R M) (hD : Fits2 R M D) (hG : Fits2 R M G) {tol : ℝ} (rtol : Rep R tol) (tol0 : 0 ≤ tol)
    {under : V2 (Fl R) → V2 (Fl R) → Option (V2 (Fl R))} (hund : ∀ a b v, under a b = some v → v = a ∨ v = b) {q : SP (V2 (Fl R))} (hq : NearDiff R (30 * (u * M)) M (Image D.tr s.prim.Points) (Image G.tr t.prim.Points) q) :
    ∀ (n : Nat) (l : List (SP (V2 (Fl R)))), l ≠ [] → (∀ p ∈ l, NearDiff R (30 * (u * M)) M (Image D.tr s.prim.Points) (Image G.tr t.prim.Points) p) →
      ∃ o, distanceLoopG2 (toF R E) (toF R tol) (sqrtF R) under ((s.toFl R).supportG (decF R D)) ((t.toFl R).supportG (decF R G)) (.ok q) n l = .ok o ∧
        DistanceAnswer R (1024 * (u * M)) (65536 * (u * (M * M))) tol (Image D.tr s.prim.Points) (Image G.tr t.prim.Points) o := by
  obtain ⟨room, room1, room2, room3⟩ := h.room
  have up := h.edge.mat.pos
  have hM := h.M1
  have uM : 0 ≤ u * M := mul_nonneg up.le (by linarith)
  have uMM : 0 ≤ u * (M * M) := mul_nonneg up.le (by nlinarith)
  have std := h.edge.mat.std
  intro n
  induction n with
  | zero => exact fun l _ _ => ⟨none, rfl, nofun⟩
  | succ n ih =>
    intro l hl hlm
    obtain ⟨c, ec, hmem, hne, hv⟩ := closestG2_spec (eps := toF R E) (under := under) hl
    have hgo : ∀ p, NearDiff R (30 * (u * M)) M (Image D.tr s.prim.Points) (Image G.tr t.prim.Points) p → ∀ p' ∈ c.2 ++ [p], NearDiff R (30 * (u * M)) M (Image D.tr s.prim.Points) (Image G.tr t.prim.Points) p' := by
      intro p hp p' hp'
      rcases List.mem_append.1 hp' with h1 | h1
      · exact hlm _ (hmem _ h1)
      · rw [List.mem_singleton.1 h1]
        exact hp
    unfold distanceLoopG2
    rw [ec, Res.bind_ok]
    cases hc1 : c.1 with
    | none => exact ih _ (by simp) (hgo q hq)
    | some v =>
      dsimp only
      by_cases hnear : NearG2 (toF R E) v
      · rw [if_pos hnear]
        exact ⟨none, rfl, nofun⟩
      rw [if_neg hnear]
      rcases hv v hc1 with rfl | ⟨s0, rest, ec2, hv'⟩
      · exfalso
        apply hnear
        rw [← toV2_zero]
        refine near_zero ?_
        rw [← toF_zero]
        exact (toF_le rep_zero h.repE).2 (up.le.trans h.E0)
      -- the closest point and the simplex points it comes from
      have hs0 := hlm s0 (hmem s0 (by rw [ec2]; exact List.mem_cons_self))
      obtain ⟨s1, a, b, d, hs1, ea, eb, ra, rb, rd, rfl, hd⟩ : ∃ (s1 : SP (V2 (Fl R))) (a b d : V2 ℝ), NearDiff R (30 * (u * M)) M (Image D.tr s.prim.Points) (Image G.tr t.prim.Points) s1 ∧ s1.v = toV2 R a ∧ s0.v = toV2 R b ∧ Rp R a ∧ Rp R b ∧ Rp R d ∧ v = toV2 R d ∧
          EdgeNear (440 * (u * M)) (48400 * (u * (M * M))) a b d := by
        obtain ⟨b, x, y, hx, hy, eb, rb, sb, nb⟩ := id hs0
        rcases hv' with hv' | ⟨s1, hs1, hv'⟩
        · exact ⟨s0, b, b, b, hs0, eb, eb, rb, rb, rb, hv'.trans eb, edge_end (by linarith) (by linarith)⟩
        · have hs1' := hlm s1 hs1
          obtain ⟨a, x', y', hx', hy', ea, ra, sa, na⟩ := id hs1'
          rw [ea, eb] at hv'
          obtain ⟨d, rd, ed, hd⟩ := closestEdge_F h.edge hund ra rb sa sb hv'
          refine ⟨s1, a, b, d, hs1', ea, eb, ra, rb, rd, ed, hd.mono (by linarith) ?_⟩
          have : 400 * (u * (11 * M * (11 * M))) = 48400 * (u * (M * M)) := by ring
          exact this.le
      have sd : Sz (12 * M) d := by
        obtain ⟨⟨c', ⟨k, k0, k1, hc'⟩, hdc⟩, -⟩ := hd
        obtain ⟨a0, -, -, -, -, ea0, ra0, sa, -⟩ := hs1
        obtain ⟨b0, -, -, -, -, eb0, rb0, sb, -⟩ := hs0
        have inj : ∀ {v w : V2 ℝ}, Rp R v → Rp R w → toV2 R v = toV2 R w → v = w := by
          intro v w rv rw' e
          ext
          · exact (toF_inj rv.1 rw'.1).1 (congrArg V2.x e)
          · exact (toF_inj rv.2 rw'.2).1 (congrArg V2.y e)
        obtain rfl := inj ra0 ra (ea0.symm.trans ea)
        obtain rfl := inj rb0 rb (eb0.symm.trans eb)
        have uM1 : u * M ≤ 1 / 4096 * M := mul_le_mul_of_nonneg_right h.edge.mat.u' (by linarith)
        have kk : ∀ {z w v c : ℝ}, |z - c| ≤ 440 * (u * M) → c = w + (v - w) * k → |w| ≤ 11 * M → |v| ≤ 11 * M → |z| ≤ 12 * M := by
          intro z w v c h1 h2 h3 h4
          have e : c = (1 - k) * w + k * v := by rw [h2]; ring
          have h5 : |(1 - k) * w| ≤ (1 - k) * (11 * M) := mul_abs_le (by rw [abs_of_nonneg (by linarith)]) h3
          have h6 : |k * v| ≤ k * (11 * M) := mul_abs_le (by rw [abs_of_nonneg k0]) h4
          rw [abs_le] at *
          constructor <;> linarith
        exact ⟨kk hdc.1 (congrArg V2.x hc') sa.1 sb.1, kk hdc.2 (congrArg V2.y hc') sa.2 sb.2⟩
      have rn : Rp R (-d) := rd.neg std sd room3
      obtain ⟨p, p', ep, vp, rp, sp, np, hp⟩ := mink_support std hs ht hD hG hM rn sd.neg room
      have np' : NearDiff R (30 * (u * M)) M (Image D.tr s.prim.Points) (Image G.tr t.prim.Points) p := by
        obtain ⟨v, x, y, h1, h2, h3, h4, h5, h6⟩ := np
        exact ⟨v, x, y, h1, h2, h3, h4, h5, h6.mono room1⟩
      rw [toV2_neg rd, ep, Res.bind_ok, ec2]
      show ∃ o, (if p.v.dot (toV2 R (-d)) - s0.v.dot (toV2 R (-d)) < toF R tol then (.ok (some (sqrtF R ((toV2 R (-d)).dot (toV2 R (-d))))) : Res (Option (Fl R))) else _) = .ok o ∧ _
      by_cases hstop : p.v.dot (toV2 R (-d)) - s0.v.dot (toV2 R (-d)) < toF R tol
      · rw [if_pos hstop]
        refine ⟨_, rfl, ?_⟩
        intro x hx
        rw [← Option.some.inj hx]
        rw [← toV2_neg rd, vp, eb] at hstop
        obtain ⟨δ, rδ, eδ, hδ⟩ := stop_near h (image_convex2 D (prim2_convex s.prim)) (image_convex2 G (prim2_convex t.prim)) rtol tol0 hs1 hs0 ea eb ra rb rd rp sp hd
          (fun x y hx hy => (hp x y hx hy).trans (by linarith)) hnear hstop
        exact ⟨δ, rδ, by rw [← toV2_neg rd]; exact eδ, hδ⟩
      · rw [if_neg hstop, ← ec2]
        exact ih _ (by simp) (hgo p np')

/-- **C126, in any standard rounded arithmetic**: the distance query does not panic, and an answer is right up to the rounding errors of the scene. -/
theorem c126_2d (h : DistStd R u η Ω M E) (hs : s.Fits R M) (ht : t.Fits R M) (hD : Fits2 R M D) (hG : Fits2 R M G) {tol : ℝ} (rtol : Rep R tol) (tol0 : 0 ≤ tol)
    {under : V2 (Fl R) → V2 (Fl R) → Option (V2 (Fl R))} (hund : ∀ a b v, under a b = some v → v = a ∨ v = b) {q : SP (V2 (Fl R))} (hq : NearDiff R (30 * (u * M)) M (Image D.tr s.prim.Points) (Image G.tr t.prim.Points) q) (n : Nat) :
    ∃ o, gjkDistanceG2 (toF R E) (toF R tol) (sqrtF R) under n ((s.toFl R).supportG (decF R D)) ((t.toFl R).supportG (decF R G)) (.ok q) (pointG2 (decF R D) 0) (pointG2 (decF R G) 0) = .ok o ∧
      DistanceAnswer R (1024 * (u * M)) (65536 * (u * (M * M))) tol (Image D.tr s.prim.Points) (Image G.tr t.prim.Points) o := by
  obtain ⟨room, room1, room2, room3⟩ := h.room
  have hM := h.M1
  have std := h.edge.mat.std
  have up := h.edge.mat.pos
  have hu' := h.edge.mat.u'
  obtain ⟨-, -, hη, -, η1, -⟩ := h.edge.eps
  have z0 : Rp R (0 : V2 ℝ) := ⟨rep_zero, rep_zero⟩
  have zs : Sz M (0 : V2 ℝ) := ⟨by simp; linarith, by simp; linarith⟩
  obtain ⟨p, rp, sp, ep, -⟩ := point_near std hD hM z0 zs (by linarith)
  obtain ⟨r, rr, sr, er, -⟩ := point_near std hG hM z0 zs (by linarith)
  rw [← toV2_zero, ep, er]
  obtain ⟨d, ed, rd, sd⟩ : ∃ d', firstDirectionG2 (toF R E) (toV2 R p) (toV2 R r) = toV2 R d' ∧ Rp R d' ∧ Sz (12 * M) d' := by
    obtain ⟨c, rc, ec, dc, -⟩ := sub_err std rr rp sr sp (by linarith)
    unfold firstDirectionG2
    dsimp only
    rw [ec]
    by_cases hn : NearG2 (toF R E) (toV2 R c)
    · rw [if_pos hn]
      refine ⟨⟨1, 1⟩, ?_, ⟨rep_one, rep_one⟩, ?_⟩
      · show _ = (⟨toF R 1, toF R 1⟩ : V2 (Fl R))
        rw [toF_one]
      · have : Sz 1 (⟨1, 1⟩ : V2 ℝ) := ⟨by simp, by simp⟩
        exact this.mono (by linarith)
    · rw [if_neg hn]
      refine ⟨c, rfl, rc, ?_⟩
      have uM : u * (5 * M + 5 * M) ≤ 1 / 4096 * (5 * M + 5 * M) := mul_le_mul_of_nonneg_right hu' (by linarith)
      refine (sz_sub dc (B := 10 * M) ?_).mono (by linarith)
      constructor
      · exact (abs_sub _ _).trans (by linarith [sr.1, sp.1])
      · exact (abs_sub _ _).trans (by linarith [sr.2, sp.2])
  unfold gjkDistanceG2
  dsimp only
  rw [ed]
  have widen : ∀ {a}, NearDiff R (29 * (u * M) + 11 * η) M (Image D.tr s.prim.Points) (Image G.tr t.prim.Points) a → NearDiff R (30 * (u * M)) M (Image D.tr s.prim.Points) (Image G.tr t.prim.Points) a := by
    rintro a ⟨v, x, y, h1, h2, h3, h4, h5, h6⟩
    exact ⟨v, x, y, h1, h2, h3, h4, h5, h6.mono room1⟩
  obtain ⟨a, -, ea, -, -, -, na, -⟩ := mink_support std hs ht hD hG hM rd sd room
  obtain ⟨b, -, eb, -, -, -, nb, -⟩ := mink_support std hs ht hD hG hM (rd.neg std sd room3) sd.neg room
  rw [ea, Res.bind_ok, toV2_neg rd, eb, Res.bind_ok]
  refine distance_loop h hs ht hD hG rtol tol0 hund hq n _ (by simp) ?_
  intro x hx
  simp only [List.mem_cons, List.not_mem_nil, or_false] at hx
  rcases hx with rfl | rfl
  · exact widen na
  · exact widen nb

/-! ## The formats -/
theorem edge64 (h1 : 1 ≤ A) (h2 : A ≤ (2 : ℝ) ^ (400 : ℤ)) : EdgeStd binary64 ((2 : ℝ) ^ (-53 : ℤ)) ((2 : ℝ) ^ (-1075 : ℤ)) ((2 : ℝ) ^ (1022 : ℤ)) A where
  mat := { mat64 (by linarith) h2 with repE := rep_zero, E0 := le_rfl, E1 := by positivity }
  A1 := h1
  tiny := tiny64
  inv := by
    rw [← zpow_add₀ (by norm_num), ← zpow_add₀ (by norm_num)]
    calc (2 : ℝ) = (2 : ℝ) ^ (1 : ℤ) := by norm_num
      _ ≤ _ := zpow2_le (by norm_num)
theorem edge32 (h1 : 1 ≤ A) (h2 : A ≤ (2 : ℝ) ^ (50 : ℤ)) : EdgeStd binary32 ((2 : ℝ) ^ (-24 : ℤ)) ((2 : ℝ) ^ (-150 : ℤ)) ((2 : ℝ) ^ (126 : ℤ)) A where
  mat := { mat32 (by linarith) h2 with repE := rep_zero, E0 := le_rfl, E1 := by positivity }
  A1 := h1
  tiny := tiny32
  inv := by norm_num

/-- A polygon contains the origin of its own frame; other primitives always do, or do not need to. -/
def HasOrigin : Flat2 ℝ → Prop
  | .polygon vs => Hull2 vs 0
  | _ => True

/-- The support point for a direction of NaN is a point of the shape. -/
theorem half_pos_of {a : ℝ} (h : 0 ≤ a) : 0 ≤ a / 2 := by linarith

theorem nanLocal_spec (hs : s.Fits R M) (hM : 1 ≤ M) (ho : HasOrigin s) : ∃ v, nanLocalG (s.toFl R) = toV2 R v ∧ Rp R v ∧ Sz M v ∧ s.prim.Points v := by
  have z0 : Rp R (0 : V2 ℝ) := ⟨rep_zero, rep_zero⟩
  have zs : Sz M (0 : V2 ℝ) := ⟨by simp; linarith, by simp; linarith⟩
  cases s with
  | particle => exact ⟨0, toV2_zero.symm, z0, zs, rfl⟩
  | line l => exact ⟨l.origin, rfl, hs.1.1, hs.1.2, 0, le_rfl, zero_le_one, by ext <;> simp [Line2.at]⟩
  | rectangle w k =>
    refine ⟨0, toV2_zero.symm, z0, zs, ?_⟩
    have h1 := hs.1.1
    have h2 := hs.1.2
    simp [Flat2.prim, Prim2.Points, InRect, Rectangle.new]
    exact ⟨half_pos_of h1, half_pos_of h2⟩
  | square w =>
    refine ⟨0, toV2_zero.symm, z0, zs, ?_⟩
    have h1 := hs.1
    simp [Flat2.prim, Prim2.Points, InRect, Square.new, Rectangle.new]
    exact ⟨half_pos_of h1, half_pos_of h1⟩
  | polygon vs => exact ⟨0, toV2_zero.symm, z0, zs, ho⟩

theorem nan_near (h : DistStd R u η Ω M E) (hs : s.Fits R M) (ht : t.Fits R M) (hD : Fits2 R M D) (hG : Fits2 R M G) (os : HasOrigin s) (ot : HasOrigin t) :
    NearDiff R (30 * (u * M)) M (Image D.tr s.prim.Points) (Image G.tr t.prim.Points) (nanSupportG (s.toFl R) (t.toFl R) (decF R D) (decF R G)) := by
  obtain ⟨room, room1, room2, room3⟩ := h.room
  have hM := h.M1
  have std := h.edge.mat.std
  have up := h.edge.mat.pos
  have hu' := h.edge.mat.u'
  obtain ⟨-, -, hη, -, η1, -⟩ := h.edge.eps
  obtain ⟨x, ex, rx, sx, px⟩ := nanLocal_spec hs hM os
  obtain ⟨y, ey, ry, sy, py⟩ := nanLocal_spec ht hM ot
  obtain ⟨p, rp, sp, ep, np⟩ := point_near std hD hM rx sx (by linarith)
  obtain ⟨r, rr, sr, er, nr⟩ := point_near std hG hM ry sy (by linarith)
  obtain ⟨c, rc, ec, dc, -⟩ := sub_err std rp rr sp sr (by linarith)
  have uM : u * M ≤ 1 / 4096 * M := mul_le_mul_of_nonneg_right hu' (by linarith)
  have uM0 : 0 ≤ u * M := mul_nonneg up.le (by linarith)
  have uM1 : u * 1 ≤ u * M := mul_le_mul_of_nonneg_left hM up.le
  have e10 : u * (5 * M + 5 * M) + η = 10 * (u * M) + η := by ring
  rw [e10] at dc
  refine ⟨c, D.tr.point x, G.tr.point y, ⟨x, px, rfl⟩, ⟨y, py, rfl⟩, ?_, rc, ?_, ?_⟩
  · show pointG2 _ _ - pointG2 _ _ = _
    rw [ex, ey, ep, er, ec]
  · refine (sz_sub dc (B := 10 * M) ?_).mono (by linarith)
    constructor
    · exact (abs_sub _ _).trans (by linarith [sp.1, sr.1])
    · exact (abs_sub _ _).trans (by linarith [sp.2, sr.2])
  · have k : ∀ {α β γ δ ε : ℝ}, |α - (β - γ)| ≤ 10 * (u * M) + η → |β - δ| ≤ 9 * (u * M) + 5 * η → |γ - ε| ≤ 9 * (u * M) + 5 * η → |α - (δ - ε)| ≤ 30 * (u * M) := by
      intro α β γ δ ε h1 h2 h3
      rw [abs_le] at h1 h2 h3 ⊢
      constructor <;> linarith
    exact ⟨k dc.1 np.1 nr.1, k dc.2 np.2 nr.2⟩

/-- **C126 in `f64`**: two polygons (of at most nine vertices, containing the origin of their frame), rectangles, squares, lines or particles, with transforms without scaling, all coordinates numbers of `f64` of at most `M ≤ 2^249`. `GJK2::distance` in
`f64` does not panic. If it answers `δ`, then `δ > 0`, there are points of the two shapes at most `δ + 2^-43 M` apart, and no two points of the shapes are nearer than `δ - (tolerance + 2^-37 M²) / δ`. -/
theorem c126_f64 (hM : 1 ≤ M) (hM' : M ≤ 2 ^ 249) (hs : s.Fits binary64 M) (ht : t.Fits binary64 M) (hD : Fits2 binary64 M D) (hG : Fits2 binary64 M G) (os : HasOrigin s) (ot : HasOrigin t)
    {tol : ℝ} (rtol : Rep binary64 tol) (tol0 : 0 ≤ tol) {under : V2 (Fl binary64) → V2 (Fl binary64) → Option (V2 (Fl binary64))} (hund : ∀ a b v, under a b = some v → v = a ∨ v = b) (n : Nat) :
    ∃ o, distanceG2 (toF binary64 eps64) (toF binary64 tol) (sqrtF binary64) under n (s.toFl binary64) (t.toFl binary64) (decF binary64 D) (decF binary64 G) = .ok o ∧
      ∀ x, o = some x → ∃ δ, Rep binary64 δ ∧ x = toF binary64 δ ∧ 0 < δ ∧
        (∃ p q, Image D.tr s.prim.Points p ∧ Image G.tr t.prim.Points q ∧ (p - q).norm ≤ δ + (2 : ℝ) ^ (-43 : ℤ) * M) ∧
        ∀ p q, Image D.tr s.prim.Points p → Image G.tr t.prim.Points q → δ - (tol + (2 : ℝ) ^ (-37 : ℤ) * M ^ 2) / δ ≤ (p - q).norm := by
  have h11 : 11 * M ≤ (2 : ℝ) ^ (400 : ℤ) := by
    have h1 : 11 * M ≤ 2 ^ 4 * 2 ^ 249 := by
      have := mul_le_mul_of_nonneg_left hM' (show (0 : ℝ) ≤ 2 ^ 4 by norm_num)
      linarith
    rw [← pow_add] at h1
    refine h1.trans ?_
    rw [← zpow_natCast]
    exact zpow2_le (by norm_num)
  have hst : DistStd binary64 ((2 : ℝ) ^ (-53 : ℤ)) ((2 : ℝ) ^ (-1075 : ℤ)) ((2 : ℝ) ^ (1022 : ℤ)) M eps64 := by
    refine ⟨hM, edge64 (by linarith) h11, ?_, rep_of_rep64 ⟨1, -52, by norm_num, by norm_num, by norm_num, by simp [eps64]⟩, zpow2_le (by norm_num)⟩
    have h1 : M ^ 4 ≤ (2 ^ 249) ^ 4 := pow_le_pow_left₀ (by linarith) hM' 4
    rw [← pow_mul] at h1
    have h2 : (2 : ℝ) ^ 23 * M ^ 4 ≤ 2 ^ 23 * 2 ^ (249 * 4) := mul_le_mul_of_nonneg_left h1 (by positivity)
    rw [← pow_add] at h2
    refine h2.trans ?_
    rw [← zpow_natCast]
    exact zpow2_le (by norm_num)
  obtain ⟨o, ho, hx⟩ := c126_2d hst hs ht hD hG rtol tol0 hund (nan_near hst hs ht hD hG os ot) n
  refine ⟨o, ho, fun x hox => ?_⟩
  obtain ⟨δ, rδ, eδ, ⟨δ0, ⟨p, q, hp, hq, hpq⟩, hl⟩⟩ := hx x hox
  refine ⟨δ, rδ, eδ, δ0, ⟨p, q, hp, hq, ?_⟩, fun p q hp hq => ?_⟩
  · have : (2 : ℝ) ^ (-43 : ℤ) = 1024 * (2 : ℝ) ^ (-53 : ℤ) := by norm_num
    rw [this]; linarith
  · have := hl p q hp hq
    have e : (2 : ℝ) ^ (-37 : ℤ) * M ^ 2 = 65536 * ((2 : ℝ) ^ (-53 : ℤ) * (M * M)) := by norm_num; ring
    rw [e, sub_le_iff_le_add, ← sub_le_iff_le_add', le_div_iff₀ δ0, sub_mul]
    linarith

/-- **C126 in `f32`**, for coordinates of at most `M ≤ 2^25`: the errors are `2^-14 M` and `2^-8 M²`. -/
theorem c126_f32 (hM : 1 ≤ M) (hM' : M ≤ 2 ^ 25) (hs : s.Fits binary32 M) (ht : t.Fits binary32 M) (hD : Fits2 binary32 M D) (hG : Fits2 binary32 M G) (os : HasOrigin s) (ot : HasOrigin t)
    {tol : ℝ} (rtol : Rep binary32 tol) (tol0 : 0 ≤ tol) {under : V2 (Fl binary32) → V2 (Fl binary32) → Option (V2 (Fl binary32))} (hund : ∀ a b v, under a b = some v → v = a ∨ v = b) (n : Nat) :
    ∃ o, distanceG2 (toF binary32 eps32) (toF binary32 tol) (sqrtF binary32) under n (s.toFl binary32) (t.toFl binary32) (decF binary32 D) (decF binary32 G) = .ok o ∧
      ∀ x, o = some x → ∃ δ, Rep binary32 δ ∧ x = toF binary32 δ ∧ 0 < δ ∧
        (∃ p q, Image D.tr s.prim.Points p ∧ Image G.tr t.prim.Points q ∧ (p - q).norm ≤ δ + (2 : ℝ) ^ (-14 : ℤ) * M) ∧
        ∀ p q, Image D.tr s.prim.Points p → Image G.tr t.prim.Points q → δ - (tol + (2 : ℝ) ^ (-8 : ℤ) * M ^ 2) / δ ≤ (p - q).norm := by
  have hst : DistStd binary32 ((2 : ℝ) ^ (-24 : ℤ)) ((2 : ℝ) ^ (-150 : ℤ)) ((2 : ℝ) ^ (126 : ℤ)) M eps32 := by
    refine ⟨hM, edge32 (by linarith) (by norm_num at hM' ⊢; linarith), ?_, rep_of_rep32 ⟨1, -23, by norm_num, by norm_num, by norm_num, by simp [eps32]⟩, zpow2_le (by norm_num)⟩
    have h1 : M ^ 4 ≤ (2 ^ 25) ^ 4 := pow_le_pow_left₀ (by linarith) hM' 4
    norm_num at h1 ⊢
    linarith
  obtain ⟨o, ho, hx⟩ := c126_2d hst hs ht hD hG rtol tol0 hund (nan_near hst hs ht hD hG os ot) n
  refine ⟨o, ho, fun x hox => ?_⟩
  obtain ⟨δ, rδ, eδ, ⟨δ0, ⟨p, q, hp, hq, hpq⟩, hl⟩⟩ := hx x hox
  refine ⟨δ, rδ, eδ, δ0, ⟨p, q, hp, hq, ?_⟩, fun p q hp hq => ?_⟩
  · have : (2 : ℝ) ^ (-14 : ℤ) = 1024 * (2 : ℝ) ^ (-24 : ℤ) := by norm_num
    rw [this]; linarith
  · have := hl p q hp hq
    have e : (2 : ℝ) ^ (-8 : ℤ) * M ^ 2 = 65536 * ((2 : ℝ) ^ (-24 : ℤ) * (M * M)) := by norm_num; ring
    rw [e, sub_le_iff_le_add, ← sub_le_iff_le_add', le_div_iff₀ δ0, sub_mul]
    linarith

/-! ## A case: a segment from `(0, -1)` to `(0, 1)` and a particle at `(0, 5)` -/
/-- The segment. -/
def gapLine : Flat2 ℝ := .line ⟨⟨0, -1⟩, ⟨0, 1⟩⟩
/-- The place of the particle. -/
def gapE : Dec2 ℝ := ⟨1, ⟨⟨1, 0⟩, ⟨0, 1⟩⟩, ⟨0, 5⟩⟩

theorem small_repI {n : ℤ} (h : |n| < 2 ^ 53) : RepI n := repI 0 (by norm_num) n h (by simp)
theorem gap_dec : decF binary64 gapE = ⟨I 1, ⟨W 1 0, W 0 1⟩, W 0 5⟩ ∧ gapLine.toFl binary64 = .line ⟨W 0 (-1), W 0 1⟩ := by
  constructor
  · unfold decF gapE W I toV2
    norm_num
  · unfold gapLine Flat2.toFl W I toV2
    norm_num
theorem gap_support {y : ℤ} (hy : |y| < 100) : (gapLine.toFl binary64).supportG (decF binary64 hitE) (W 0 y) = .ok (if 0 ≤ y then W 0 1 else W 0 (-1)) := by
  have ry : RepI y := small_repI (by linarith)
  have r2y : RepI (y * 2) := small_repI (by rw [abs_mul, show |(2 : ℤ)| = 2 from rfl]; linarith)
  rw [dec_W.2, supportG_eq _ _ (inv_W 0 r0 ry), gap_dec.2]
  have e : W 0 1 - W 0 (-1) = W 0 2 := by
    rw [W_sub r0 r1 r0 rm1]; norm_num
  show Res.ok (pointG2 _ (if (W 0 y).dot (W 0 1 - W 0 (-1)) ≥ 0 then W 0 1 else W 0 (-1))) = _
  rw [e, W_dot r0 ry r0 r2 (by simpa using r0) r2y, I_zero]
  by_cases h : 0 ≤ y
  · rw [if_pos ((I_le r0 (by simpa using r2y)).2 (by omega)), if_pos h, point_W 0 r0 r0 r1]
    norm_num
  · rw [if_neg (fun h' => h (by have := (I_le r0 (by simpa using r2y)).1 h'; omega)), if_neg h, point_W 0 r0 r0 rm1]
    norm_num
theorem gap_mink {y : ℤ} (hy : |y| < 100) : SP.fromMinkowski ((gapLine.toFl binary64).supportG (decF binary64 hitE)) (((Flat2.particle : Flat2 ℝ).toFl binary64).supportG (decF binary64 gapE)) (W 0 y) =
    .ok (if 0 ≤ y then ⟨W 0 (-4), W 0 1, W 0 5⟩ else ⟨W 0 (-6), W 0 (-1), W 0 5⟩) := by
  have r5 : RepI 5 := small_repI (by norm_num)
  have e : ∀ d, ((Flat2.particle : Flat2 ℝ).toFl binary64).supportG (decF binary64 gapE) d = .ok (W 0 5) := by
    intro d
    show Res.ok (pointG2 _ 0) = _
    have : (0 : V2 (Fl binary64)) = W 0 0 := by
      show (⟨0, 0⟩ : V2 (Fl binary64)) = _
      rw [I_zero]; rfl
    rw [gap_dec.1, this, point_W 5 r5 r0 r0]
    norm_num
  unfold SP.fromMinkowski
  rw [gap_support hy, Res.bind_ok, e, Res.bind_ok]
  by_cases h : 0 ≤ y
  · rw [if_pos h, if_pos h, W_sub r0 r1 r0 r5]; rfl
  · rw [if_neg h, if_neg h, W_sub r0 rm1 r0 r5]; rfl
theorem gap_edge (under : V2 (Fl binary64) → V2 (Fl binary64) → Option (V2 (Fl binary64))) : closestEdgeG (sqrtF binary64) under (W 0 (-6)) (W 0 (-4)) = some (W 0 (-4)) := by
  have r4 : RepI 4 := small_repI (by norm_num)
  have rm4 : RepI (-4) := small_repI (by norm_num)
  have rm6 : RepI (-6) := small_repI (by norm_num)
  have r6 : RepI 6 := small_repI (by norm_num)
  have r36 : RepI 36 := small_repI (by norm_num)
  have e1 : W 0 (-4) - W 0 (-6) = W 0 2 := by
    rw [W_sub r0 rm4 r0 rm6]; norm_num
  have e2 : (W 0 2).dot (W 0 2) = I 4 := by
    rw [W_dot r0 r2 r0 r2 (by simpa using r0) (by norm_num; exact r4)]; norm_num
  have e3 : sqrtF binary64 (I 4) = I 2 := by
    unfold I
    rw [sqrtF_toF r4.rep]
    congr 1
    push_cast
    rw [show (4 : ℝ) = 2 ^ 2 by norm_num, Real.sqrt_sq (by norm_num)]
  have half : Rep binary64 (1 / 2 : ℝ) := rep_of_rep64 ⟨1, -1, by norm_num, by norm_num, by norm_num, by norm_num⟩
  have e4 : (1 : Fl binary64) / I 2 = toF binary64 (1 / 2) := by
    rw [I_one]
    unfold I
    rw [toF_div r1.rep r2.rep]
    norm_num
  have e5 : W 0 2 * toF binary64 (1 / 2) = W 0 1 := by
    show (⟨I 0 * toF binary64 (1 / 2), I 2 * toF binary64 (1 / 2)⟩ : V2 (Fl binary64)) = _
    unfold W I
    rw [toF_mul r0.rep half, toF_mul r2.rep half]
    norm_num
  have e6 : (0 : V2 (Fl binary64)) - W 0 (-6) = W 0 6 := by
    have : (0 : V2 (Fl binary64)) = W 0 0 := by
      show (⟨0, 0⟩ : V2 (Fl binary64)) = _
      rw [I_zero]; rfl
    rw [this, W_sub r0 r0 r0 rm6]; norm_num
  have e7 : (W 0 6).dot (W 0 1) = I 6 := by
    rw [W_dot r0 r6 r0 r1 (by simpa using r0) (by norm_num; exact r6)]; norm_num
  have e8 : I 6 * I 6 = I 36 := I_mul r6 r6
  unfold closestEdgeG
  dsimp only
  rw [e1, e2, e3, e4, e5, e6, e7, e8, I_zero, if_neg, if_neg, if_pos ((I_lt r4 r36).2 (by norm_num))]
  · rw [I_lt r6 r0]; norm_num
  · intro h
    have := (I_le r4 r0).1 h.le
    norm_num at this

/-- One step answers 4. -/
theorem gap_run {tol : ℝ} (rtol : Rep binary64 tol) (tol0 : 0 < tol) (under : V2 (Fl binary64) → V2 (Fl binary64) → Option (V2 (Fl binary64))) (n : Nat) :
    distanceG2 (toF binary64 eps64) (toF binary64 tol) (sqrtF binary64) under (n + 1) (gapLine.toFl binary64) ((Flat2.particle : Flat2 ℝ).toFl binary64) (decF binary64 hitE) (decF binary64 gapE) = .ok (some (toF binary64 4)) := by
  have r4 : RepI 4 := small_repI (by norm_num)
  have rm4 : RepI (-4) := small_repI (by norm_num)
  have r5 : RepI 5 := small_repI (by norm_num)
  have r16 : RepI 16 := small_repI (by norm_num)
  have rm16 : RepI (-16) := small_repI (by norm_num)
  have z : (0 : V2 (Fl binary64)) = W 0 0 := by
    show (⟨0, 0⟩ : V2 (Fl binary64)) = _
    rw [I_zero]; rfl
  have e1 : pointG2 (decF binary64 gapE) 0 - pointG2 (decF binary64 hitE) 0 = W 0 5 := by
    rw [gap_dec.1, dec_W.2, z, point_W 5 r5 r0 r0, point_W 0 r0 r0 r0, W_sub (by simpa using r0) (by simpa using r5) (by simpa using r0) (by simpa using r0)]
    norm_num
  have n1 : ¬ NearG2 (toF binary64 eps64) (W 0 5) := fun h => eps_small r5 (by norm_num) h.2.1
  have n2 : ¬ NearG2 (toF binary64 eps64) (W 0 (-4)) := by
    rintro ⟨-, -, h⟩
    have e : -(W 0 (-4)).y = I 4 := by
      show -I (-4) = _
      rw [I_neg rm4]; norm_num
    rw [e] at h
    exact eps_small r4 (by norm_num) h
  have m1 := gap_mink (y := 5) (by norm_num)
  have m2 := gap_mink (y := -5) (by norm_num)
  have m3 := gap_mink (y := 4) (by norm_num)
  rw [if_pos (by norm_num)] at m1 m3
  rw [if_neg (by norm_num)] at m2
  have g5 : -W 0 5 = W 0 (-5) := by rw [W_neg r0 r5]; norm_num
  have g4 : -W 0 (-4) = W 0 4 := by rw [W_neg r0 rm4]; norm_num
  have d1 : (W 0 (-4)).dot (W 0 4) = I (-16) := by
    rw [W_dot r0 rm4 r0 r4 (by simpa using r0) (by norm_num; exact rm16)]; norm_num
  have d2 : (W 0 4).dot (W 0 4) = I 16 := by
    rw [W_dot r0 r4 r0 r4 (by simpa using r0) (by norm_num; exact r16)]; norm_num
  have e3 : sqrtF binary64 (I 16) = toF binary64 4 := by
    unfold I
    rw [sqrtF_toF r16.rep]
    congr 1
    push_cast
    rw [show (16 : ℝ) = 4 ^ 2 by norm_num, Real.sqrt_sq (by norm_num)]
  have t : I (-16) - I (-16) < toF binary64 tol := by
    rw [I_sub rm16 rm16, sub_self]
    unfold I
    rw [Int.cast_zero, toF_lt rep_zero rtol]
    exact tol0
  have k : closestG2 (toF binary64 eps64) (sqrtF binary64) under [⟨W 0 (-4), W 0 1, W 0 5⟩, ⟨W 0 (-6), W 0 (-1), W 0 5⟩] = .ok (some (W 0 (-4)), [⟨W 0 (-4), W 0 1, W 0 5⟩, ⟨W 0 (-6), W 0 (-1), W 0 5⟩]) := by
    show Res.ok (closestEdgeG (sqrtF binary64) under (W 0 (-6)) (W 0 (-4)), _) = _
    rw [gap_edge]
  unfold distanceG2 gjkDistanceG2
  have f1 : firstDirectionG2 (toF binary64 eps64) (pointG2 (decF binary64 hitE) 0) (pointG2 (decF binary64 gapE) 0) = W 0 5 := by
    unfold firstDirectionG2
    dsimp only
    rw [e1, if_neg n1]
  dsimp only
  rw [f1, m1, Res.bind_ok, g5, m2, Res.bind_ok]
  unfold distanceLoopG2
  rw [k, Res.bind_ok]
  dsimp only
  rw [if_neg n2, g4, m3, Res.bind_ok]
  show (if (W 0 (-4)).dot (W 0 4) - (W 0 (-4)).dot (W 0 4) < toF binary64 tol then Res.ok (some (sqrtF binary64 ((W 0 4).dot (W 0 4)))) else _) = _
  rw [d1, d2, if_pos t, e3]

/-- The hypotheses of C126 can be met, and there is an answer: 4, with a tolerance of `2^-20`. -/
example : ∃ δ, toF binary64 4 = toF binary64 δ ∧ 0 < δ ∧
    (∃ p q, Image hitE.tr gapLine.prim.Points p ∧ Image gapE.tr (Flat2.particle : Flat2 ℝ).prim.Points q ∧ (p - q).norm ≤ δ + (2 : ℝ) ^ (-43 : ℤ) * 5) ∧
    ∀ p q, Image hitE.tr gapLine.prim.Points p → Image gapE.tr (Flat2.particle : Flat2 ℝ).prim.Points q → δ - ((2 : ℝ) ^ (-20 : ℤ) + (2 : ℝ) ^ (-37 : ℤ) * 5 ^ 2) / δ ≤ (p - q).norm := by
  have rt : Rep binary64 ((2 : ℝ) ^ (-20 : ℤ)) := rep_of_rep64 ⟨1, -20, by norm_num, by norm_num, by norm_num, by norm_num⟩
  have i5 := (small_repI (n := 5) (by norm_num)).rep
  have i1 := rm1.rep
  push_cast at i5 i1
  obtain ⟨o, ho, h⟩ := c126_f64 (M := 5) (s := gapLine) (t := .particle) (D := hitE) (G := gapE) (by norm_num) (by norm_num)
    ⟨⟨⟨rep_zero, i1⟩, ⟨by norm_num, by norm_num⟩⟩, ⟨⟨rep_zero, rep_one⟩, ⟨by norm_num, by norm_num⟩⟩⟩ trivial
    ⟨rfl, ⟨rep_one, rep_zero⟩, ⟨rep_zero, rep_one⟩, ⟨by norm_num [hitE], by norm_num [hitE]⟩, ⟨by norm_num [hitE], by norm_num [hitE]⟩, ⟨rep_zero, rep_zero⟩, ⟨by norm_num [hitE], by norm_num [hitE]⟩⟩
    ⟨rfl, ⟨rep_one, rep_zero⟩, ⟨rep_zero, rep_one⟩, ⟨by norm_num [gapE], by norm_num [gapE]⟩, ⟨by norm_num [gapE], by norm_num [gapE]⟩, ⟨rep_zero, i5⟩, ⟨by norm_num [gapE], by norm_num [gapE]⟩⟩
    trivial trivial rt (zpow2_pos _).le (under := fun _ _ => none) (by intro a b v h; cases h) 1
  rw [gap_run rt (zpow2_pos _)] at ho
  injection ho with ho
  obtain ⟨δ, -, e, δ0, h1, h2⟩ := h _ ho.symm
  exact ⟨δ, e, δ0, h1, h2⟩
end
end Verif.Scene
