import Verif.Geom.RayBox
import Mathlib.Tactic.LinearCombination
import Mathlib.Tactic.Tauto
/-!
# Rays, points and segments: model of `src/ray.rs` and `src/line.rs`; C44, C45
-/
namespace Verif.Geom
set_option linter.unusedSectionVars false
variable {K : Type} [Field K] [LinearOrder K]

/-- `Ray2: Continuous<Line2>`, `src/line.rs:76-122` -/
def Ray2.intersectionLine (ray : Ray2 K) (line : Line2 K) : Option (V2 K) :=
  let p := ray.origin
  let q := line.origin
  let r := ray.direction
  let s : V2 K := ⟨line.dest.x - line.origin.x, line.dest.y - line.origin.y⟩
  let cross1 := r.perpDot s
  let qmp : V2 K := ⟨q.x - p.x, q.y - p.y⟩
  let cross2 := qmp.perpDot r
  if cross1 = 0 then
    if cross2 ≠ 0 then none
    else
      let q2mp : V2 K := ⟨line.dest.x - p.x, line.dest.y - p.y⟩
      let dot1 := qmp.dot r
      let dot2 := q2mp.dot r
      if (dot1 ≤ 0 ∧ 0 ≤ dot2) ∨ (0 ≤ dot1 ∧ dot2 ≤ 0) then some p
      else if 0 ≤ dot1 ∧ 0 ≤ dot2 then
        if dot1 ≤ dot2 then some q else some line.dest
      else none
  else
    let t := qmp.perpDot s / cross1
    let u := cross2 / cross1
    if 0 ≤ t ∧ 0 ≤ u ∧ u ≤ 1 then some ⟨p.x + t * r.x, p.y + t * r.y⟩ else none
/-- `Line2: Continuous<Ray2>`, `src/line.rs:68-70` -/
def Line2.intersectionRay (l : Line2 K) (ray : Ray2 K) : Option (V2 K) := ray.intersectionLine l
/-- `Line2: Discrete<Ray2>`, `src/line.rs:60-62` -/
def Line2.intersectsRay (l : Line2 K) (ray : Ray2 K) : Bool := (ray.intersectionLine l).isSome

/-- Point: `Discrete<Ray2>`, `src/ray.rs:94-104` (`relative_eq` as exact equality) -/
def V2.intersectsRay (p : V2 K) (ray : Ray2 K) : Bool :=
  let l := p - ray.origin
  let tca := l.dot ray.direction
  tca > 0 && tca * tca = l.dot l
/-- Point: `Discrete<Ray3>`, `src/ray.rs:94-104` -/
def V3.intersectsRay (p : V3 K) (ray : Ray3 K) : Bool :=
  let l := p - ray.origin
  let tca := l.dot ray.direction
  tca > 0 && tca * tca = l.dot l
/-- Point: `Continuous<Ray2>`, `src/ray.rs:79-85` -/
def V2.intersectionRay (p : V2 K) (ray : Ray2 K) : Option (V2 K) := if p.intersectsRay ray then some p else none
/-- Point: `Continuous<Ray3>`, `src/ray.rs:79-85` -/
def V3.intersectionRay (p : V3 K) (ray : Ray3 K) : Option (V3 K) := if p.intersectsRay ray then some p else none

/-- Specification: the point at parameter `u` of the segment. -/
def Line2.at (l : Line2 K) (u : K) : V2 K := l.origin + (l.dest - l.origin) * u
/-- Specification: the ray meets the closed segment at ray parameter `t`. -/
def Ray2.MeetsSeg (r : Ray2 K) (l : Line2 K) (t : K) : Prop := 0 ≤ t ∧ ∃ u, 0 ≤ u ∧ u ≤ 1 ∧ r.at t = l.at u

variable [IsStrictOrderedRing K]

theorem parallel_eq {a r : V2 K} (hr : 0 < r.dot r) (h : a.perpDot r = 0) : a = r * (a.dot r / r.dot r) := by
  simp only [V2.perpDot] at h
  have h1 : r.dot r ≠ 0 := hr.ne'
  ext <;> simp only [V2.mul_x, V2.mul_y] <;> field_simp <;> simp only [V2.dot]
  · linear_combination r.y * h
  · linear_combination -r.x * h

set_option maxHeartbeats 1000000 in
/-- C44: `None` exactly if the ray misses the closed segment; otherwise the result is the first point of the ray on the
segment (the only one unless they overlap). Degenerate segments included. -/
theorem c44_ray_segment (r : Ray2 K) (l : Line2 K) (hd : r.direction ≠ 0) :
    (r.intersectionLine l = none ↔ ¬ ∃ t, r.MeetsSeg l t) ∧
    (∀ p, r.intersectionLine l = some p → ∃ t, p = r.at t ∧ r.MeetsSeg l t ∧ ∀ u, r.MeetsSeg l u → t ≤ u) := by
  obtain ⟨⟨px, py⟩, ⟨rx, ry⟩⟩ := r
  obtain ⟨⟨qx, qy⟩, ⟨ex, ey⟩⟩ := l
  have hrr : 0 < rx * rx + ry * ry := by
    have : rx ≠ 0 ∨ ry ≠ 0 := by
      by_contra hc; push Not at hc; exact hd (by ext <;> simp [hc])
    rcases this with h | h
    · have := mul_self_pos.2 h; have := mul_self_nonneg ry; linarith
    · have := mul_self_pos.2 h; have := mul_self_nonneg rx; linarith
  have hmeets : ∀ t, (⟨⟨px, py⟩, ⟨rx, ry⟩⟩ : Ray2 K).MeetsSeg ⟨⟨qx, qy⟩, ⟨ex, ey⟩⟩ t ↔
      0 ≤ t ∧ ∃ u, 0 ≤ u ∧ u ≤ 1 ∧ px + rx * t = qx + (ex - qx) * u ∧ py + ry * t = qy + (ey - qy) * u := by
    intro t; simp [Ray2.MeetsSeg, Ray2.at, Line2.at, V2.ext_iff]
  simp only [hmeets]
  simp only [Ray2.intersectionLine, V2.perpDot, V2.dot, Ray2.at]
  by_cases h1 : rx * (ey - qy) - ry * (ex - qx) = 0
  · simp only [h1, if_true]
    by_cases h2 : (qx - px) * ry - (qy - py) * rx = 0
    · -- collinear
      simp only [h2, ne_eq, not_true, if_false]
      have hR : (⟨rx, ry⟩ : V2 K).dot ⟨rx, ry⟩ = rx * rx + ry * ry := rfl
      have hq := parallel_eq (a := ⟨qx - px, qy - py⟩) (r := ⟨rx, ry⟩) (by rw [hR]; exact hrr) h2
      have he := parallel_eq (a := ⟨ex - px, ey - py⟩) (r := ⟨rx, ry⟩) (by rw [hR]; exact hrr) (by
        show (ex - px) * ry - (ey - py) * rx = 0
        linear_combination h2 - h1)
      rw [hR] at hq he
      have e1 : (⟨qx - px, qy - py⟩ : V2 K).dot ⟨rx, ry⟩ = (qx - px) * rx + (qy - py) * ry := rfl
      have e2 : (⟨ex - px, ey - py⟩ : V2 K).dot ⟨rx, ry⟩ = (ex - px) * rx + (ey - py) * ry := rfl
      rw [e1] at hq; rw [e2] at he
      have ha : ∀ D : K, D = D / (rx * rx + ry * ry) * (rx * rx + ry * ry) := fun D => (div_mul_cancel₀ D hrr.ne').symm
      set A := ((qx - px) * rx + (qy - py) * ry) / (rx * rx + ry * ry) with hA
      set E := ((ex - px) * rx + (ey - py) * ry) / (rx * rx + ry * ry) with hE
      have d1 : (qx - px) * rx + (qy - py) * ry = A * (rx * rx + ry * ry) := ha _
      have d2 : (ex - px) * rx + (ey - py) * ry = E * (rx * rx + ry * ry) := ha _
      have hqx : qx = px + rx * A := by have := congrArg V2.x hq; simp at this; linarith
      have hqy : qy = py + ry * A := by have := congrArg V2.y hq; simp at this; linarith
      have hex : ex = px + rx * E := by have := congrArg V2.x he; simp at this; linarith
      have hey : ey = py + ry * E := by have := congrArg V2.y he; simp at this; linarith
      simp only [d1, d2]
      clear_value A E
      subst hqx hqy hex hey
      have s1 : A * (rx * rx + ry * ry) ≤ 0 ↔ A ≤ 0 := by
        constructor
        · intro h; by_contra hc; push Not at hc; nlinarith [mul_pos hc hrr]
        · intro h; nlinarith
      have s2 : 0 ≤ A * (rx * rx + ry * ry) ↔ 0 ≤ A := by
        constructor
        · intro h; by_contra hc; push Not at hc; nlinarith [mul_pos (neg_pos.2 hc) hrr]
        · intro h; positivity
      have s3 : E * (rx * rx + ry * ry) ≤ 0 ↔ E ≤ 0 := by
        constructor
        · intro h; by_contra hc; push Not at hc; nlinarith [mul_pos hc hrr]
        · intro h; nlinarith
      have s4 : 0 ≤ E * (rx * rx + ry * ry) ↔ 0 ≤ E := by
        constructor
        · intro h; by_contra hc; push Not at hc; nlinarith [mul_pos (neg_pos.2 hc) hrr]
        · intro h; positivity
      have s5 : A * (rx * rx + ry * ry) ≤ E * (rx * rx + ry * ry) ↔ A ≤ E := mul_le_mul_iff_left₀ hrr
      have hm : ∀ t u : K, (px + rx * t = px + rx * A + (px + rx * E - (px + rx * A)) * u ∧
          py + ry * t = py + ry * A + (py + ry * E - (py + ry * A)) * u) ↔ t = A + (E - A) * u := by
        intro t u
        constructor
        · rintro ⟨x, y⟩
          have : (t - (A + (E - A) * u)) * (rx * rx + ry * ry) = 0 := by linear_combination rx * x + ry * y
          rcases mul_eq_zero.1 this with h | h
          · linarith
          · exact absurd h hrr.ne'
        · rintro rfl; constructor <;> ring
      have hm' : ∀ t, (∃ u, 0 ≤ u ∧ u ≤ 1 ∧ px + rx * t = px + rx * A + (px + rx * E - (px + rx * A)) * u ∧
          py + ry * t = py + ry * A + (py + ry * E - (py + ry * A)) * u) ↔ (A ≤ t ∧ t ≤ E) ∨ (E ≤ t ∧ t ≤ A) := by
        intro t
        simp only [hm]
        constructor
        · rintro ⟨u, u0, u1, rfl⟩
          rcases le_total A E with h | h
          · left; constructor <;> nlinarith
          · right; constructor <;> nlinarith
        · rintro (⟨x, y⟩ | ⟨x, y⟩)
          · obtain ⟨s, s0, s1, hs⟩ := exists_param x y
            exact ⟨s, s0, s1, by linarith⟩
          · obtain ⟨s, s0, s1, hs⟩ := exists_param x y
            exact ⟨1 - s, by linarith, by linarith, by rw [hs]; ring⟩
      simp only [hm', s1, s2, s3, s4, s5]
      by_cases c1 : (A ≤ 0 ∧ 0 ≤ E) ∨ (0 ≤ A ∧ E ≤ 0)
      · simp only [c1, if_true]
        have c1' : (A ≤ 0 ∧ 0 ≤ E) ∨ (E ≤ 0 ∧ 0 ≤ A) := c1.imp id And.symm
        refine ⟨⟨by simp, fun h => absurd ⟨0, le_rfl, c1'⟩ h⟩, ?_⟩
        · intro p hp
          simp only [Option.some.injEq] at hp
          refine ⟨0, by rw [← hp]; ext <;> simp, ⟨le_rfl, c1'⟩, fun u h => h.1⟩
      · simp only [c1, if_false]
        by_cases c2 : 0 ≤ A ∧ 0 ≤ E
        · simp only [c2, and_self, if_true]
          obtain ⟨c3, c4⟩ := c2
          by_cases c5 : A ≤ E
          · simp only [c5, if_true]
            refine ⟨⟨by simp, fun h => absurd ⟨A, c3, Or.inl ⟨le_rfl, c5⟩⟩ h⟩, ?_⟩
            intro p hp
            simp only [Option.some.injEq] at hp
            refine ⟨A, by rw [← hp]; ext <;> simp, ⟨c3, Or.inl ⟨le_rfl, c5⟩⟩, ?_⟩
            rintro u ⟨-, h | h⟩
            · exact h.1
            · exact c5.trans h.1
          · simp only [c5, if_false]
            push Not at c5
            refine ⟨⟨by simp, fun h => absurd ⟨E, c4, Or.inr ⟨le_rfl, c5.le⟩⟩ h⟩, ?_⟩
            intro p hp
            simp only [Option.some.injEq] at hp
            refine ⟨E, by rw [← hp]; ext <;> simp, ⟨c4, Or.inr ⟨le_rfl, c5.le⟩⟩, ?_⟩
            rintro u ⟨-, h | h⟩
            · exact c5.le.trans h.1
            · exact h.1
        · simp only [c2, if_false]
          refine ⟨⟨fun _ => ?_, fun _ => trivial⟩, by simp⟩
          rintro ⟨t, t0, h⟩
          apply c1
          by_contra
          apply c2
          have : ¬ (A ≤ 0 ∧ 0 ≤ E) := fun h => c1 (Or.inl h)
          have : ¬ (0 ≤ A ∧ E ≤ 0) := fun h => c1 (Or.inr h)
          rcases h with h | h
          · have hE : 0 ≤ E := t0.trans h.2
            refine ⟨?_, hE⟩
            by_contra hn; push Not at hn; exact c1 (Or.inl ⟨hn.le, hE⟩)
          · have hA' : 0 ≤ A := t0.trans h.2
            refine ⟨hA', ?_⟩
            by_contra hn; push Not at hn; exact c1 (Or.inr ⟨hA', hn.le⟩)
    · simp only [ne_eq, h2, not_false_iff, if_true]
      refine ⟨⟨fun _ => ?_, fun _ => trivial⟩, by simp⟩
      rintro ⟨t, t0, u, u0, u1, x, y⟩
      apply h2
      linear_combination (-ry) * x + rx * y + u * h1
  · simp only [h1, if_false]
    obtain ⟨C, hC⟩ : ∃ C, rx * (ey - qy) - ry * (ex - qx) = C := ⟨_, rfl⟩
    simp only [hC] at h1 ⊢
    have hm : ∀ t u : K, (px + rx * t = qx + (ex - qx) * u ∧ py + ry * t = qy + (ey - qy) * u) ↔
        t = ((qx - px) * (ey - qy) - (qy - py) * (ex - qx)) / C ∧ u = ((qx - px) * ry - (qy - py) * rx) / C := by
      intro t u
      rw [eq_div_iff h1, eq_div_iff h1, ← hC]
      rw [← hC] at h1
      constructor
      · rintro ⟨x, y⟩
        constructor
        · linear_combination (ey - qy) * x - (ex - qx) * y
        · linear_combination ry * x - rx * y
      · rintro ⟨x, y⟩
        constructor
        · apply mul_left_cancel₀ h1
          linear_combination rx * x - (ex - qx) * y
        · apply mul_left_cancel₀ h1
          linear_combination ry * x - (ey - qy) * y
    have hm' : ∀ t, (∃ u, 0 ≤ u ∧ u ≤ 1 ∧ px + rx * t = qx + (ex - qx) * u ∧ py + ry * t = qy + (ey - qy) * u) ↔
        t = ((qx - px) * (ey - qy) - (qy - py) * (ex - qx)) / C ∧
        0 ≤ ((qx - px) * ry - (qy - py) * rx) / C ∧ ((qx - px) * ry - (qy - py) * rx) / C ≤ 1 := by
      intro t
      simp only [hm]
      constructor
      · rintro ⟨u, u0, u1, h, rfl⟩; exact ⟨h, u0, u1⟩
      · rintro ⟨h, u0, u1⟩; exact ⟨_, u0, u1, h, rfl⟩
    simp only [hm']
    generalize ((qx - px) * (ey - qy) - (qy - py) * (ex - qx)) / C = T
    generalize ((qx - px) * ry - (qy - py) * rx) / C = U
    by_cases c : 0 ≤ T ∧ 0 ≤ U ∧ U ≤ 1
    · rw [if_pos c]
      refine ⟨⟨by simp, fun h => absurd ⟨T, c.1, rfl, c.2⟩ h⟩, ?_⟩
      intro p hp
      simp only [Option.some.injEq] at hp
      refine ⟨T, ?_, ⟨c.1, rfl, c.2⟩, fun u h => h.2.1.ge⟩
      rw [← hp]; ext <;> simp <;> ring
    · simp only [c, if_false]
      refine ⟨⟨fun _ => ?_, fun _ => trivial⟩, by simp⟩
      rintro ⟨t, t0, rfl, h⟩
      exact c ⟨t0, h⟩

/-- C32 for segments. -/
theorem c32_segment (r : Ray2 K) (l : Line2 K) : l.intersectsRay r = (l.intersectionRay r).isSome := rfl

/-- A ray crossing a segment, one touching its end, and a collinear one. -/
example : (⟨⟨0, 0⟩, ⟨1, 1⟩⟩ : Ray2 ℚ).intersectionLine ⟨⟨0, 2⟩, ⟨2, 0⟩⟩ = some ⟨1, 1⟩ ∧
    (⟨⟨0, 0⟩, ⟨1, 0⟩⟩ : Ray2 ℚ).intersectionLine ⟨⟨3, 0⟩, ⟨3, 1⟩⟩ = some ⟨3, 0⟩ ∧
    (⟨⟨0, 0⟩, ⟨1, 0⟩⟩ : Ray2 ℚ).intersectionLine ⟨⟨5, 0⟩, ⟨3, 0⟩⟩ = some ⟨3, 0⟩ := by decide +kernel

/-! ## C45 -/

/-- C45 (2D): for a unit direction, a point meets the ray exactly if it is strictly ahead of the origin on the ray. -/
theorem c45_point_ray2 (p : V2 K) (r : Ray2 K) (hd : r.direction.dot r.direction = 1) :
    (p.intersectsRay r = true ↔ ∃ t, 0 < t ∧ p = r.at t) ∧
    (p.intersectionRay r = if p.intersectsRay r then some p else none) := by
  refine ⟨?_, rfl⟩
  simp only [V2.intersectsRay, Bool.and_eq_true, decide_eq_true_eq]
  constructor
  · rintro ⟨h1, h2⟩
    refine ⟨(p - r.origin).dot r.direction, h1, ?_⟩
    generalize hT : (p - r.origin).dot r.direction = T at h1 h2
    have : (p.x - r.origin.x - r.direction.x * T) * (p.x - r.origin.x - r.direction.x * T) +
        (p.y - r.origin.y - r.direction.y * T) * (p.y - r.origin.y - r.direction.y * T) = 0 := by
      simp only [V2.dot, V2.sub_x, V2.sub_y] at hT hd h2
      linear_combination -h2 + T * T * hd - 2 * T * hT
    have hx := mul_self_nonneg (p.x - r.origin.x - r.direction.x * T)
    have hy := mul_self_nonneg (p.y - r.origin.y - r.direction.y * T)
    have ex := mul_self_eq_zero.1 (le_antisymm (by linarith) hx)
    have ey := mul_self_eq_zero.1 (le_antisymm (by linarith) hy)
    ext <;> simp [Ray2.at] <;> linarith
  · rintro ⟨t, t0, rfl⟩
    have e1 : (r.at t - r.origin).dot r.direction = t := by
      simp only [V2.dot, Ray2.at, V2.sub_x, V2.sub_y, V2.add_x, V2.add_y, V2.mul_x, V2.mul_y] at *
      linear_combination t * hd
    rw [e1]
    refine ⟨t0, ?_⟩
    simp only [V2.dot, Ray2.at, V2.sub_x, V2.sub_y, V2.add_x, V2.add_y, V2.mul_x, V2.mul_y] at *
    linear_combination -t * t * hd

/-- C45 (3D) -/
theorem c45_point_ray3 (p : V3 K) (r : Ray3 K) (hd : r.direction.dot r.direction = 1) :
    (p.intersectsRay r = true ↔ ∃ t, 0 < t ∧ p = r.at t) ∧
    (p.intersectionRay r = if p.intersectsRay r then some p else none) := by
  refine ⟨?_, rfl⟩
  simp only [V3.intersectsRay, Bool.and_eq_true, decide_eq_true_eq]
  constructor
  · rintro ⟨h1, h2⟩
    refine ⟨(p - r.origin).dot r.direction, h1, ?_⟩
    generalize hT : (p - r.origin).dot r.direction = T at h1 h2
    have : (p.x - r.origin.x - r.direction.x * T) * (p.x - r.origin.x - r.direction.x * T) +
        (p.y - r.origin.y - r.direction.y * T) * (p.y - r.origin.y - r.direction.y * T) +
        (p.z - r.origin.z - r.direction.z * T) * (p.z - r.origin.z - r.direction.z * T) = 0 := by
      simp only [V3.dot, V3.sub_x, V3.sub_y, V3.sub_z] at hT hd h2
      linear_combination -h2 + T * T * hd - 2 * T * hT
    have hx := mul_self_nonneg (p.x - r.origin.x - r.direction.x * T)
    have hy := mul_self_nonneg (p.y - r.origin.y - r.direction.y * T)
    have hz := mul_self_nonneg (p.z - r.origin.z - r.direction.z * T)
    have ex := mul_self_eq_zero.1 (le_antisymm (by linarith) hx)
    have ey := mul_self_eq_zero.1 (le_antisymm (by linarith) hy)
    have ez := mul_self_eq_zero.1 (le_antisymm (by linarith) hz)
    ext <;> simp [Ray3.at] <;> linarith
  · rintro ⟨t, t0, rfl⟩
    have e1 : (r.at t - r.origin).dot r.direction = t := by
      simp only [V3.dot, Ray3.at, V3.sub_x, V3.sub_y, V3.sub_z, V3.add_x, V3.add_y, V3.add_z, V3.mul_x, V3.mul_y, V3.mul_z] at *
      linear_combination t * hd
    rw [e1]
    refine ⟨t0, ?_⟩
    simp only [V3.dot, Ray3.at, V3.sub_x, V3.sub_y, V3.sub_z, V3.add_x, V3.add_y, V3.add_z, V3.mul_x, V3.mul_y, V3.mul_z] at *
    linear_combination -t * t * hd

/-- A point on a diagonal (3-4-5) ray. -/
example : (⟨7, 9⟩ : V2 ℚ).intersectsRay ⟨⟨1, 1⟩, ⟨3 / 5, 4 / 5⟩⟩ = true ∧ (⟨3 / 5, 4 / 5⟩ : V2 ℚ).dot ⟨3 / 5, 4 / 5⟩ = 1 := by
  decide +kernel

end Verif.Geom
