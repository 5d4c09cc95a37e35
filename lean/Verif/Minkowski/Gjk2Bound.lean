import Verif.Minkowski.Shapes
import Mathlib.Analysis.SpecialFunctions.Trigonometric.Inverse
import Mathlib.Analysis.Real.Pi.Bounds
/-!
# How many iterations GJK needs in 2D (C91)

Seen from the origin the current edge of the simplex covers an angle. Every further iteration widens it by a fixed amount, which depends only on how deep the shapes overlap and how far
their points are from each other.
-/
namespace Verif.Minkowski
open Verif Geom Primitive
set_option linter.unusedSectionVars false
noncomputable section

/-- Moved by any vector of length at most `r`, the two shapes still share a point. -/
def Deep2 (L R : V2 ℝ → Prop) (r : ℝ) : Prop := ∀ t : V2 ℝ, t.norm ≤ r → ∃ x y, L x ∧ R y ∧ x - y = t
/-- No point of one shape is farther than `m` from a point of the other. -/
def Within2 (L R : V2 ℝ → Prop) (m : ℝ) : Prop := ∀ x y, L x → R y → (x - y).norm ≤ m

/-- The angle between two points, seen from the origin. -/
def arc (p q : V2 ℝ) : ℝ := Real.arccos (p.dot q / (p.norm * q.norm))

theorem mul_le_of_sq {a b s t : ℝ} (hs : 0 ≤ s) (ht : 0 ≤ t) (h : (a ≤ 0 ∧ 0 ≤ b) ∨ (0 ≤ b ∧ a * a * (s * s) ≤ b * b * (t * t)) ∨ (a ≤ 0 ∧ b * b * (t * t) ≤ a * a * (s * s))) : a * s ≤ b * t := by
  rcases h with ⟨h1, h2⟩ | ⟨h1, h2⟩ | ⟨h1, h2⟩
  · exact le_trans (mul_nonpos_of_nonpos_of_nonneg h1 hs) (mul_nonneg h2 ht)
  · exact abs_le_of_sq_le_sq' (by nlinarith) (mul_nonneg h1 ht) |>.2
  · have := abs_le_of_sq_le_sq' (a := b * t) (b := -(a * s)) (by nlinarith) (by nlinarith)
    linarith [this.1]

theorem ratio_mem {a h : ℝ} : -1 ≤ a / Real.sqrt (a * a + h * h) ∧ a / Real.sqrt (a * a + h * h) ≤ 1 := by
  have h0 : 0 ≤ a * a + h * h := by nlinarith [mul_self_nonneg a, mul_self_nonneg h]
  have h1 : |a| ≤ Real.sqrt (a * a + h * h) := Real.abs_le_sqrt (by nlinarith [mul_self_nonneg h])
  have := abs_div a (Real.sqrt (a * a + h * h))
  rw [abs_of_nonneg (Real.sqrt_nonneg _)] at this
  exact abs_le.1 (by rw [this]; exact div_le_one_of_le₀ h1 (Real.sqrt_nonneg _))

theorem sin_ratio {a h : ℝ} (hh : 0 ≤ h) (hp : 0 < a * a + h * h) : Real.sin (Real.arccos (a / Real.sqrt (a * a + h * h))) = h / Real.sqrt (a * a + h * h) := by
  rw [Real.sin_arccos]
  have hs : 0 < Real.sqrt (a * a + h * h) := Real.sqrt_pos.2 hp
  have hq : Real.sqrt (a * a + h * h) ^ 2 = a * a + h * h := Real.sq_sqrt hp.le
  rw [show 1 - (a / Real.sqrt (a * a + h * h)) ^ 2 = (h / Real.sqrt (a * a + h * h)) ^ 2 by
    rw [div_pow, div_pow, hq, eq_div_iff hp.ne', sub_mul, div_mul_cancel₀ _ hp.ne']; ring]
  exact Real.sqrt_sq (by positivity)

set_option maxHeartbeats 1000000 in
/-- The edge from `(a, -h)` to `(b, -h)`, replaced by the edge from `(a, -h)` to `(c, k)` with the origin beyond it. -/
theorem arc_step {a b c h k r m : ℝ} (hh : 0 ≤ h) (hr : 0 < r) (hk : r ≤ k) (hab : a < b) (hm : 0 ≤ m) (hc : c * c + k * k ≤ m * m) (hA : 0 < a * a + h * h) (hB : 0 < b * b + h * h)
    (hside : 0 ≤ c * h + k * a) :
    Real.arccos ((a * b + h * h) / (Real.sqrt (a * a + h * h) * Real.sqrt (b * b + h * h))) + Real.arcsin (r / m) ≤
      Real.arccos ((a * c - h * k) / (Real.sqrt (a * a + h * h) * Real.sqrt (c * c + k * k))) := by
  have hk0 : 0 < k := lt_of_lt_of_le hr hk
  have hC : 0 < c * c + k * k := by nlinarith [mul_self_nonneg c, mul_pos hk0 hk0]
  obtain ⟨sA, eA⟩ : ∃ s, s = Real.sqrt (a * a + h * h) := ⟨_, rfl⟩
  obtain ⟨sB, eB⟩ : ∃ s, s = Real.sqrt (b * b + h * h) := ⟨_, rfl⟩
  obtain ⟨sC, eC⟩ : ∃ s, s = Real.sqrt (c * c + k * k) := ⟨_, rfl⟩
  have pA : 0 < sA := eA ▸ Real.sqrt_pos.2 hA
  have pB : 0 < sB := eB ▸ Real.sqrt_pos.2 hB
  have pC : 0 < sC := eC ▸ Real.sqrt_pos.2 hC
  have qA : sA * sA = a * a + h * h := by rw [eA]; exact Real.mul_self_sqrt hA.le
  have qB : sB * sB = b * b + h * h := by rw [eB]; exact Real.mul_self_sqrt hB.le
  have qC : sC * sC = c * c + k * k := by rw [eC]; exact Real.mul_self_sqrt hC.le
  have rA := @ratio_mem a h
  have rB := @ratio_mem b h
  have rC := @ratio_mem c k
  have nA := sin_ratio hh hA
  have nB := sin_ratio hh hB
  have nC := sin_ratio hk0.le hC
  rw [← eA] at rA nA ⊢
  rw [← eB] at rB nB ⊢
  rw [← eC] at rC nC ⊢
  obtain ⟨x, ex⟩ : ∃ x, x = Real.arccos (a / sA) := ⟨_, rfl⟩
  obtain ⟨y, ey⟩ : ∃ y, y = Real.arccos (b / sB) := ⟨_, rfl⟩
  obtain ⟨z, ez⟩ : ∃ z, z = Real.arccos (c / sC) := ⟨_, rfl⟩
  have cx : Real.cos x = a / sA := by rw [ex]; exact Real.cos_arccos rA.1 rA.2
  have cy : Real.cos y = b / sB := by rw [ey]; exact Real.cos_arccos rB.1 rB.2
  have cz : Real.cos z = c / sC := by rw [ez]; exact Real.cos_arccos rC.1 rC.2
  rw [← ex] at nA
  rw [← ey] at nB
  rw [← ez] at nC
  have x0 : 0 ≤ x := ex ▸ Real.arccos_nonneg _
  have y0 : 0 ≤ y := ey ▸ Real.arccos_nonneg _
  have z0 : 0 ≤ z := ez ▸ Real.arccos_nonneg _
  have x1 : x ≤ Real.pi := ex ▸ Real.arccos_le_pi _
  have hxy : y ≤ x := by
    rw [ex, ey]
    apply Real.arccos_le_arccos
    rw [div_le_div_iff₀ pA pB]
    apply mul_le_of_sq pB.le pA.le
    rw [qA, qB]
    have hh2 := mul_self_nonneg h
    rcases le_total 0 a with ha | ha
    · exact Or.inr (Or.inl ⟨by linarith, by nlinarith [mul_nonneg hh2 (mul_nonneg (sub_nonneg.2 hab.le) (add_nonneg ha (ha.trans hab.le)))]⟩)
    · rcases le_total 0 b with hb | hb
      · exact Or.inl ⟨ha, hb⟩
      · exact Or.inr (Or.inr ⟨ha, by nlinarith [mul_nonneg hh2 (mul_nonneg (sub_nonneg.2 hab.le) (neg_nonneg.2 (add_nonpos ha hb)))]⟩)
  have hxz : x + z ≤ Real.pi := by
    have : x ≤ Real.pi - z := by
      rw [ex, ez, ← Real.arccos_neg]
      apply Real.arccos_le_arccos
      rw [← neg_div, div_le_div_iff₀ pC pA]
      apply mul_le_of_sq pA.le pC.le
      rw [qA, qC]
      rcases le_total 0 a with ha | ha
      · rcases le_total 0 c with hc0 | hc0
        · exact Or.inl ⟨by linarith, ha⟩
        · exact Or.inr (Or.inl ⟨ha, by
            have t := mul_self_le_mul_self (mul_nonneg (neg_nonneg.2 hc0) hh) (by linarith : -c * h ≤ k * a)
            linarith⟩)
      · have hca : 0 ≤ c := by
          by_contra hc0
          push Not at hc0
          have t1 : c * h ≤ 0 := mul_nonpos_of_nonpos_of_nonneg hc0.le hh
          have t2 : k * a ≤ 0 := mul_nonpos_of_nonneg_of_nonpos hk0.le ha
          have ha0 : a = 0 := (mul_eq_zero.1 (by linarith : k * a = 0)).resolve_left hk0.ne'
          have h0 : h = 0 := (mul_eq_zero.1 (by linarith : c * h = 0)).resolve_left hc0.ne
          rw [ha0, h0] at hA
          simp at hA
        exact Or.inr (Or.inr ⟨by linarith, by
          have t := mul_self_le_mul_self (mul_nonneg hk0.le (neg_nonneg.2 ha)) (by linarith : k * -a ≤ c * h)
          linarith⟩)
    linarith
  have hz : Real.arcsin (r / m) ≤ z := by
    have hm0 : 0 < m := lt_of_le_of_ne hm (by rintro rfl; linarith)
    have hrm : 0 ≤ r / m := by positivity
    rw [ez, Real.arcsin_eq_arccos hrm]
    apply Real.arccos_le_arccos
    apply Real.le_sqrt_of_sq_le
    rw [div_pow, div_pow, le_sub_iff_add_le, div_add_div _ _ (by positivity) (by positivity), div_le_one (by positivity)]
    have t : r * r ≤ k * k := mul_self_le_mul_self hr.le hk
    have t1 := mul_le_mul_of_nonneg_right hc (mul_self_nonneg r)
    have t2 := mul_le_mul_of_nonneg_right t (mul_self_nonneg m)
    have t3 : sC ^ 2 = c * c + k * k := by rw [pow_two, qC]
    rw [t3]
    linarith [t1, t2]
  have e1 : (a * b + h * h) / (sA * sB) = Real.cos (x - y) := by
    rw [Real.cos_sub, cx, cy, nA, nB]; field_simp
  have e2 : (a * c - h * k) / (sA * sC) = Real.cos (x + z) := by
    rw [Real.cos_add, cx, cz, nA, nC]; field_simp
  rw [e1, e2, Real.arccos_cos (by linarith) (by linarith), Real.arccos_cos (by linarith) hxz]
  linarith

/-- The same for points of the plane: `d` is normal to the edge from `p` to `q`, `w` passes the origin by `r` in that direction, and the origin is beyond the edge from `p` to `w`. -/
theorem arc_next {p q w d n : V2 ℝ} {r m : ℝ} (hd : d ≠ 0) (hne : p ≠ q) (hlev : p.dot d = q.dot d) (hpd : p.dot d ≤ 0) (hr : 0 < r) (hw : r * d.norm ≤ w.dot d) (hm : w.norm ≤ m)
    (hp : p ≠ 0) (hq : q ≠ 0) (hn : p.dot n = w.dot n) (hn0 : p.dot n ≤ 0) (hqn : q.dot n < p.dot n) : arc p q + Real.arcsin (r / m) ≤ arc p w := by
  have hdp : 0 < d.norm := by
    unfold V2.norm
    exact Real.sqrt_pos.2 (dot_self_pos2 hd)
  have hdd : d.norm * d.norm = d.x * d.x + d.y * d.y := by
    unfold V2.norm
    exact Real.mul_self_sqrt (dot_self_pos2 hd).le
  -- the frame
  obtain ⟨s, hs, hs1⟩ : ∃ s : ℝ, s * s = 1 ∧ s * (p.x * d.y - p.y * d.x) < s * (q.x * d.y - q.y * d.x) := by
    rcases lt_trichotomy (p.x * d.y - p.y * d.x) (q.x * d.y - q.y * d.x) with h | h | h
    · exact ⟨1, by norm_num, by linarith⟩
    · exfalso
      apply hne
      simp only [V2.dot] at hlev
      have hx : (p.x - q.x) * (d.norm * d.norm) = 0 := by rw [hdd]; linear_combination d.x * hlev + d.y * h
      have hy : (p.y - q.y) * (d.norm * d.norm) = 0 := by rw [hdd]; linear_combination d.y * hlev - d.x * h
      have hz := (mul_pos hdp hdp).ne'
      ext
      · exact sub_eq_zero.1 ((mul_eq_zero.1 hx).resolve_right hz)
      · exact sub_eq_zero.1 ((mul_eq_zero.1 hy).resolve_right hz)
    · exact ⟨-1, by norm_num, by linarith⟩
  have hdot : ∀ u v : V2 ℝ, u.dot v = (s * (u.x * d.y - u.y * d.x) / d.norm) * (s * (v.x * d.y - v.y * d.x) / d.norm) + (u.dot d / d.norm) * (v.dot d / d.norm) := by
    intro u v
    have h : ∀ A B C D : ℝ, s * A / d.norm * (s * B / d.norm) + C / d.norm * (D / d.norm) = (A * B * (s * s) + C * D) / (d.norm * d.norm) := by
      intro A B C D; field_simp
    rw [h, hs, eq_div_iff (mul_pos hdp hdp).ne', hdd]
    simp only [V2.dot]; ring
  have hnorm : ∀ u : V2 ℝ, u.norm = Real.sqrt ((s * (u.x * d.y - u.y * d.x) / d.norm) * (s * (u.x * d.y - u.y * d.x) / d.norm) + (-(u.dot d / d.norm)) * (-(u.dot d / d.norm))) := by
    intro u
    have h : u.norm = Real.sqrt (u.dot u) := rfl
    rw [h, hdot u u, neg_mul_neg]
  have hnorm' : ∀ u : V2 ℝ, u.norm = Real.sqrt ((s * (u.x * d.y - u.y * d.x) / d.norm) * (s * (u.x * d.y - u.y * d.x) / d.norm) + (u.dot d / d.norm) * (u.dot d / d.norm)) := by
    intro u
    rw [hnorm, neg_mul_neg]
  have hpos : ∀ u : V2 ℝ, u ≠ 0 → 0 < (s * (u.x * d.y - u.y * d.x) / d.norm) * (s * (u.x * d.y - u.y * d.x) / d.norm) + (-(u.dot d / d.norm)) * (-(u.dot d / d.norm)) := by
    intro u hu
    rw [neg_mul_neg, ← hdot]
    exact dot_self_pos2 hu
  have hwp : 0 ≤ w.norm := by unfold V2.norm; exact Real.sqrt_nonneg _
  have key := arc_step (a := s * (p.x * d.y - p.y * d.x) / d.norm) (b := s * (q.x * d.y - q.y * d.x) / d.norm) (c := s * (w.x * d.y - w.y * d.x) / d.norm) (h := -(p.dot d / d.norm))
    (k := w.dot d / d.norm) (r := r) (m := m) (by rw [neg_nonneg]; exact div_nonpos_of_nonpos_of_nonneg hpd hdp.le) hr (by rw [le_div_iff₀ hdp]; exact hw)
    (by rw [div_lt_div_iff_of_pos_right hdp]; exact hs1) (hwp.trans hm) (by
      rw [← hdot]
      have h1 : w.norm * w.norm = w.dot w := by
        unfold V2.norm
        exact Real.mul_self_sqrt (by simp only [V2.dot]; nlinarith [mul_self_nonneg w.x, mul_self_nonneg w.y])
      rw [← h1]
      exact mul_self_le_mul_self hwp hm) (hpos p hp) (by have := hpos q hq; rw [← hlev] at this; exact this) ?_
  · unfold arc
    rw [hdot p q, hdot p w, hnorm p, hnorm q, hnorm' w, ← hlev]
    refine le_trans (le_of_eq ?_) (le_trans key (le_of_eq ?_))
    · congr 3; ring
    · congr 2; ring
  · -- the origin is beyond the new edge
    have hcr : (s * (w.x * d.y - w.y * d.x)) * (-(p.dot d)) + w.dot d * (s * (p.x * d.y - p.y * d.x)) = s * (p.x * w.y - p.y * w.x) * (d.norm * d.norm) := by
      rw [hdd]; simp only [V2.dot]; ring
    have e : s * (w.x * d.y - w.y * d.x) / d.norm * -(p.dot d / d.norm) + w.dot d / d.norm * (s * (p.x * d.y - p.y * d.x) / d.norm) = s * (p.x * w.y - p.y * w.x) := by
      rw [← mul_right_cancel_iff_of_pos (mul_pos hdp hdp), ← hcr]; field_simp
    rw [e]
    -- `n` is normal to `w - p`
    by_contra hneg
    push Not at hneg
    have hwd : 0 < w.dot d := lt_of_lt_of_le (mul_pos hr hdp) hw
    have hu : 0 < w.dot d - p.dot d := by linarith
    have he : (w - p) ≠ 0 := by
      intro h
      have h1 := congrArg (fun v : V2 ℝ => v.dot d) h
      simp only [sub_dot2] at h1
      have : (0 : V2 ℝ).dot d = 0 := by simp [V2.dot]
      linarith
    have hee := dot_self_pos2 he
    obtain ⟨l, hl⟩ : ∃ l, l = n.x * (w.y - p.y) - n.y * (w.x - p.x) := ⟨_, rfl⟩
    have f1 : p.dot n * (w - p).dot (w - p) = l * (p.x * w.y - p.y * w.x) := by
      rw [hl]; simp only [V2.dot, V2.sub_x, V2.sub_y] at hn ⊢
      linear_combination (-(p.x * (w.x - p.x)) - p.y * (w.y - p.y)) * hn
    have f2 : (q.dot n - p.dot n) * ((w - p).dot (w - p)) * (d.norm * d.norm) = l * s * (s * (q.x * d.y - q.y * d.x) - s * (p.x * d.y - p.y * d.x)) * (w.dot d - p.dot d) := by
      have f3 : (q.dot n - p.dot n) * ((w - p).dot (w - p)) = l * ((q.x - p.x) * (w.y - p.y) - (q.y - p.y) * (w.x - p.x)) := by
        rw [hl]; simp only [V2.dot, V2.sub_x, V2.sub_y] at hn ⊢
        linear_combination (-((q.x - p.x) * (w.x - p.x)) - (q.y - p.y) * (w.y - p.y)) * hn
      have f4 : ((q.x - p.x) * (w.y - p.y) - (q.y - p.y) * (w.x - p.x)) * (d.norm * d.norm) = ((q.x * d.y - q.y * d.x) - (p.x * d.y - p.y * d.x)) * (w.dot d - p.dot d) := by
        rw [hdd]; simp only [V2.dot] at hlev ⊢
        linear_combination ((w.x - p.x) * d.y - (w.y - p.y) * d.x) * hlev
      rw [f3, mul_assoc, f4]
      linear_combination (-l * ((q.x * d.y - q.y * d.x) - (p.x * d.y - p.y * d.x)) * (w.dot d - p.dot d)) * hs
    have f5 : l * s * (s * (q.x * d.y - q.y * d.x) - s * (p.x * d.y - p.y * d.x)) * (w.dot d - p.dot d) < 0 := by
      rw [← f2]
      exact mul_neg_of_neg_of_pos (mul_neg_of_neg_of_pos (by linarith) hee) (mul_pos hdp hdp)
    have f6 : l * s < 0 := by
      by_contra h
      push Not at h
      have := mul_nonneg (mul_nonneg h (sub_nonneg.2 hs1.le)) hu.le
      linarith
    have f7 : l * (p.x * w.y - p.y * w.x) = (l * s) * (s * (p.x * w.y - p.y * w.x)) := by linear_combination (-l * (p.x * w.y - p.y * w.x)) * hs
    have f8 := mul_pos_of_neg_of_neg f6 hneg
    have f9 := mul_nonpos_of_nonpos_of_nonneg hn0 hee.le
    linarith

theorem norm_pos2 {d : V2 ℝ} (hd : d ≠ 0) : 0 < d.norm := Real.sqrt_pos.2 (dot_self_pos2 hd)

theorem deep_reach {L R : V2 ℝ → Prop} {r : ℝ} (hr : 0 < r) (h : Deep2 L R r) {d p : V2 ℝ} (hd : d ≠ 0) (hp : ∀ x, Mink2 L R x → x.dot d ≤ p.dot d) : r * d.norm ≤ p.dot d := by
  have hn := norm_pos2 hd
  have hdd : d.norm * d.norm = d.dot d := Real.mul_self_sqrt (dot_self_pos2 hd).le
  obtain ⟨x, y, hx, hy, e⟩ := h (d * (r / d.norm)) (by
    have h1 : (d * (r / d.norm)).dot (d * (r / d.norm)) = r * r := by
      have : (d * (r / d.norm)).dot (d * (r / d.norm)) = d.dot d * (r / d.norm) * (r / d.norm) := by simp only [V2.dot, V2.mul_x, V2.mul_y]; ring
      rw [this, ← hdd]; field_simp
    show Real.sqrt _ ≤ r
    rw [h1, Real.sqrt_mul_self hr.le])
  have h2 := hp (d * (r / d.norm)) ⟨x, y, hx, hy, e.symm⟩
  have h3 : (d * (r / d.norm)).dot d = r * d.norm := by
    have : (d * (r / d.norm)).dot d = d.dot d * (r / d.norm) := by simp only [V2.dot, V2.mul_x, V2.mul_y]; ring
    rw [this, ← hdd]; field_simp
  linarith

theorem deep_ext {L R : V2 ℝ → Prop} {r : ℝ} (hr : 0 < r) (h : Deep2 L R r) {p : V2 ℝ} (hp : Ext2 L R p) : p ≠ 0 := by
  rintro rfl
  obtain ⟨e, he, h1⟩ := hp
  have h2 := deep_reach hr h he h1
  have : (0 : V2 ℝ).dot e = 0 := by simp [V2.dot]
  have := mul_pos hr (norm_pos2 he)
  linarith

/-- The states of the loop with a bound on the iterations left: the angle still missing is covered by that many steps. -/
inductive AInv2 (L R : V2 ℝ → Prop) (θ : ℝ) (N : Nat) : Nat → List (SP (V2 ℝ)) → V2 ℝ → Prop
  | one {s0 d} : d ≠ 0 → FromShapes2 L R s0 → Ext2 L R s0.v → s0.v.dot d < 0 → AInv2 L R θ N (N + 1) [s0] d
  | edge {s0 s1 d} {k : Nat} : EdgeInv L R s0 s1 d → Real.pi < arc s0.v s1.v + k * θ → AInv2 L R θ N k [s0, s1] d

theorem arc_comm (p q : V2 ℝ) : arc p q = arc q p := by
  unfold arc
  rw [mul_comm]
  congr 2
  simp only [V2.dot]; ring

theorem astep {L R : V2 ℝ → Prop} {left right : V2 ℝ → Res (V2 ℝ)} (hl : SupportFn2 left L) (hr : SupportFn2 right R) {r m : ℝ} (hr0 : 0 < r) (hdeep : Deep2 L R r) (hm : Within2 L R m)
    {N : Nat} (hN : Real.pi < N * Real.arcsin (r / m)) (k : Nat) (s : List (SP (V2 ℝ))) (d : V2 ℝ) (h : AInv2 L R (Real.arcsin (r / m)) N k s d) :
    ∃ a, SP.fromMinkowski left right d = .ok a ∧ (0 < Inner.dot a.v d → (reduce2 (s ++ [a]) d).1 = false →
        ∃ k' < k, AInv2 L R (Real.arcsin (r / m)) N k' (reduce2 (s ++ [a]) d).2.1 (reduce2 (s ++ [a]) d).2.2) := by
  have hd : d ≠ 0 := by
    cases h with
    | one h => exact h
    | edge h => exact h.d_ne
  obtain ⟨a, ha, hf, hs⟩ := minkowski2 hl hr hd
  refine ⟨a, ha, fun hp hff => ?_⟩
  cases h with
  | one hd h0 he hn =>
    obtain ⟨e1, e2, e3⟩ := first_edge h0 he hd hn hf hs hp
    refine ⟨N, by omega, ?_⟩
    show AInv2 L R _ N _ (reduce2 [_, a] d).2.1 _
    rw [e2]
    refine .edge e3 ?_
    have := Real.arccos_nonneg
    unfold arc
    linarith [Real.arccos_nonneg ((‹SP (V2 ℝ)›).v.dot a.v / ((‹SP (V2 ℝ)›).v.norm * a.v.norm))]
  | @edge s0 s1 _ _ he hk =>
    obtain ⟨t0, t0', ht, e1, e2, e3⟩ := (edge_next he hf hs hp).2 hff
    have hw := deep_reach hr0 hdeep hd hs
    have ham : a.v.norm ≤ m := by
      rw [hf.2.2]; exact hm _ _ hf.1 hf.2.1
    have z0 := deep_ext hr0 hdeep he.ext0
    have z1 := deep_ext hr0 hdeep he.ext1
    have grow : arc s0.v s1.v + Real.arcsin (r / m) ≤ arc t0.v a.v := by
      rcases ht with ⟨rfl, rfl⟩ | ⟨rfl, rfl⟩
      · rw [arc_comm]
        exact arc_next hd (Ne.symm he.ne) he.level.symm (he.level ▸ he.origin) hr0 hw ham z1 z0 e2.level e2.origin e3
      · exact arc_next hd he.ne he.level he.origin hr0 hw ham z0 z1 e2.level e2.origin e3
    have hk1 : 1 ≤ k := by
      rcases Nat.eq_zero_or_pos k with rfl | h
      · have := Real.arccos_le_pi (s0.v.dot s1.v / (s0.v.norm * s1.v.norm))
        unfold arc at hk
        simp at hk
        linarith
      · exact h
    refine ⟨k - 1, by omega, ?_⟩
    show AInv2 L R _ N _ (reduce2 [s0, s1, a] d).2.1 _
    rw [e1]
    refine .edge e2 ?_
    rw [Nat.cast_sub hk1]
    push_cast
    linarith

/-- C91. Two convex shapes given by correct support functions that overlap so far that moving them by any vector of length at most `r` still leaves a common point, and no two points of which
are farther than `m` apart: GJK finds the collision if it may do two more iterations than it takes steps of `arcsin (r / m)` to make a half turn. -/
theorem c91_2d (L R : V2 ℝ → Prop) {left right : V2 ℝ → Res (V2 ℝ)} (hl : SupportFn2 left L) (hr : SupportFn2 right R) {r m : ℝ} (hr0 : 0 < r) (hdeep : Deep2 L R r) (hm : Within2 L R m)
    (N : Nat) (hN : Real.pi < N * Real.arcsin (r / m)) (maxIterations : Nat) (hn : N + 2 ≤ maxIterations) (leftPos rightPos : V2 ℝ) :
    ∃ s, gjkIntersect reduce2 maxIterations left right leftPos rightPos = .ok (some s) := by
  have hns : ¬ Separated2 L R := by
    rintro ⟨d, hd, h⟩
    have h1 := deep_reach hr0 hdeep (p := 0) hd (by
      rintro _ ⟨x, y, hx, hy, rfl⟩
      have := h x y hx hy
      rw [sub_dot2]
      have : (0 : V2 ℝ).dot d = 0 := by simp [V2.dot]
      linarith)
    have : (0 : V2 ℝ).dot d = 0 := by simp [V2.dot]
    have := mul_pos hr0 (norm_pos2 hd)
    linarith
  obtain ⟨o, h1, h2, h3⟩ := gjk2_run hl hr maxIterations leftPos rightPos
  have hne : o ≠ .exhausted := by
    rintro rfl
    rcases gjk2_start hl hr maxIterations leftPos rightPos with ⟨g1, _⟩ | ⟨a, g1, g2⟩
    · rw [g1] at h1; cases h1
    · rw [g1] at h1
      refine gjkLoop_total (AInv2 L R (Real.arcsin (r / m)) N) (astep hl hr hr0 hdeep hm hN) maxIterations (N + 1) _ _ ?_ (by omega) h1
      cases g2 with
      | one a b c d => exact .one a b c d
  cases o with
  | hit s => exact ⟨s, by simp [gjkIntersect, h1, Out.toOption]⟩
  | miss => exact absurd (h2 rfl) hns
  | exhausted => exact absurd rfl hne

/-- C91 with the 100 iterations of the library: an overlap of at least one 31st of the largest distance between points of the shapes is always found. -/
theorem c91_default_2d (L R : V2 ℝ → Prop) {left right : V2 ℝ → Res (V2 ℝ)} (hl : SupportFn2 left L) (hr : SupportFn2 right R) {r m : ℝ} (hr0 : 0 < r) (hdeep : Deep2 L R r) (hm : Within2 L R m)
    (hrm : m ≤ 31 * r) (leftPos rightPos : V2 ℝ) : ∃ s, gjkIntersect reduce2 100 left right leftPos rightPos = .ok (some s) := by
  refine c91_2d L R hl hr hr0 hdeep hm 98 ?_ 100 (by norm_num) leftPos rightPos
  obtain ⟨x, y, hx, hy, e⟩ := hdeep ⟨r, 0⟩ (by
    show Real.sqrt _ ≤ r
    simp only [V2.dot, mul_zero, add_zero]
    rw [Real.sqrt_mul_self hr0.le])
  have h1 := hm x y hx hy
  rw [e] at h1
  have h2 : (⟨r, 0⟩ : V2 ℝ).norm = r := by
    show Real.sqrt _ = r
    simp only [V2.dot, mul_zero, add_zero]
    rw [Real.sqrt_mul_self hr0.le]
  rw [h2] at h1
  have hm0 : 0 < m := lt_of_lt_of_le hr0 h1
  have h3 : (1 : ℝ) / 31 ≤ r / m := by
    rw [div_le_div_iff₀ (by norm_num) hm0]; linarith
  have h4 : r / m ≤ Real.arcsin (r / m) := by
    have h5 : r / m ≤ 1 := by rw [div_le_one hm0]; exact h1
    have h6 := Real.sin_arcsin (x := r / m) (by linarith) h5
    have h7 := Real.sin_le (Real.arcsin_nonneg.2 (by positivity : 0 ≤ r / m))
    linarith
  have := Real.pi_lt_d2
  push_cast
  linarith

/-- C91 for the primitives of the library, circles included. -/
theorem c91_prim2 (s t : Prim2) (hs : s.Ok) (ht : t.Ok) (D E : Dec2 ℝ) (hD : D.rot.Orthogonal) (hE : E.rot.Orthogonal) (hDs : D.scale ≠ 0) (hEs : E.scale ≠ 0) {r m : ℝ} (hr0 : 0 < r)
    (hdeep : Deep2 (Image D.tr s.Points) (Image E.tr t.Points) r) (hm : Within2 (Image D.tr s.Points) (Image E.tr t.Points) m) (hrm : m ≤ 31 * r) :
    ∃ x, gjkIntersect reduce2 100 (s.supportPoint D.tr) (t.supportPoint E.tr) (D.tr.point 0) (E.tr.point 0) = .ok (some x) :=
  c91_default_2d _ _ (prim2_support s hs D hD hDs) (prim2_support t ht E hE hEs) hr0 hdeep hm hrm _ _

/-- A circle and a square that meet the conditions: the unit circle and a square of side 2 whose side passes through its centre. -/
theorem c91_example : Deep2 (Image (at2 ⟨0, 0⟩).tr (Prim2.circle ⟨1⟩).Points) (Image (at2 ⟨1, 0⟩).tr (Prim2.square (Square.new 2)).Points) 1 ∧
    Within2 (Image (at2 ⟨0, 0⟩).tr (Prim2.circle ⟨1⟩).Points) (Image (at2 ⟨1, 0⟩).tr (Prim2.square (Square.new 2)).Points) 31 := by
  have pts : ∀ v : V2 ℝ, (Prim2.square (Square.new 2)).Points v ↔ (-1 ≤ v.x ∧ v.x ≤ 1) ∧ -1 ≤ v.y ∧ v.y ≤ 1 := by
    intro v
    have e : (Prim2.square (Square.new 2)).Points v = InRect 2 2 v := rfl
    rw [e]
    unfold InRect
    norm_num
  constructor
  · intro t ht
    refine ⟨t, 0, ⟨t, ht, ?_⟩, ⟨⟨-1, 0⟩, (pts _).2 (by norm_num), ?_⟩, ?_⟩
    · ext <;> simp [at2, Dec2.tr, M2.apply]
    · ext <;> simp [at2, Dec2.tr, M2.apply]
    · ext <;> simp
  · rintro _ _ ⟨⟨x, y⟩, hp, rfl⟩ ⟨⟨u, v⟩, hq, rfl⟩
    obtain ⟨⟨q1, q2⟩, q3, q4⟩ := (pts _).1 hq
    dsimp only at q1 q2 q3 q4
    have hp : (⟨x, y⟩ : V2 ℝ).norm ≤ 1 := hp
    have h1 : x * x + y * y ≤ 1 := by
      have := (Real.sqrt_le_left zero_le_one).1 hp
      simpa [V2.dot] using this
    show Real.sqrt _ ≤ 31
    rw [Real.sqrt_le_left (by norm_num)]
    simp only [V2.dot, at2, Dec2.tr, M2.apply, V2.sub_x, V2.sub_y, V2.add_x, V2.add_y, V2.mul_x, V2.mul_y]
    have hx := abs_le_of_sq_le_sq' (a := x) (b := 1) (by nlinarith [mul_self_nonneg y]) zero_le_one
    have hy := abs_le_of_sq_le_sq' (a := y) (b := 1) (by nlinarith [mul_self_nonneg x]) zero_le_one
    have e1 : (x - (u + 1)) * (x - (u + 1)) ≤ 9 := by nlinarith [hx.1, hx.2]
    have e2 : (y - v) * (y - v) ≤ 4 := by nlinarith [hy.1, hy.2]
    linarith
end
end Verif.Minkowski
