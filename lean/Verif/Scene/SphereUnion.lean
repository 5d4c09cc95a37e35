import Verif.Scene.SphereErr
/-!
# Bounding spheres in rounded arithmetic (C119): `union` encloses both arguments up to rounding
-/
namespace Verif.Scene
open Verif Geom Primitive Minkowski
open Verif.Dbvt (Rounding SphereF subF mag2F)
set_option linter.unusedSectionVars false
noncomputable section
open Classical
variable {F : Type} [LinearOrder F] {R : Rounding F} {u η Ω N C P : ℝ}

/-- A sphere with real coordinates. -/
structure RSphere where
  center : V3 ℝ
  radius : ℝ
variable (R) in
/-- The sphere in the number format. -/
def toS (s : RSphere) : SphereF F := ⟨toV3 R s.center, toF R s.radius⟩
variable (R) in
/-- Its numbers are numbers of the format. -/
def RpS (s : RSphere) : Prop := Rep3 R s.center ∧ Rep R s.radius
/-- Coordinates up to `C`, radius from 0 to `P`. -/
def InS (C P : ℝ) (s : RSphere) : Prop := Sz3 C s.center ∧ 0 ≤ s.radius ∧ s.radius ≤ P
/-- `s` lies inside of `t` up to `e`: in `t` with its radius increased by `e`. -/
def Inside (e : ℝ) (s t : RSphere) : Prop := (s.center - t.center).norm + s.radius ≤ t.radius + e

theorem InS.mono {C' P' : ℝ} {s : RSphere} (h : InS C P s) (hC : C ≤ C') (hP : P ≤ P') : InS C' P' s :=
  ⟨⟨h.1.1.trans hC, h.1.2.1.trans hC, h.1.2.2.trans hC⟩, h.2.1, h.2.2.trans hP⟩
theorem Inside.mono {e e' : ℝ} {s t : RSphere} (h : Inside e s t) (he : e ≤ e') : Inside e' s t := by
  unfold Inside at *
  linarith
theorem Inside.trans {e e' : ℝ} {s t v : RSphere} (h : Inside e s t) (h' : Inside e' t v) : Inside (e + e') s v := by
  unfold Inside at *
  have := V3.norm_tri s.center t.center v.center
  linarith

theorem contains_iff {s o : RSphere} : SphereF.contains R (toS R s) (toS R o) = true ↔
    R.add (R.sqrt (mag2F R (subF R (toV3 R o.center) (toV3 R s.center)))) (toF R o.radius) ≤ toF R s.radius := by
  unfold SphereF.contains
  exact decide_eq_true_iff
/-- What the rounded test `contains` says. -/
theorem contains_err (h : TreeStd R u η Ω N) {s o : RSphere} (rs : RpS R s) (ro : RpS R o) (hs : InS N N s) (ho : InS N N o) :
    (SphereF.contains R (toS R s) (toS R o) = true → Inside (60 * (u * N)) o s) ∧
      (SphereF.contains R (toS R s) (toS R o) = false → s.radius ≤ (o.center - s.center).norm + o.radius + 60 * (u * N)) := by
  obtain ⟨e0, eη, eηη, hη, hu⟩ := h.eps
  have hN := h.N0
  have uN : u * N ≤ 1 / 4096 * N := mul_le_mul_of_nonneg_right h.u' hN.le
  obtain ⟨v, n, rv, rn, ev, en, -, n0, dn, -, -⟩ := dist_err h ro.1 rs.1 ho.1 hs.1
  have hL := norm_diff_le ho.1 hs.1
  have dn' := abs_le.1 dn
  have hor := ho.2
  obtain ⟨t, rt, et, dt⟩ := h.std.fl (x := n + o.radius) (X := 6 * N) (by rw [abs_of_nonneg (by linarith)]; linarith) (by linarith [h.high'])
  have dt' := abs_le.1 dt
  have e : SphereF.contains R (toS R s) (toS R o) = true ↔ t ≤ s.radius := by
    rw [contains_iff, ev, en, radd rn ro.2, et]
    exact toF_le rt rs.2
  constructor
  · intro hc
    have := e.1 hc
    unfold Inside
    linarith
  · intro hc
    have : ¬ t ≤ s.radius := fun hle => by
      rw [e.2 hle] at hc
      cases hc
    linarith

/-- One coordinate of the centre of the union. -/
theorem shift_err (h : TreeStd R u η Ω N) {a x k n : ℝ} (ra : Rep R a) (rx : Rep R x) (rk : Rep R k) (rn : Rep R n) (ha : |a| ≤ N) (n0 : 0 < n) (hn : n ≤ 5 * N) (hx : |x| ≤ 2 * n) (hη : η ≤ u * N * n) (hk : |k| ≤ 3 * N) :
    ∃ c, Rep R c ∧ R.add (toF R a) (R.div (R.mul (toF R x) (toF R k)) (toF R n)) = toF R c ∧ |c - (a + x * k / n)| ≤ 25 * (u * N) := by
  obtain ⟨e0, eη, -, hη0, hu⟩ := h.eps
  have hN := h.N0
  have uN : u * N ≤ 1 / 4096 * N := mul_le_mul_of_nonneg_right h.u' hN.le
  have hxk : |x * k| ≤ 6 * (n * N) := by
    have := mul_abs_le hx hk
    linarith
  have hnN : n * N ≤ 5 * N * N := mul_le_mul_of_nonneg_right hn hN.le
  obtain ⟨m, rm, em, dm⟩ := h.std.fl hxk (by nlinarith [h.high])
  have d1 : |m / n - x * k / n| ≤ 7 * (u * N) := by
    rw [← sub_div, abs_div, abs_of_pos n0, div_le_iff₀ n0]
    have : 7 * (u * N) * n = u * (6 * (n * N)) + u * N * n := by ring
    linarith
  have d2 : |x * k / n| ≤ 6 * N := by
    rw [abs_div, abs_of_pos n0, div_le_iff₀ n0]
    linarith
  have d1' := abs_le.1 d1
  have d2' := abs_le.1 d2
  obtain ⟨g, rg, eg, dg⟩ := h.std.fl (x := m / n) (X := 7 * N) (by rw [abs_le]; constructor <;> linarith) (by linarith [h.high'])
  have dg' := abs_le.1 dg
  have ha' := abs_le.1 ha
  obtain ⟨c, rc, ec, dc⟩ := h.std.fl (x := a + g) (X := 9 * N) (by rw [abs_le]; constructor <;> linarith) (by linarith [h.high'])
  have dc' := abs_le.1 dc
  refine ⟨c, rc, by rw [rmul rx rk, em, rdiv rm rn, eg, radd ra rg, ec], ?_⟩
  rw [abs_le]
  constructor <;> linarith

/-- The rounded direction times the rounded length, against the exact ones. -/
theorem ratio_err (h : TreeStd R u η Ω N) {x d n L k k' : ℝ} (hxd : |x - d| ≤ u * |d| + η) (hd : |d| ≤ L) (n0 : 0 < n) (hx : |x| ≤ 2 * n) (hk : |k| ≤ 3 * N) (hkk : |k - k'| ≤ 41 * (u * N)) (hk' : |k'| ≤ L + 30 * (u * N))
    (hn : 21 * η ≤ u * (L * L) → |n - L| ≤ 16 * (u * L)) : |x * k / n - d * (k' / L)| ≤ 175 * (u * N) := by
  obtain ⟨e0, eη, -, hη0, hu⟩ := h.eps
  have L0 : 0 ≤ L := (abs_nonneg _).trans hd
  have hdL : |d / L| ≤ 1 := by
    rw [abs_div, abs_of_nonneg L0]
    exact div_le_one_of_le₀ hd L0
  rcases le_or_gt (21 * η) (u * (L * L)) with h1 | h1
  · have hn := hn h1
    have Lp : 0 < L := by
      rcases L0.eq_or_lt with h2 | h2
      · rw [← h2, mul_zero, mul_zero, sub_zero] at hn
        rw [abs_of_pos n0] at hn
        linarith
      · exact h2
    have uL : u * L ≤ 1 / 4096 * L := mul_le_mul_of_nonneg_right h.u' L0
    have hn' := abs_le.1 hn
    have ηL : η ≤ u * L := by
      rcases le_total L 1 with h1 | h1
      · have h2 : u * (L * L) ≤ u * L := by
          have := mul_le_mul_of_nonneg_left (mul_le_mul_of_nonneg_right h1 L0) hu
          linarith
        linarith
      · have := mul_le_mul_of_nonneg_left h1 hu
        have := h.ηu
        linarith
    have ud : u * |d| ≤ u * L := mul_le_mul_of_nonneg_left hd hu
    have h2 : |x / n - d / L| ≤ 19 * u := by
      have e : x / n - d / L = ((x - d) * L + d * (L - n)) / (n * L) := by
        field_simp
        ring
      rw [e, abs_div, abs_of_pos (mul_pos n0 Lp), div_le_iff₀ (mul_pos n0 Lp)]
      have h3 : |(x - d) * L| ≤ (2 * (u * L)) * L := by
        rw [abs_mul, abs_of_pos Lp]
        exact mul_le_mul_of_nonneg_right (by linarith) L0
      have h4 : |d * (L - n)| ≤ L * (16 * (u * L)) := by
        rw [abs_mul, abs_sub_comm]
        exact mul_le_mul hd hn (abs_nonneg _) L0
      have h5 := abs_add_le ((x - d) * L) (d * (L - n))
      have h6 : 18 * (u * L) * L ≤ 19 * u * (n * L) := by
        have h7 : 18 / 19 * L ≤ n := by linarith
        have h8 := mul_le_mul_of_nonneg_left h7 (show 0 ≤ 19 * (u * L) by positivity)
        linarith
      linarith
    have e : x * k / n - d * (k' / L) = (x / n - d / L) * k + d / L * (k - k') := by
      field_simp
      ring
    rw [e]
    have h3 := abs_add_le ((x / n - d / L) * k) (d / L * (k - k'))
    have h4 := mul_abs_le h2 hk
    have h5 := mul_abs_le hdL hkk
    linarith
  · have hLe : L ≤ u * N := by
      by_contra hcon
      push Not at hcon
      have h2 := mul_self_le_mul_self e0 hcon.le
      have := mul_le_mul_of_nonneg_left h2 hu
      linarith [h.low]
    have h2 : |x * k / n| ≤ 2 * |k| := by
      rw [abs_div, abs_of_pos n0, div_le_iff₀ n0, abs_mul]
      have := mul_le_mul_of_nonneg_right hx (abs_nonneg k)
      linarith
    have h3 : |d * (k' / L)| ≤ 1 * |k'| := by
      rw [show d * (k' / L) = d / L * k' by ring, abs_mul]
      exact mul_le_mul_of_nonneg_right hdL (abs_nonneg _)
    have h4 : |k| ≤ |k - k'| + |k'| := by
      have := abs_add_le (k - k') k'
      rwa [sub_add_cancel] at this
    have := abs_sub (x * k / n) (d * (k' / L))
    linarith

/-- One coordinate of a point between two others. -/
theorem between_le {a b L k e : ℝ} (ha : |a| ≤ C) (hb : |b| ≤ C) (hd : |b - a| ≤ L) (he : 0 ≤ e) (h1 : -e ≤ k) (h2 : k ≤ L + e) : |a + (b - a) * (k / L)| ≤ C + e := by
  have L0 : 0 ≤ L := (abs_nonneg _).trans hd
  have hdL : |(b - a) / L| ≤ 1 := by
    rw [abs_div, abs_of_nonneg L0]
    exact div_le_one_of_le₀ hd L0
  rcases L0.eq_or_lt with h | Lp
  · rw [← h, div_zero, mul_zero, add_zero]
    linarith
  · rcases le_or_gt k 0 with h3 | h3
    · have e1 : a + (b - a) * (k / L) = a + (b - a) / L * k := by ring
      rw [e1]
      have h4 := mul_abs_le hdL (show |k| ≤ e by rw [abs_of_nonpos h3]; linarith)
      have h5 := abs_add_le a ((b - a) / L * k)
      linarith
    · rcases le_or_gt L k with h4 | h4
      · have e1 : a + (b - a) * (k / L) = b + (b - a) / L * (k - L) := by
          field_simp
          ring
        rw [e1]
        have h5 := mul_abs_le hdL (show |k - L| ≤ e by rw [abs_of_nonneg (by linarith)]; linarith)
        have h6 := abs_add_le b ((b - a) / L * (k - L))
        linarith
      · have t0 : 0 ≤ k / L := by positivity
        have t1 : k / L ≤ 1 := div_le_one_of_le₀ h4.le L0
        set t := k / L
        rw [abs_le] at ha hb ⊢
        have e1 : a + (b - a) * t = (1 - t) * a + t * b := by ring
        rw [e1]
        have h5 := mul_le_mul_of_nonneg_left ha.1 (show 0 ≤ 1 - t by linarith)
        have h6 := mul_le_mul_of_nonneg_left ha.2 (show 0 ≤ 1 - t by linarith)
        have h7 := mul_le_mul_of_nonneg_left hb.1 t0
        have h8 := mul_le_mul_of_nonneg_left hb.2 t0
        constructor <;> linarith

theorem norm_le_two {v : V3 ℝ} {e : ℝ} (h : Sz3 e v) : v.norm ≤ 2 * e := by
  have he := h.nonneg
  rw [V3.norm_le_iff _ (by linarith)]
  have key : ∀ {x : ℝ}, |x| ≤ e → x * x ≤ e * e := by
    intro x hx
    rw [← abs_mul_abs_self]
    exact mul_self_le_mul_self (abs_nonneg _) hx
  have h1 := key h.1
  have h2 := key h.2.1
  have h3 := key h.2.2
  simp only [V3.dot]
  nlinarith [mul_self_nonneg e]

/-- The distance is symmetric also with rounding. -/
theorem sq_sub_comm (h : TreeStd R u η Ω N) {a b : ℝ} (ra : Rep R a) (rb : Rep R b) (ha : |a| ≤ N) (hb : |b| ≤ N) :
    R.mul (R.sub (toF R b) (toF R a)) (R.sub (toF R b) (toF R a)) = R.mul (R.sub (toF R a) (toF R b)) (R.sub (toF R a) (toF R b)) := by
  have hd : |a - b| ≤ Ω := by
    have := abs_sub a b
    linarith [h.high', h.N0]
  obtain ⟨x, rx, ex, -⟩ := h.std.err _ hd
  obtain ⟨rn, en⟩ := h.std.odd _ _ hd rx ex
  rw [rsub ra rb, rsub rb ra, ex, show b - a = -(a - b) by ring, en, rmul rx rx, rmul rn rn, neg_mul_neg]
theorem mag2_sub_comm (h : TreeStd R u η Ω N) {a b : V3 ℝ} (ra : Rep3 R a) (rb : Rep3 R b) (ha : Sz3 N a) (hb : Sz3 N b) : mag2F R (subF R (toV3 R b) (toV3 R a)) = mag2F R (subF R (toV3 R a) (toV3 R b)) := by
  unfold mag2F subF
  have h1 := sq_sub_comm h ra.1 rb.1 ha.1 hb.1
  have h2 := sq_sub_comm h ra.2.1 rb.2.1 ha.2.1 hb.2.1
  have h3 := sq_sub_comm h ra.2.2 rb.2.2 ha.2.2 hb.2.2
  exact congrArg₂ R.add (congrArg₂ R.add h1 h2) h3

theorem dot3_le_norm (a b : V3 ℝ) : |a.dot b| ≤ a.norm * b.norm := by
  have h1 := V3.cauchy a b
  have h2 := V3.cauchy (-a) b
  rw [V3.norm_neg] at h2
  have e2 : (-a).dot b = -(a.dot b) := by
    simp only [V3.dot, V3.neg_x, V3.neg_y, V3.neg_z]; ring
  rw [abs_le]
  constructor <;> linarith
/-- The same for a linear function of a point between two others. -/
theorem between_dot {f b L k e m : ℝ} (hf : m ≤ f) (hb : m ≤ b) (hd : |b - f| ≤ 2 * L) (he : 0 ≤ e) (h1 : -e ≤ k) (h2 : k ≤ L + e) : m - 2 * e ≤ f + (b - f) * (k / L) := by
  have L0 : 0 ≤ L := by
    have := abs_nonneg (b - f)
    linarith
  rcases L0.eq_or_lt with h | Lp
  · rw [← h, div_zero, mul_zero, add_zero]
    linarith
  · have hdL : |(b - f) / L| ≤ 2 := by
      rw [abs_div, abs_of_pos Lp, div_le_iff₀ Lp]
      linarith
    rcases le_or_gt k 0 with h3 | h3
    · have e1 : f + (b - f) * (k / L) = f + (b - f) / L * k := by ring
      rw [e1]
      have h4 := abs_le.1 (mul_abs_le hdL (show |k| ≤ e by rw [abs_of_nonpos h3]; linarith))
      linarith
    · rcases le_or_gt L k with h4 | h4
      · have e1 : f + (b - f) * (k / L) = b + (b - f) / L * (k - L) := by
          field_simp
          ring
        rw [e1]
        have h5 := abs_le.1 (mul_abs_le hdL (show |k - L| ≤ e by rw [abs_of_nonneg (by linarith)]; linarith))
        linarith
      · have t0 : 0 ≤ k / L := by positivity
        have t1 : k / L ≤ 1 := div_le_one_of_le₀ h4.le L0
        set t := k / L
        have e1 : f + (b - f) * t = (1 - t) * f + t * b := by ring
        rw [e1]
        have h5 := mul_le_mul_of_nonneg_left hf (show 0 ≤ 1 - t by linarith)
        have h7 := mul_le_mul_of_nonneg_left hb t0
        linarith

/-- The union of two spheres encloses both of them up to rounding, and its centre lies between theirs up to rounding. -/
theorem union_err (h : TreeStd R u η Ω N) {s o : RSphere} (rs : RpS R s) (ro : RpS R o) (hs : InS C P s) (ho : InS C P o) (hC : C ≤ N) (hP : P ≤ N) :
    ∃ t, RpS R t ∧ SphereF.union R (toS R s) (toS R o) = toS R t ∧ InS (C + 300 * (u * N)) (P + 2 * C + 300 * (u * N)) t ∧ Inside (500 * (u * N)) s t ∧ Inside (500 * (u * N)) o t ∧
      ∀ (a : V3 ℝ) (m : ℝ), a.norm ≤ 2 → m ≤ a.dot s.center → m ≤ a.dot o.center → m - 1000 * (u * N) ≤ a.dot t.center := by
  obtain ⟨e0, eη, -, hη0, hu⟩ := h.eps
  have hN := h.N0
  have uN : u * N ≤ 1 / 4096 * N := mul_le_mul_of_nonneg_right h.u' hN.le
  have hs' := hs.mono hC hP
  have ho' := ho.mono hC hP
  have C0 := hs.1.nonneg
  have self : ∀ t : RSphere, Inside (500 * (u * N)) t t := by
    intro t
    unfold Inside
    have : (t.center - t.center).norm = 0 := by
      rw [V3.norm_eq_zero]
      ext <;> simp
    linarith
  have c1 := contains_err h rs ro hs' ho'
  have c2 := contains_err h ro rs ho' hs'
  have bigger : ∀ {t : RSphere}, InS C P t → InS (C + 300 * (u * N)) (P + 2 * C + 300 * (u * N)) t := fun ht => ht.mono (by linarith) (by linarith)
  unfold SphereF.union
  cases hc1 : SphereF.contains R (toS R s) (toS R o) with
  | true =>
    rw [if_pos rfl]
    exact ⟨s, rs, rfl, bigger hs, self s, (c1.1 hc1).mono (by linarith), fun a m _ h1 _ => by linarith⟩
  | false =>
  rw [if_neg (by simp)]
  cases hc2 : SphereF.contains R (toS R o) (toS R s) with
  | true =>
    rw [if_pos rfl]
    exact ⟨o, ro, rfl, bigger ho, (c2.1 hc2).mono (by linarith), self o, fun a m _ _ h2 => by linarith⟩
  | false =>
  rw [if_neg (by simp)]
  have b1 := c1.2 hc1
  have b2 := c2.2 hc2
  rw [V3.norm_sub_comm] at b2
  obtain ⟨v, n, rv, rn, ev, en, dv, n0, dn, pos, fine⟩ := dist_err h ro.1 rs.1 ho'.1 hs'.1
  have hL := norm_diff_le ho.1 hs.1
  have L0 := (o.center - s.center).norm_nonneg
  have ax := (o.center - s.center).abs_x_le
  have ay := (o.center - s.center).abs_y_le
  have az := (o.center - s.center).abs_z_le
  simp only [V3.sub_x, V3.sub_y, V3.sub_z] at ax ay az
  have hns : (o.center - s.center).dot (o.center - s.center) = (o.center - s.center).norm * (o.center - s.center).norm := (V3.norm_sq _).symm
  set L := (o.center - s.center).norm with hLdef
  have dn' := abs_le.1 dn
  have hsr := hs.2
  have hor := ho.2
  -- not contained: the distance is not zero
  have np : 0 < n := by
    rcases n0.eq_or_lt with hz | hz
    · exfalso
      have k1 : ¬ o.radius ≤ s.radius := by
        intro hle
        have : SphereF.contains R (toS R s) (toS R o) = true := by
          rw [contains_iff, ev, en, ← hz, radd rep_zero ro.2, zero_add]
          exact (toF_le ro.2 rs.2).2 hle
        rw [this] at hc1
        cases hc1
      obtain ⟨v', n', rv', rn', ev', en', -, -, -, -, -⟩ := dist_err h rs.1 ro.1 hs'.1 ho'.1
      have k2 : n' = 0 := by
        have e1 : toF R n = toF R n' := by
          rw [← en, ← en', ← ev, ← ev']
          congr 1
          exact mag2_sub_comm h rs.1 ro.1 hs'.1 ho'.1
        have := (toF_inj rn rn').1 e1
        linarith
      have : SphereF.contains R (toS R o) (toS R s) = true := by
        rw [contains_iff, ev', en', k2, radd rep_zero rs.2, zero_add]
        exact (toF_le rs.2 ro.2).2 (by linarith)
      rw [this] at hc2
      cases hc2
    · exact hz
  obtain ⟨hv, hηn⟩ := pos np
  -- the radius
  obtain ⟨t1, rt1, et1, dt1⟩ := h.std.fl (x := s.radius + o.radius) (X := 2 * N) (by rw [abs_of_nonneg (by linarith)]; linarith) (by linarith [h.high'])
  have dt1' := abs_le.1 dt1
  have t10 : 0 ≤ t1 := fl_ge rt1 rep_zero et1 (by linarith)
  obtain ⟨t2, rt2, et2, dt2⟩ := h.std.fl (x := t1 + n) (X := 7 * N) (by rw [abs_of_nonneg (by linarith)]; linarith) (by linarith [h.high'])
  have dt2' := abs_le.1 dt2
  have t20 : 0 ≤ t2 := fl_ge rt2 rep_zero et2 (by linarith)
  obtain ⟨r, rr, er, dr⟩ := h.std.fl (x := t2 / 2) (X := 4 * N) (by rw [abs_of_nonneg (by linarith)]; linarith) (by linarith [h.high'])
  have dr' := abs_le.1 dr
  have r0 : 0 ≤ r := fl_ge rr rep_zero er (by linarith)
  have htwo : R.two = toF R 2 := by
    have : R.one = toF R 1 := toF_one.symm
    unfold Rounding.two
    rw [this, radd rep_one rep_one, one_add_one_eq_two]
  have hr : |r - (s.radius + o.radius + L) / 2| ≤ 36 * (u * N) := by
    rw [abs_le]
    constructor <;> linarith
  have hr' := abs_le.1 hr
  obtain ⟨k, rk, ek, dk⟩ := h.std.fl (x := r - s.radius) (X := 4 * N) (by rw [abs_le]; constructor <;> linarith) (by linarith [h.high'])
  have dk' := abs_le.1 dk
  set k' := (o.radius - s.radius + L) / 2 with hk'
  have hkk : |k - k'| ≤ 41 * (u * N) := by
    rw [abs_le]
    constructor <;> linarith
  have hk1 : -(30 * (u * N)) ≤ k' := by linarith
  have hk2 : k' ≤ L + 30 * (u * N) := by linarith
  have hkabs : |k'| ≤ L + 30 * (u * N) := by
    rw [abs_le]
    constructor <;> linarith
  have hk3 : |k| ≤ 3 * N := by
    have := abs_le.1 hkk
    rw [abs_le]
    constructor <;> linarith
  have hn5 : n ≤ 5 * N := by linarith
  obtain ⟨cx, rcx, ecx, dcx⟩ := shift_err h rs.1.1 rv.1 rk rn hs'.1.1 np hn5 hv.1 hηn hk3
  obtain ⟨cy, rcy, ecy, dcy⟩ := shift_err h rs.1.2.1 rv.2.1 rk rn hs'.1.2.1 np hn5 hv.2.1 hηn hk3
  obtain ⟨cz, rcz, ecz, dcz⟩ := shift_err h rs.1.2.2 rv.2.2 rk rn hs'.1.2.2 np hn5 hv.2.2 hηn hk3
  have gx := ratio_err h dv.1 ax np hv.1 hk3 hkk hkabs fine
  have gy := ratio_err h dv.2.1 ay np hv.2.1 hk3 hkk hkabs fine
  have gz := ratio_err h dv.2.2 az np hv.2.2 hk3 hkk hkabs fine
  have comb : ∀ {c a y w : ℝ}, |c - (a + y)| ≤ 25 * (u * N) → |y - w| ≤ 175 * (u * N) → |c - (a + w)| ≤ 200 * (u * N) := by
    intro c a y w h1 h2
    rw [abs_le] at *
    constructor <;> linarith
  have fx := comb dcx gx
  have fy := comb dcy gy
  have fz := comb dcz gz
  have wx := between_le hs.1.1 ho.1.1 ax (show 0 ≤ 30 * (u * N) by linarith) hk1 hk2
  have wy := between_le hs.1.2.1 ho.1.2.1 ay (show 0 ≤ 30 * (u * N) by linarith) hk1 hk2
  have wz := between_le hs.1.2.2 ho.1.2.2 az (show 0 ≤ 30 * (u * N) by linarith) hk1 hk2
  have size : ∀ {c w : ℝ}, |c - w| ≤ 200 * (u * N) → |w| ≤ C + 30 * (u * N) → |c| ≤ C + 300 * (u * N) := by
    intro c w h1 h2
    rw [abs_le] at *
    constructor <;> linarith
  refine ⟨⟨⟨cx, cy, cz⟩, r⟩, ⟨⟨rcx, rcy, rcz⟩, rr⟩, ?_, ⟨⟨size fx wx, size fy wy, size fz wz⟩, r0, ?_⟩, ?_, ?_, ?_⟩
  · show (⟨⟨R.add (toF R s.center.x) (R.div (R.mul (subF R (toV3 R o.center) (toV3 R s.center)).x (R.sub (R.div (R.add (R.add (toF R s.radius) (toF R o.radius)) (R.sqrt (mag2F R (subF R (toV3 R o.center) (toV3 R s.center))))) R.two) (toF R s.radius))) (R.sqrt (mag2F R (subF R (toV3 R o.center) (toV3 R s.center))))),
        R.add (toF R s.center.y) (R.div (R.mul (subF R (toV3 R o.center) (toV3 R s.center)).y (R.sub (R.div (R.add (R.add (toF R s.radius) (toF R o.radius)) (R.sqrt (mag2F R (subF R (toV3 R o.center) (toV3 R s.center))))) R.two) (toF R s.radius))) (R.sqrt (mag2F R (subF R (toV3 R o.center) (toV3 R s.center))))),
        R.add (toF R s.center.z) (R.div (R.mul (subF R (toV3 R o.center) (toV3 R s.center)).z (R.sub (R.div (R.add (R.add (toF R s.radius) (toF R o.radius)) (R.sqrt (mag2F R (subF R (toV3 R o.center) (toV3 R s.center))))) R.two) (toF R s.radius))) (R.sqrt (mag2F R (subF R (toV3 R o.center) (toV3 R s.center)))))⟩,
        R.div (R.add (R.add (toF R s.radius) (toF R o.radius)) (R.sqrt (mag2F R (subF R (toV3 R o.center) (toV3 R s.center))))) R.two⟩ : SphereF F) = _
    rw [ev, en, radd rs.2 ro.2, et1, radd rt1 rn, et2, htwo, rdiv rt2 h.std.two, er, rsub rr rs.2, ek]
    show (⟨⟨R.add (toF R s.center.x) (R.div (R.mul (toF R v.x) (toF R k)) (toF R n)), R.add (toF R s.center.y) (R.div (R.mul (toF R v.y) (toF R k)) (toF R n)),
      R.add (toF R s.center.z) (R.div (R.mul (toF R v.z) (toF R k)) (toF R n))⟩, toF R r⟩ : SphereF F) = _
    rw [ecx, ecy, ecz]
    rfl
  · linarith
  · -- the first sphere
    have h1 : (s.center - ⟨cx, cy, cz⟩ : V3 ℝ) = (o.center - s.center) * (-(k' / L)) + ⟨s.center.x + (o.center.x - s.center.x) * (k' / L) - cx, s.center.y + (o.center.y - s.center.y) * (k' / L) - cy, s.center.z + (o.center.z - s.center.z) * (k' / L) - cz⟩ := by
      ext <;> simp only [V3.sub_x, V3.sub_y, V3.sub_z, V3.add_x, V3.add_y, V3.add_z, V3.mul_x, V3.mul_y, V3.mul_z] <;> ring
    unfold Inside
    show (s.center - ⟨cx, cy, cz⟩ : V3 ℝ).norm + s.radius ≤ r + _
    rw [h1]
    have h2 := V3.norm_add_le ((o.center - s.center) * (-(k' / L))) ⟨s.center.x + (o.center.x - s.center.x) * (k' / L) - cx, s.center.y + (o.center.y - s.center.y) * (k' / L) - cy, s.center.z + (o.center.z - s.center.z) * (k' / L) - cz⟩
    have h3 := norm_le_two (v := ⟨s.center.x + (o.center.x - s.center.x) * (k' / L) - cx, s.center.y + (o.center.y - s.center.y) * (k' / L) - cy, s.center.z + (o.center.z - s.center.z) * (k' / L) - cz⟩) (e := 200 * (u * N))
      ⟨by rw [abs_sub_comm] at fx; exact fx, by rw [abs_sub_comm] at fy; exact fy, by rw [abs_sub_comm] at fz; exact fz⟩
    have h4 : ((o.center - s.center) * (-(k' / L))).norm ≤ |k'| := by
      rw [V3.norm_smul, ← hLdef, abs_neg, abs_div, abs_of_nonneg L0]
      rcases L0.eq_or_lt with hz | hz
      · rw [← hz, zero_mul]; exact abs_nonneg _
      · rw [mul_div_cancel₀ _ hz.ne']
    have h5 : |k'| ≤ k' + 60 * (u * N) := by
      rw [abs_le]
      constructor <;> linarith
    linarith
  · have h1 : (o.center - ⟨cx, cy, cz⟩ : V3 ℝ) = (o.center - s.center) * (1 - k' / L) + ⟨s.center.x + (o.center.x - s.center.x) * (k' / L) - cx, s.center.y + (o.center.y - s.center.y) * (k' / L) - cy, s.center.z + (o.center.z - s.center.z) * (k' / L) - cz⟩ := by
      ext <;> simp only [V3.sub_x, V3.sub_y, V3.sub_z, V3.add_x, V3.add_y, V3.add_z, V3.mul_x, V3.mul_y, V3.mul_z] <;> ring
    unfold Inside
    show (o.center - ⟨cx, cy, cz⟩ : V3 ℝ).norm + o.radius ≤ r + _
    rw [h1]
    have h2 := V3.norm_add_le ((o.center - s.center) * (1 - k' / L)) ⟨s.center.x + (o.center.x - s.center.x) * (k' / L) - cx, s.center.y + (o.center.y - s.center.y) * (k' / L) - cy, s.center.z + (o.center.z - s.center.z) * (k' / L) - cz⟩
    have h3 := norm_le_two (v := ⟨s.center.x + (o.center.x - s.center.x) * (k' / L) - cx, s.center.y + (o.center.y - s.center.y) * (k' / L) - cy, s.center.z + (o.center.z - s.center.z) * (k' / L) - cz⟩) (e := 200 * (u * N))
      ⟨by rw [abs_sub_comm] at fx; exact fx, by rw [abs_sub_comm] at fy; exact fy, by rw [abs_sub_comm] at fz; exact fz⟩
    have h4 : ((o.center - s.center) * (1 - k' / L)).norm ≤ |L - k'| := by
      rw [V3.norm_smul, ← hLdef]
      rcases L0.eq_or_lt with hz | hz
      · rw [← hz, zero_mul]; exact abs_nonneg _
      · rw [show L - k' = L * (1 - k' / L) by field_simp, abs_mul, abs_of_pos hz]
    have h5 : |L - k'| ≤ L - k' + 60 * (u * N) := by
      rw [abs_le]
      constructor <;> linarith
    linarith
  · intro a m ha h1 h2
    have e : a.dot (⟨cx, cy, cz⟩ : V3 ℝ) = a.dot s.center + (a.dot o.center - a.dot s.center) * (k' / L) +
        a.dot ⟨cx - (s.center.x + (o.center.x - s.center.x) * (k' / L)), cy - (s.center.y + (o.center.y - s.center.y) * (k' / L)), cz - (s.center.z + (o.center.z - s.center.z) * (k' / L))⟩ := by
      simp only [V3.dot]; ring
    have h3 := norm_le_two (v := ⟨cx - (s.center.x + (o.center.x - s.center.x) * (k' / L)), cy - (s.center.y + (o.center.y - s.center.y) * (k' / L)), cz - (s.center.z + (o.center.z - s.center.z) * (k' / L))⟩)
      (e := 200 * (u * N)) ⟨fx, fy, fz⟩
    have h4 := dot3_le_norm a (⟨cx - (s.center.x + (o.center.x - s.center.x) * (k' / L)), cy - (s.center.y + (o.center.y - s.center.y) * (k' / L)), cz - (s.center.z + (o.center.z - s.center.z) * (k' / L))⟩)
    have h5 := mul_le_mul ha h3 (V3.norm_nonneg _) (by norm_num)
    have h6 : |a.dot o.center - a.dot s.center| ≤ 2 * L := by
      have e2 : a.dot o.center - a.dot s.center = a.dot (o.center - s.center) := by simp [V3.dot]; ring
      rw [e2]
      refine (dot3_le_norm _ _).trans ?_
      exact mul_le_mul_of_nonneg_right ha L0
    have h7 := between_dot h1 h2 h6 (show 0 ≤ 30 * (u * N) by linarith) hk1 hk2
    have h8 := (abs_le.1 (h4.trans h5)).1
    show m - 1000 * (u * N) ≤ a.dot (⟨cx, cy, cz⟩ : V3 ℝ)
    rw [e]
    linarith
end
end Verif.Scene
