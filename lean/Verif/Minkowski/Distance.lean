import Verif.Minkowski.Shapes
import Verif.Primitive.PolyhedronRay
/-!
# GJK distance (C54)
-/
namespace Verif.Minkowski
open Verif Geom Primitive
set_option linter.unusedSectionVars false
noncomputable section
open Classical

/-! ## Closest point of a segment -/

/-- `c` is a point of the segment from `a` to `b`. -/
def OnSeg2 (a b c : V2 ℝ) : Prop := ∃ t : ℝ, 0 ≤ t ∧ t ≤ 1 ∧ c = a + (b - a) * t
/-- `c` is a point of the segment from `a` to `b`. -/
def OnSeg3 (a b c : V3 ℝ) : Prop := ∃ t : ℝ, 0 ≤ t ∧ t ≤ 1 ∧ c = a + (b - a) * t

theorem closestOnEdge2_spec {a b c : V2 ℝ} (h : closestOnEdge2 a b = some c) : a ≠ b ∧ OnSeg2 a b c ∧ c.dot c ≤ a.dot c ∧ c.dot c ≤ b.dot c := by
  unfold closestOnEdge2 at h
  by_cases h0 : b - a = 0
  · simp [h0] at h
  have hab : a ≠ b := by rintro rfl; apply h0; ext <;> simp
  have hn := V2.norm_pos h0
  have hnn := V2.norm_sq (b - a)
  have hd : ((0 : V2 ℝ) - a).dot (b - a).normalize = -(a.dot (b - a)) / (b - a).norm := by
    simp only [V2.normalize, V2.dot, V2.sub_x, V2.sub_y, V2.mul_x, V2.mul_y, V2.zero_x, V2.zero_y]; ring
  simp only [h0, if_false, hd, Option.some.injEq] at h
  rw [show (b - a).normalize = (b - a) * (1 / (b - a).norm) from rfl] at h
  refine ⟨hab, ?_⟩
  clear hd
  set n := (b - a).norm with hndef
  clear_value n
  split at h
  · rename_i h1
    subst h
    have : 0 < a.dot (b - a) := by
      rw [div_neg_iff] at h1
      rcases h1 with ⟨_, h2⟩ | ⟨h2, _⟩ <;> linarith
    refine ⟨⟨0, le_rfl, zero_le_one, by ext <;> simp⟩, le_rfl, ?_⟩
    simp only [V2.dot, V2.sub_x, V2.sub_y] at this ⊢
    linarith
  · rename_i h1
    have h1 := not_lt.1 h1
    split at h
    · rename_i h2
      subst h
      have h3 : n < -(a.dot (b - a)) / n := by
        rw [← hnn] at h2
        nlinarith
      have h4 : n * n < -(a.dot (b - a)) := by
        rw [lt_div_iff₀ hn] at h3; exact h3
      rw [hnn] at h4
      refine ⟨⟨1, zero_le_one, le_rfl, by ext <;> simp⟩, ?_, le_rfl⟩
      simp only [V2.dot, V2.sub_x, V2.sub_y] at h4 ⊢
      linarith
    · rename_i h2
      have h2 := not_lt.1 h2
      have h3 : -(a.dot (b - a)) / n ≤ n := by
        rw [← hnn] at h2
        nlinarith
      set t := -(a.dot (b - a)) / n / n with ht
      have t0 : 0 ≤ t := by positivity
      have t1 : t ≤ 1 := by rw [ht, div_le_one hn]; exact h3
      have hc : c = a + (b - a) * t := by
        rw [← h, ht]
        ext <;> simp <;> ring
      have hl : c.dot (b - a) = 0 := by
        have : t * (n * n) = -(a.dot (b - a)) := by rw [ht]; field_simp
        rw [hnn] at this
        rw [hc]
        simp only [V2.dot, V2.sub_x, V2.sub_y, V2.add_x, V2.add_y, V2.mul_x, V2.mul_y] at this ⊢
        linarith
      refine ⟨⟨t, t0, t1, hc⟩, ?_, ?_⟩
      · have : c.dot c = a.dot c + t * c.dot (b - a) := by
          conv_lhs => rw [show c.dot c = c.dot (a + (b - a) * t) by rw [← hc]]
          simp only [V2.dot, V2.sub_x, V2.sub_y, V2.add_x, V2.add_y, V2.mul_x, V2.mul_y]; ring
        rw [this, hl]; simp
      · have : c.dot c = b.dot c + (t - 1) * c.dot (b - a) := by
          conv_lhs => rw [show c.dot c = c.dot (a + (b - a) * t) by rw [← hc]]
          simp only [V2.dot, V2.sub_x, V2.sub_y, V2.add_x, V2.add_y, V2.mul_x, V2.mul_y]; ring
        rw [this, hl]; simp
theorem closestOnEdge3_spec {a b c : V3 ℝ} (h : closestOnEdge3 a b = some c) : a ≠ b ∧ OnSeg3 a b c ∧ c.dot c ≤ a.dot c ∧ c.dot c ≤ b.dot c := by
  unfold closestOnEdge3 at h
  by_cases h0 : b - a = 0
  · simp [h0] at h
  have hab : a ≠ b := by rintro rfl; apply h0; ext <;> simp
  have hn := V3.norm_pos h0
  have hnn := V3.norm_sq (b - a)
  have hd : ((0 : V3 ℝ) - a).dot (b - a).normalize = -(a.dot (b - a)) / (b - a).norm := by
    simp only [V3.normalize, V3.dot, V3.sub_x, V3.sub_y, V3.sub_z, V3.mul_x, V3.mul_y, V3.mul_z, V3.zero_x, V3.zero_y, V3.zero_z]; ring
  simp only [h0, if_false, hd, Option.some.injEq] at h
  rw [show (b - a).normalize = (b - a) * (1 / (b - a).norm) from rfl] at h
  refine ⟨hab, ?_⟩
  clear hd
  set n := (b - a).norm with hndef
  clear_value n
  split at h
  · rename_i h1
    subst h
    have : 0 < a.dot (b - a) := by
      rw [div_neg_iff] at h1
      rcases h1 with ⟨_, h2⟩ | ⟨h2, _⟩ <;> linarith
    refine ⟨⟨0, le_rfl, zero_le_one, by ext <;> simp⟩, le_rfl, ?_⟩
    simp only [V3.dot, V3.sub_x, V3.sub_y, V3.sub_z] at this ⊢
    linarith
  · rename_i h1
    have h1 := not_lt.1 h1
    split at h
    · rename_i h2
      subst h
      have h3 : n < -(a.dot (b - a)) / n := by
        rw [← hnn] at h2
        nlinarith
      have h4 : n * n < -(a.dot (b - a)) := by
        rw [lt_div_iff₀ hn] at h3; exact h3
      rw [hnn] at h4
      refine ⟨⟨1, zero_le_one, le_rfl, by ext <;> simp⟩, ?_, le_rfl⟩
      simp only [V3.dot, V3.sub_x, V3.sub_y, V3.sub_z] at h4 ⊢
      linarith
    · rename_i h2
      have h2 := not_lt.1 h2
      have h3 : -(a.dot (b - a)) / n ≤ n := by
        rw [← hnn] at h2
        nlinarith
      set t := -(a.dot (b - a)) / n / n with ht
      have t0 : 0 ≤ t := by positivity
      have t1 : t ≤ 1 := by rw [ht, div_le_one hn]; exact h3
      have hc : c = a + (b - a) * t := by
        rw [← h, ht]
        ext <;> simp <;> ring
      have hl : c.dot (b - a) = 0 := by
        have : t * (n * n) = -(a.dot (b - a)) := by rw [ht]; field_simp
        rw [hnn] at this
        rw [hc]
        simp only [V3.dot, V3.sub_x, V3.sub_y, V3.sub_z, V3.add_x, V3.add_y, V3.add_z, V3.mul_x, V3.mul_y, V3.mul_z] at this ⊢
        linarith
      refine ⟨⟨t, t0, t1, hc⟩, ?_, ?_⟩
      · have : c.dot c = a.dot c + t * c.dot (b - a) := by
          conv_lhs => rw [show c.dot c = c.dot (a + (b - a) * t) by rw [← hc]]
          simp only [V3.dot, V3.sub_x, V3.sub_y, V3.sub_z, V3.add_x, V3.add_y, V3.add_z, V3.mul_x, V3.mul_y, V3.mul_z]; ring
        rw [this, hl]; simp
      · have : c.dot c = b.dot c + (t - 1) * c.dot (b - a) := by
          conv_lhs => rw [show c.dot c = c.dot (a + (b - a) * t) by rw [← hc]]
          simp only [V3.dot, V3.sub_x, V3.sub_y, V3.sub_z, V3.add_x, V3.add_y, V3.add_z, V3.mul_x, V3.mul_y, V3.mul_z]; ring
        rw [this, hl]; simp

/-! ## Closest point of a face -/

/-- `c` is a point of the triangle with these corners. -/
def OnTri3 (a b d c : V3 ℝ) : Prop := ∃ u v w : ℝ, 0 ≤ u ∧ 0 ≤ v ∧ 0 ≤ w ∧ u + v + w = 1 ∧ c = a * u + b * v + d * w

theorem fin_of_at {o d x : ℝ} {t : Ext ℝ} (h : Ext.add (.fin o) (Ext.mul (.fin d) t) = .fin x) : ∃ u, t = .fin u := by
  cases t with
  | fin u => exact ⟨u, rfl⟩
  | nan => simp [Ext.mul, Ext.add] at h
  | pinf =>
    exfalso; revert h
    by_cases h1 : d = 0 <;> by_cases h2 : 0 < d <;> simp [Ext.mul, Ext.add, h1, h2]
  | ninf =>
    exfalso; revert h
    by_cases h1 : d = 0 <;> by_cases h2 : 0 < d <;> simp [Ext.mul, Ext.add, h1, h2]

theorem rayT_of_fin {neg : Bool} {P : Plane ℝ} {r : Ray3 ℝ} {x y z : ℝ} (h : P.intersectionRay neg r = some ⟨.fin x, .fin y, .fin z⟩) :
    r.direction.dot P.n ≠ 0 := by
  intro h0
  unfold Plane.intersectionRay at h
  split at h
  · simp at h
  · simp only [Option.some.injEq, Ray3.atE, V3.mk.injEq] at h
    obtain ⟨u, hu⟩ := fin_of_at h.1
    revert hu
    simp only [Plane.rayT, Ext.div, h0, ne_eq, not_true_eq_false, if_false]
    split
    · simp
    · split <;> simp

theorem closestOnFace_spec {a b c n p : V3 ℝ} {k : ℝ} (hn : n = nrm a b c * k) (h : closestOnFace a b c n = .ok p)
    (hp : p ≠ 0 ∨ (0 < k ∧ a.dot (nrm a b c) ≤ 0)) :
    OnTri3 a b c p ∧ a.dot p = p.dot p ∧ b.dot p = p.dot p ∧ c.dot p = p.dot p ∧
    p = nrm a b c * (a.dot (nrm a b c) / (nrm a b c).dot (nrm a b c)) := by
  unfold closestOnFace at h
  rw [Res.bind_eq_ok] at h
  obtain ⟨P, hP, h⟩ := h
  by_cases h0 : nrm a b c = 0
  · simp only [Plane.fromPoints] at hP
    rw [if_pos (by exact h0)] at hP
    simp at hP
  have hNpos := dot_self_pos h0
  have hP' : P = ⟨(nrm a b c).normalize, -a.dot (nrm a b c).normalize⟩ := by
    simp only [Plane.fromPoints] at hP
    rw [if_neg (by exact h0)] at hP
    simp only [Res.ofOption_some, Res.ok.injEq] at hP
    exact hP.symm
  split at h
  · rename_i x y z heq
    have hd := rayT_of_fin heq
    have hq : p = ⟨x, y, z⟩ ∧ inRange (barycentric ⟨x, y, z⟩ a b c).1 ∧ inRange (barycentric ⟨x, y, z⟩ a b c).2.1 ∧
        inRange (barycentric ⟨x, y, z⟩ a b c).2.2 := by
      dsimp only at h
      split at h
      · rename_i hr
        simp only [Res.pure_eq, Res.ok.injEq] at h
        exact ⟨h.symm, hr⟩
      · simp at h
    unfold Plane.intersectionRay at heq
    rw [rayT_fin _ _ _ hd] at heq
    split at heq
    · simp at heq
    rw [atE3] at heq
    simp only [Option.some.injEq, V3.toExt, V3.mk.injEq, Ext.fin.injEq] at heq
    have hN := V3.norm_pos h0
    have hNN := V3.norm_sq (nrm a b c)
    obtain ⟨N, hNd⟩ : ∃ N, nrm a b c = N := ⟨_, rfl⟩
    have hk : k ≠ 0 := by
      rintro rfl
      apply hd
      rw [hn]
      simp [V3.dot]
    have hpe : p = nrm a b c * (a.dot (nrm a b c) / (nrm a b c).dot (nrm a b c)) := by
      rw [hq.1]
      obtain ⟨e1, e2, e3⟩ := heq
      have e : -(P.d + (0 : V3 ℝ).dot P.n) / (-n).dot P.n = -(a.dot (nrm a b c)) / (k * (nrm a b c).dot (nrm a b c)) := by
        rw [hP', hn, ← hNN]
        simp only [V3.normalize, V3.dot, V3.mul_x, V3.mul_y, V3.mul_z, V3.neg_x, V3.neg_y, V3.neg_z, V3.zero_x, V3.zero_y, V3.zero_z] at hNN ⊢
        have : -((nrm a b c).x * k) * ((nrm a b c).x * (1 / (nrm a b c).norm)) + -((nrm a b c).y * k) * ((nrm a b c).y * (1 / (nrm a b c).norm)) +
            -((nrm a b c).z * k) * ((nrm a b c).z * (1 / (nrm a b c).norm)) = -(k * (nrm a b c).norm) := by
          field_simp
          linear_combination hNN
        rw [this]
        field_simp
        ring
      simp only [e, Ray3.at, V3.add_x, V3.add_y, V3.add_z, V3.mul_x, V3.mul_y, V3.mul_z, V3.neg_x, V3.neg_y, V3.neg_z, V3.zero_x, V3.zero_y, V3.zero_z] at e1 e2 e3
      ext
      · rw [← e1, hn]; simp only [V3.mul_x]; field_simp; ring
      · rw [← e2, hn]; simp only [V3.mul_y]; field_simp; ring
      · rw [← e3, hn]; simp only [V3.mul_z]; field_simp; ring
    have hpl : vol a b c p = 0 := by
      rw [vol_eq, hpe]
      have : (nrm a b c).dot (nrm a b c * (a.dot (nrm a b c) / (nrm a b c).dot (nrm a b c)) - a) =
          (nrm a b c).dot (nrm a b c) * (a.dot (nrm a b c) / (nrm a b c).dot (nrm a b c)) - a.dot (nrm a b c) := by
        simp [V3.dot]; ring
      rw [this]; field_simp; ring
    refine ⟨?_, ?_, ?_, ?_, hpe⟩
    · obtain ⟨hq1, r1, r2, r3⟩ := hq
      rw [← hq1] at r1 r2 r3
      rcases barycentric_eq (a := a) (b := b) (c := c) (q := p) with hb | hb
      · rw [hb] at r1 r2 r3
        refine ⟨_, _, _, r1.1, r2.1, r3.1, ?_, ?_⟩
        · have := side_sum a b c p
          field_simp
          exact this
        · have := bary_comb hpl
          have hx := congrArg V3.x this
          have hy := congrArg V3.y this
          have hz := congrArg V3.z this
          simp only [V3.add_x, V3.add_y, V3.add_z, V3.mul_x, V3.mul_y, V3.mul_z] at hx hy hz
          ext
          · simp only [V3.add_x, V3.mul_x]; field_simp; linarith
          · simp only [V3.add_y, V3.mul_y]; field_simp; linarith
          · simp only [V3.add_z, V3.mul_z]; field_simp; linarith
      · exact absurd hb hNpos.ne'
    all_goals
      rw [hpe]
      have hb : b.dot (nrm a b c) = a.dot (nrm a b c) := by simp [nrm, V3.dot, V3.cross]; ring
      have hc : c.dot (nrm a b c) = a.dot (nrm a b c) := by simp [nrm, V3.dot, V3.cross]; ring
      have hs : ∀ (v w : V3 ℝ) (s : ℝ), v.dot (w * s) = v.dot w * s := by intro v w s; simp [V3.dot]; ring
      have hs' : ∀ (v w : V3 ℝ) (s : ℝ), (v * s).dot w = v.dot w * s := by intro v w s; simp [V3.dot]; ring
      simp only [hs, hs', hb, hc]
      field_simp
  · simp at h
  · rename_i heq
    simp only [Res.pure_eq, Res.ok.injEq] at h
    rcases hp with hp | ⟨hk, ha⟩
    · exact absurd h.symm hp
    exfalso
    have hN := V3.norm_pos h0
    have hNN := V3.norm_sq (nrm a b c)
    have e1 : (-n).dot P.n = -(k * (nrm a b c).norm) := by
      rw [hP', hn]
      simp only [V3.normalize, V3.dot, V3.mul_x, V3.mul_y, V3.mul_z, V3.neg_x, V3.neg_y, V3.neg_z] at hNN ⊢
      field_simp
      linear_combination hNN
    have hneg : (-n).dot P.n < 0 := by rw [e1]; have := mul_pos hk hN; linarith
    unfold Plane.intersectionRay at heq
    rw [rayT_fin _ _ _ hneg.ne] at heq
    split at heq
    · rename_i hlt
      have h2 : P.d + (0 : V3 ℝ).dot P.n ≥ 0 := by
        rw [hP']
        have : a.dot (nrm a b c).normalize = a.dot (nrm a b c) * (1 / (nrm a b c).norm) := by
          simp only [V3.normalize, V3.dot, V3.mul_x, V3.mul_y, V3.mul_z]; ring
        have h3 : a.dot (nrm a b c) * (1 / (nrm a b c).norm) ≤ 0 := mul_nonpos_of_nonpos_of_nonneg ha (by positivity)
        have h4 : (0 : V3 ℝ).dot (nrm a b c).normalize = 0 := by simp [V3.dot]
        dsimp only
        rw [this, h4]
        linarith
      have h5 : 0 ≤ -(P.d + (0 : V3 ℝ).dot P.n) / (-n).dot P.n := div_nonneg_of_nonpos (by linarith) hneg.le
      have hlt' : -(P.d + (0 : V3 ℝ).dot P.n) / (-n).dot P.n < 0 := by simpa only [Ext.lt, decide_eq_true_eq] using hlt
      linarith
    · simp at heq

/-! ## The simplex processors -/

theorem closest2_spec {s s' : List (SP (V2 ℝ))} {c : Option (V2 ℝ)} (h : closest2 s = .ok (c, s')) :
    (∀ p ∈ s', p ∈ s) ∧ ∀ v, c = some v → v ≠ 0 →
      (∃ p ∈ s', ∃ q ∈ s', OnSeg2 p.v q.v v) ∧ ∀ p, s'[0]? = some p → v.dot v ≤ p.v.dot v := by
  have hsub : ∀ p ∈ (reduce2 s 0).2.1, p ∈ s := by
    intro p
    unfold reduce2
    split
    · dsimp only
      split
      · simp; tauto
      · split <;> simp <;> tauto
    · simp
    · simp
  have htrue : (reduce2 s 0).1 = true → (reduce2 s 0).2.2 = 0 := by
    unfold reduce2
    split
    · dsimp only
      split
      · simp
      · split <;> simp
    · simp
    · simp
  unfold closest2 at h
  dsimp only at h
  split at h
  · rename_i hr
    cases h
    exact ⟨hsub, fun v hv h0 => absurd ((Option.some.inj hv).symm.trans (htrue hr)) h0⟩
  · split at h
    · rename_i s0 e
      cases h
      rw [e] at hsub
      refine ⟨hsub, fun v hv h0 => ?_⟩
      cases hv
      refine ⟨⟨s0, by simp, s0, by simp, 0, le_rfl, zero_le_one, by ext <;> simp⟩, ?_⟩
      rintro p ⟨⟩
      exact le_rfl
    · rename_i s0 s1 rest e
      simp only [Res.ok.injEq, Prod.mk.injEq] at h
      obtain ⟨h1, rfl⟩ := h
      rw [e] at hsub
      refine ⟨hsub, fun v hv h0 => ?_⟩
      subst hv
      obtain ⟨-, h2, h3, h4⟩ := closestOnEdge2_spec h1
      refine ⟨⟨s1, by simp, s0, by simp, h2⟩, ?_⟩
      rintro p ⟨⟩
      exact h4
    · simp at h

theorem reduce3_sub (s : List (SP (V3 ℝ))) (v : V3 ℝ) : ∀ p ∈ (reduce3 s v).2.1, p ∈ s := by
  have hcs : ∀ abc ab ac ao (s0 s1 s2 : SP (V3 ℝ)) above ig, ∀ p ∈ (checkSide abc ab ac ao s0 s1 s2 above ig).1, p = s0 ∨ p = s1 ∨ p = s2 := by
    intro abc ab ac ao s0 s1 s2 above ig p
    unfold checkSide
    dsimp only
    split
    · simp; tauto
    · split
      · simp; tauto
      · split <;> simp <;> tauto
  intro p
  unfold reduce3
  split
  · dsimp only
    split
    · intro hp
      have := hcs _ _ _ _ _ _ _ _ _ p hp
      simp; tauto
    · split
      · intro hp
        have := hcs _ _ _ _ _ _ _ _ _ p hp
        simp; tauto
      · split <;> simp <;> tauto
  · intro hp
    have := hcs _ _ _ _ _ _ _ _ _ p hp
    simp; tauto
  · simp
  · simp

theorem reduce3_true (s : List (SP (V3 ℝ))) (v : V3 ℝ) (h : (reduce3 s v).1 = true) : (reduce3 s v).2.2 = v := by
  revert h
  unfold reduce3
  split
  · dsimp only
    split
    · simp
    · split
      · simp
      · split <;> simp
  · simp
  · simp
  · simp

/-- A face left by the reduction comes with a multiple of its normal. -/
theorem reduce3_face (s : List (SP (V3 ℝ))) {t0 t1 t2 : SP (V3 ℝ)} {rest : List (SP (V3 ℝ))} (hf : (reduce3 s 0).1 = false)
    (h : (reduce3 s 0).2.1 = t0 :: t1 :: t2 :: rest) : ∃ k : ℝ, (reduce3 s 0).2.2 = nrm t2.v t1.v t0.v * k := by
  have hcs : ∀ (s0 s1 s2 : SP (V3 ℝ)) above ig, (above = true → ((s1.v - s2.v).cross (s0.v - s2.v)).dot (-s2.v) > 0) →
      (checkSide ((s1.v - s2.v).cross (s0.v - s2.v)) (s1.v - s2.v) (s0.v - s2.v) (-s2.v) s0 s1 s2 above ig).1 = t0 :: t1 :: t2 :: rest →
      ∃ k : ℝ, (checkSide ((s1.v - s2.v).cross (s0.v - s2.v)) (s1.v - s2.v) (s0.v - s2.v) (-s2.v) s0 s1 s2 above ig).2 = nrm t2.v t1.v t0.v * k := by
    intro s0 s1 s2 above ig ha he
    rcases checkSide_cases s0 s1 s2 above ig ha with ⟨a0, a1, w, -, e, ht⟩ | ⟨a0, -, -, e⟩
    · rw [e] at he ⊢
      simp only [List.cons.injEq] at he
      obtain ⟨rfl, rfl, rfl, -⟩ := he
      refine ⟨1, ?_⟩
      rw [ht.1]
      ext <;> simp [nrm]
    · rw [e] at he
      simp at he
  revert hf h
  unfold reduce3
  split
  · dsimp only
    split
    · rename_i h1
      intro _ h
      exact hcs _ _ _ true false (fun _ => h1) h
    · split
      · rename_i h1
        intro _ h
        exact hcs _ _ _ true true (fun _ => h1) h
      · split
        · intro _ h
          simp only [List.cons.injEq] at h
          obtain ⟨rfl, rfl, rfl, -⟩ := h
          exact ⟨1, by ext <;> simp [nrm]⟩
        · simp
  · intro _ h
    exact hcs _ _ _ false false (by simp) h
  · simp
  · intro _ h
    exact ⟨0, by ext <;> simp⟩

theorem closest3_spec {s s' : List (SP (V3 ℝ))} {c : Option (V3 ℝ)} (h : closest3 s = .ok (c, s')) :
    (∀ p ∈ s', p ∈ s) ∧ ∀ v, c = some v → v ≠ 0 →
      (∃ p ∈ s', ∃ q ∈ s', ∃ r ∈ s', OnTri3 p.v q.v r.v v) ∧ ∀ p, s'[0]? = some p → v.dot v ≤ p.v.dot v := by
  have hsub := reduce3_sub s 0
  unfold closest3 at h
  dsimp only at h
  split at h
  · rename_i hr
    cases h
    exact ⟨hsub, fun v hv h0 => absurd ((Option.some.inj hv).symm.trans (reduce3_true _ _ hr)) h0⟩
  · rename_i hf
    simp only [Bool.not_eq_true] at hf
    split at h
    · rename_i s0 e
      cases h
      rw [e] at hsub
      refine ⟨hsub, fun v hv h0 => ?_⟩
      cases hv
      refine ⟨⟨s0, by simp, s0, by simp, s0, by simp, 1, 0, 0, zero_le_one, le_rfl, le_rfl, by simp, by ext <;> simp⟩, ?_⟩
      rintro p ⟨⟩
      exact le_rfl
    · rename_i s0 s1 e
      simp only [Res.ok.injEq, Prod.mk.injEq] at h
      obtain ⟨h1, rfl⟩ := h
      rw [e] at hsub
      refine ⟨hsub, fun v hv h0 => ?_⟩
      subst hv
      obtain ⟨-, ⟨t, t0, t1, h2⟩, h3, h4⟩ := closestOnEdge3_spec h1
      refine ⟨⟨s1, by simp, s0, by simp, s0, by simp, 1 - t, t, 0, by linarith, t0, le_rfl, by ring, ?_⟩, ?_⟩
      · rw [h2]; ext <;> simp <;> ring
      rintro p ⟨⟩
      exact h4
    · rename_i s0 s1 s2 rest e
      rw [Res.bind_eq_ok] at h
      obtain ⟨p, hp, h⟩ := h
      simp only [Res.pure_eq, Res.ok.injEq, Prod.mk.injEq] at h
      obtain ⟨h1, rfl⟩ := h
      rw [e] at hsub
      refine ⟨hsub, fun v hv h0 => ?_⟩
      subst hv
      cases h1
      obtain ⟨k, hk⟩ := reduce3_face s hf e
      obtain ⟨h2, h3, h4, h5, -⟩ := closestOnFace_spec hk hp (.inl h0)
      refine ⟨⟨s2, by simp, s1, by simp, s0, by simp, h2⟩, ?_⟩
      rintro p ⟨⟩
      exact h5.ge
    · simp at h

/-- A face left by the reduction of a simplex of at most four points comes with its normal, and the origin is not behind it. -/
theorem reduce3_tri (s : List (SP (V3 ℝ))) (hlen : s.length ≤ 4) (hf : (reduce3 s 0).1 = false) :
    (reduce3 s 0).2.1.length ≤ 3 ∧ ∀ t0 t1 t2 rest, (reduce3 s 0).2.1 = t0 :: t1 :: t2 :: rest → rest = [] ∧ Tri t0 t1 t2 (reduce3 s 0).2.2 := by
  have hcs : ∀ (s0 s1 s2 : SP (V3 ℝ)) above ig, (above = true → ((s1.v - s2.v).cross (s0.v - s2.v)).dot (-s2.v) > 0) →
      (checkSide ((s1.v - s2.v).cross (s0.v - s2.v)) (s1.v - s2.v) (s0.v - s2.v) (-s2.v) s0 s1 s2 above ig).1.length ≤ 3 ∧ ∀ t0 t1 t2 rest,
      (checkSide ((s1.v - s2.v).cross (s0.v - s2.v)) (s1.v - s2.v) (s0.v - s2.v) (-s2.v) s0 s1 s2 above ig).1 = t0 :: t1 :: t2 :: rest →
      rest = [] ∧ Tri t0 t1 t2 (checkSide ((s1.v - s2.v).cross (s0.v - s2.v)) (s1.v - s2.v) (s0.v - s2.v) (-s2.v) s0 s1 s2 above ig).2 := by
    intro s0 s1 s2 above ig ha
    rcases checkSide_cases s0 s1 s2 above ig ha with ⟨a0, a1, w, -, e, ht⟩ | ⟨a0, -, -, e⟩
    · rw [e]
      refine ⟨by simp, fun t0 t1 t2 rest he => ?_⟩
      simp only [List.cons.injEq] at he
      obtain ⟨rfl, rfl, rfl, rfl⟩ := he
      exact ⟨rfl, ht⟩
    · rw [e]
      exact ⟨by simp, fun t0 t1 t2 rest he => by simp at he⟩
  revert hf
  unfold reduce3
  split
  · dsimp only
    split
    · rename_i h1
      intro _
      exact hcs _ _ _ true false (fun _ => h1)
    · split
      · rename_i h1
        intro _
        exact hcs _ _ _ true true (fun _ => h1)
      · split
        · rename_i h1
          intro _
          refine ⟨by simp, fun t0 t1 t2 rest he => ?_⟩
          simp only [List.cons.injEq] at he
          obtain ⟨rfl, rfl, rfl, rfl⟩ := he
          refine ⟨rfl, rfl, ?_⟩
          simp only [V3.dot, V3.neg_x, V3.neg_y, V3.neg_z] at h1 ⊢
          linarith
        · simp
  · intro _
    exact hcs _ _ _ false false (by simp)
  · intro _
    exact ⟨by simp, fun t0 t1 t2 rest he => by simp at he⟩
  · rename_i h4 h3 h2
    intro _
    have : s.length ≤ 1 := by
      match s, hlen, h4, h3, h2 with
      | [], _, _, _, _ => simp
      | [_], _, _, _, _ => simp
      | [a, b], _, _, _, h => exact absurd rfl (h a b)
      | [a, b, c], _, _, h, _ => exact absurd rfl (h a b c)
      | [a, b, c, d], _, h, _, _ => exact absurd rfl (h a b c d)
      | _ :: _ :: _ :: _ :: _ :: _, h, _, _, _ => simp at h; omega
    refine ⟨by simpa using this.trans (by norm_num), fun t0 t1 t2 rest he => ?_⟩
    dsimp only at he
    rw [he] at this
    simp at this

/-- What `get_closest_point_to_origin` leaves: either the reduction took the whole tetrahedron, or at most three points with a point of their convex hull; on a face this is the foot of the
perpendicular from the origin, which is not behind the face. -/
theorem closest3_full {s s' : List (SP (V3 ℝ))} {v : V3 ℝ} (hlen : s.length ≤ 4) (h : closest3 s = .ok (some v, s')) :
    ((reduce3 s 0).1 = true ∧ v = 0) ∨
    (s'.length ≤ 3 ∧ (∀ p ∈ s', p ∈ s) ∧ (∃ p ∈ s', ∃ q ∈ s', ∃ r ∈ s', OnTri3 p.v q.v r.v v) ∧
      ∀ t0 t1 t2, s' = [t0, t1, t2] → (nrm t2.v t1.v t0.v) ≠ 0 ∧ t2.v.dot (nrm t2.v t1.v t0.v) ≤ 0 ∧
        v = nrm t2.v t1.v t0.v * (t2.v.dot (nrm t2.v t1.v t0.v) / (nrm t2.v t1.v t0.v).dot (nrm t2.v t1.v t0.v))) := by
  have hsub := reduce3_sub s 0
  by_cases hr : (reduce3 s 0).1 = true
  · left
    unfold closest3 at h
    dsimp only at h
    rw [if_pos hr] at h
    simp only [Res.ok.injEq, Prod.mk.injEq, Option.some.injEq] at h
    exact ⟨hr, h.1.symm.trans (reduce3_true _ _ hr)⟩
  right
  have hf : (reduce3 s 0).1 = false := by simpa using hr
  obtain ⟨g1, g2⟩ := reduce3_tri s hlen hf
  unfold closest3 at h
  dsimp only at h
  rw [if_neg hr] at h
  split at h
  · rename_i s0 e
    simp only [Res.ok.injEq, Prod.mk.injEq, Option.some.injEq] at h
    obtain ⟨rfl, rfl⟩ := h
    rw [e] at hsub
    refine ⟨by simp, hsub, ⟨s0, by simp, s0, by simp, s0, by simp, 1, 0, 0, zero_le_one, le_rfl, le_rfl, by simp, by ext <;> simp⟩, ?_⟩
    intro t0 t1 t2 he
    simp at he
  · rename_i s0 s1 e
    simp only [Res.ok.injEq, Prod.mk.injEq] at h
    obtain ⟨h1, rfl⟩ := h
    rw [e] at hsub
    obtain ⟨-, ⟨t, t0, t1, h2⟩, h3, h4⟩ := closestOnEdge3_spec h1
    refine ⟨by simp, hsub, ⟨s1, by simp, s0, by simp, s0, by simp, 1 - t, t, 0, by linarith, t0, le_rfl, by ring, ?_⟩, ?_⟩
    · rw [h2]; ext <;> simp <;> ring
    intro t0 t1 t2 he
    simp at he
  · rename_i s0 s1 s2 rest e
    rw [Res.bind_eq_ok] at h
    obtain ⟨p, hp, h⟩ := h
    simp only [Res.pure_eq, Res.ok.injEq, Prod.mk.injEq, Option.some.injEq] at h
    obtain ⟨rfl, rfl⟩ := h
    obtain ⟨rfl, hn, hside⟩ := g2 _ _ _ _ e
    rw [e] at hsub
    have hne : nrm s2.v s1.v s0.v ≠ 0 := by
      intro h0
      unfold closestOnFace at hp
      rw [Res.bind_eq_ok] at hp
      obtain ⟨P, hP, -⟩ := hp
      simp only [Plane.fromPoints] at hP
      rw [if_pos (by exact h0)] at hP
      simp at hP
    have hn1 : (reduce3 s 0).2.2 = nrm s2.v s1.v s0.v * (1 : ℝ) := by rw [hn]; ext <;> simp [nrm]
    rw [hn] at hside
    obtain ⟨h2, -, -, -, h6⟩ := closestOnFace_spec hn1 hp (.inr ⟨one_pos, hside⟩)
    refine ⟨by simp, hsub, ⟨s2, by simp, s1, by simp, s0, by simp, h2⟩, ?_⟩
    rintro t0 t1 t2 he
    simp only [List.cons.injEq, and_true] at he
    obtain ⟨rfl, rfl, rfl⟩ := he
    exact ⟨hne, hside, h6⟩
  · simp at h

theorem tet_inside {a b c d : V3 ℝ} (hs : b.dot (nrm b c d) < 0) (h1 : ¬ ((b - a).cross (c - a)).dot (-a) > 0) (h2 : ¬ ((c - a).cross (d - a)).dot (-a) > 0)
    (h3 : ¬ ((d - a).cross (b - a)).dot (-a) > 0) :
    ∃ x y z w : ℝ, 0 ≤ x ∧ 0 ≤ y ∧ 0 ≤ z ∧ 0 ≤ w ∧ x + y + z + w = 1 ∧ d * x + c * y + b * z + a * w = 0 := by
  obtain ⟨ax, ay, az⟩ := a
  obtain ⟨bx, bY, bz⟩ := b
  obtain ⟨cx, cy, cz⟩ := c
  obtain ⟨dx, dy, dz⟩ := d
  simp only [nrm, V3.dot, V3.cross, V3.sub_x, V3.sub_y, V3.sub_z, V3.neg_x, V3.neg_y, V3.neg_z] at hs h1 h2 h3
  set wa := -(bx * (cy * dz - cz * dy) + bY * (cz * dx - cx * dz) + bz * (cx * dy - cy * dx)) with hwa
  set wb := ax * (cy * dz - cz * dy) + ay * (cz * dx - cx * dz) + az * (cx * dy - cy * dx) with hwb
  set wc := ax * (dy * bz - dz * bY) + ay * (dz * bx - dx * bz) + az * (dx * bY - dy * bx) with hwc
  set wd := ax * (bY * cz - bz * cy) + ay * (bz * cx - bx * cz) + az * (bx * cy - bY * cx) with hwd
  have ha0 : 0 < wa := by rw [hwa]; linarith
  have hb0 : 0 ≤ wb := by rw [hwb]; linarith
  have hc0 : 0 ≤ wc := by rw [hwc]; linarith
  have hd0 : 0 ≤ wd := by rw [hwd]; linarith
  have hS : 0 < wd + wc + wb + wa := by linarith
  refine ⟨wd / (wd + wc + wb + wa), wc / (wd + wc + wb + wa), wb / (wd + wc + wb + wa), wa / (wd + wc + wb + wa), by positivity, by positivity, by positivity, by positivity, by field_simp, ?_⟩
  ext
  · simp only [V3.add_x, V3.mul_x, V3.zero_x]; field_simp; rw [hwa, hwb, hwc, hwd]; ring
  · simp only [V3.add_y, V3.mul_y, V3.zero_y]; field_simp; rw [hwa, hwb, hwc, hwd]; ring
  · simp only [V3.add_z, V3.mul_z, V3.zero_z]; field_simp; rw [hwa, hwb, hwc, hwd]; ring

/-- A tetrahedron whose front face the origin sees from outside and that the reduction takes to contain the origin does contain it. -/
theorem reduce3_inside {s0 s1 s2 p : SP (V3 ℝ)} (hs : s2.v.dot (nrm s2.v s1.v s0.v) < 0) (h : (reduce3 [s0, s1, s2, p] 0).1 = true) :
    ∃ x y z w : ℝ, 0 ≤ x ∧ 0 ≤ y ∧ 0 ≤ z ∧ 0 ≤ w ∧ x + y + z + w = 1 ∧ s0.v * x + s1.v * y + s2.v * z + p.v * w = 0 := by
  have hr : ¬ ((s2.v - p.v).cross (s1.v - p.v)).dot (-p.v) > 0 ∧ ¬ ((s1.v - p.v).cross (s0.v - p.v)).dot (-p.v) > 0 ∧ ¬ ((s0.v - p.v).cross (s2.v - p.v)).dot (-p.v) > 0 := by
    simp only [reduce3] at h
    split at h
    · simp at h
    · split at h
      · simp at h
      · split at h
        · simp at h
        · exact ⟨‹_›, ‹_›, ‹_›⟩
  exact tet_inside hs hr.1 hr.2.1 hr.2.2

/-! ## The loop -/
section loop
variable {V : Type} [Neg V] [Sub V] [Zero V] [HMul V ℝ V] [Inner V ℝ]

/-- Partial correctness of the distance loop: an answer is the length of a point `c` of the set `M`, and `c` is nearly extreme in the direction of the origin. -/
theorem distanceLoop_some {closest : List (SP V) → Res (Option V × List (SP V))} {tolerance : ℝ} {left right : V → Res V} {nan : Res (SP V)}
    (I : SP V → Prop) (M : V → Prop)
    (hc : ∀ s c s', (∀ p ∈ s, I p) → closest s = .ok (c, s') →
      (∀ p ∈ s', I p) ∧ ∀ v, c = some v → v ≠ 0 → M v ∧ ∀ p, s'[0]? = some p → Inner.dot v v ≤ Inner.dot p.v v)
    (hn : ∀ p, nan = .ok p → I p)
    (hs : ∀ d p, d ≠ 0 → SP.fromMinkowski left right d = .ok p → I p ∧ ∀ m, M m → Inner.dot m d ≤ Inner.dot p.v d)
    (hneg : ∀ v : V, v ≠ 0 → -v ≠ 0) :
    ∀ n s δ, (∀ p ∈ s, I p) → distanceLoop closest tolerance left right nan n s = .ok (some δ) →
      ∃ (v : V) (x : V), v ≠ 0 ∧ M v ∧ δ = mag (-v) ∧ Inner.dot v v ≤ Inner.dot x v ∧ ∀ m, M m → Inner.dot m (-v) - Inner.dot x (-v) < tolerance
  | 0, s, δ, _, h => by simp [distanceLoop] at h
  | n + 1, s, δ, hi, h => by
    unfold distanceLoop at h
    rw [Res.bind_eq_ok] at h
    obtain ⟨⟨c, s'⟩, h1, h⟩ := h
    obtain ⟨h2, h3⟩ := hc _ _ _ hi h1
    dsimp only at h
    split at h
    · rw [Res.bind_eq_ok] at h
      obtain ⟨p, hp, h⟩ := h
      refine distanceLoop_some I M hc hn hs hneg n _ δ ?_ h
      intro q hq
      rw [List.mem_append, List.mem_singleton] at hq
      rcases hq with hq | rfl
      · exact h2 _ hq
      · exact hn _ hp
    · rename_i _ v
      split at h
      · simp at h
      · rename_i hv
        obtain ⟨h4, h5⟩ := h3 v rfl hv
        rw [Res.bind_eq_ok] at h
        obtain ⟨p, hp, h⟩ := h
        obtain ⟨h6, h7⟩ := hs _ _ (hneg _ hv) hp
        rw [Res.bind_eq_ok] at h
        obtain ⟨s0, hs0, h⟩ := h
        have hs0 : s'[0]? = some s0 := by
          cases e : s'[0]? with
          | none => rw [e] at hs0; simp at hs0
          | some x => rw [e] at hs0; simpa using hs0
        split at h
        · rename_i ht
          simp only [Res.pure_eq, Res.ok.injEq, Option.some.injEq] at h
          refine ⟨v, s0.v, hv, h4, h.symm, h5 _ hs0, fun m hm => ?_⟩
          have := h7 m hm
          linarith
        · refine distanceLoop_some I M hc hn hs hneg n _ δ ?_ h
          intro q hq
          rw [List.mem_append, List.mem_singleton] at hq
          rcases hq with hq | rfl
          · exact h2 _ hq
          · exact h6
end loop

theorem mink2_convex {L R : V2 ℝ → Prop} (hL : Convex2 L) (hR : Convex2 R) : Convex2 (Mink2 L R) := by
  rintro _ _ t ⟨l, r, hl, hr, rfl⟩ ⟨l', r', hl', hr', rfl⟩ t0 t1
  refine ⟨_, _, hL l l' t hl hl' t0 t1, hR r r' t hr hr' t0 t1, ?_⟩
  ext <;> simp <;> ring
theorem mink3_convex {L R : V3 ℝ → Prop} (hL : Convex3 L) (hR : Convex3 R) : Convex3 (Mink3 L R) := by
  rintro _ _ t ⟨l, r, hl, hr, rfl⟩ ⟨l', r', hl', hr', rfl⟩ t0 t1
  refine ⟨_, _, hL l l' t hl hl' t0 t1, hR r r' t hr hr' t0 t1, ?_⟩
  ext <;> simp <;> ring

theorem convex_tri3 {S : V3 ℝ → Prop} (hS : Convex3 S) {a b c p : V3 ℝ} (ha : S a) (hb : S b) (hc : S c) (h : OnTri3 a b c p) : S p := by
  obtain ⟨u, v, w, hu, hv, hw, hs, rfl⟩ := h
  by_cases hz : v + w = 0
  · have hv0 : v = 0 := by linarith
    have hw0 : w = 0 := by linarith
    have hu1 : u = 1 := by linarith
    have : a * u + b * v + c * w = a := by rw [hv0, hw0, hu1]; ext <;> simp
    rwa [this]
  · have hp : 0 < v + w := lt_of_le_of_ne (by linarith) (Ne.symm hz)
    have h1 := hS b c (w / (v + w)) hb hc (by positivity) (by rw [div_le_one hp]; linarith)
    have h2 := hS _ _ (v + w) ha h1 (by linarith) (by linarith)
    have : a + (b + (c - b) * (w / (v + w)) - a) * (v + w) = a * u + b * v + c * w := by
      have hu : u = 1 - (v + w) := by linarith
      rw [hu]
      ext <;> simp <;> field_simp <;> ring
    rwa [this] at h2

theorem firstDirection_neC2 (lp rp : V2 ℝ) : @firstDirection (V2 ℝ) ℝ _ _ (fun a b => propDecidable (a = b)) _ lp rp ≠ 0 := by
  unfold firstDirection
  dsimp only
  split
  · intro h; exact one_ne_zero (congrArg V2.x h)
  · assumption
theorem firstDirection_eqC2 (inst : DecidableEq (V2 ℝ)) (lp rp d : V2 ℝ) (h : rp - lp = d) (h0 : d ≠ 0) : @firstDirection (V2 ℝ) ℝ _ _ inst _ lp rp = d := by
  unfold firstDirection
  dsimp only
  rw [if_neg (by rw [h]; exact h0), h]
theorem firstDirection_neC3 (lp rp : V3 ℝ) : @firstDirection (V3 ℝ) ℝ _ _ (fun a b => propDecidable (a = b)) _ lp rp ≠ 0 := by
  unfold firstDirection
  dsimp only
  split
  · intro h; exact one_ne_zero (congrArg V3.x h)
  · assumption

/-- C54 in 2D, for all convex shapes with correct support functions: a returned distance is positive, is attained by a pair of points of the shapes, and no pair
of points is closer than `δ - tolerance / δ`. -/
theorem c54_2d (L R : V2 ℝ → Prop) (hL : Convex2 L) (hR : Convex2 R) {left right : V2 ℝ → Res (V2 ℝ)} (hl : SupportFn2 left L) (hr : SupportFn2 right R)
    {nan : Res (SP (V2 ℝ))} (hn : ∀ p, nan = .ok p → FromShapes2 L R p) (tolerance : ℝ) (maxIterations : Nat) (leftPos rightPos : V2 ℝ) {δ : ℝ}
    (h : gjkDistance closest2 tolerance maxIterations left right nan leftPos rightPos = .ok (some δ)) :
    0 < δ ∧ (∃ x y, L x ∧ R y ∧ (x - y).norm = δ) ∧ ∀ x y, L x → R y → δ - tolerance / δ < (x - y).norm := by
  have hM := mink2_convex hL hR
  have hs : ∀ d p, d ≠ 0 → SP.fromMinkowski left right d = .ok p → FromShapes2 L R p ∧ ∀ m, Mink2 L R m → Inner.dot m d ≤ Inner.dot p.v d := by
    intro d p hd hp
    obtain ⟨a, ha, h1, h2⟩ := minkowski2 hl hr hd
    rw [hp] at ha
    cases ha
    exact ⟨h1, h2⟩
  unfold gjkDistance at h
  rw [Res.bind_eq_ok] at h
  obtain ⟨s0, hs0, h⟩ := h
  rw [Res.bind_eq_ok] at h
  obtain ⟨s1, hs1, h⟩ := h
  have hfd := firstDirection_neC2 leftPos rightPos
  obtain ⟨v, x, hv, h1, h2, h3, h4⟩ := distanceLoop_some (FromShapes2 L R) (Mink2 L R) (by
    intro s c s' hi hc
    obtain ⟨k1, k2⟩ := closest2_spec hc
    refine ⟨fun p hp => hi _ (k1 p hp), fun v hv h0 => ?_⟩
    obtain ⟨⟨p, hp, q, hq, t, t0, t1, e⟩, k3⟩ := k2 v hv h0
    refine ⟨?_, k3⟩
    rw [e]
    exact hM _ _ t ((hi _ (k1 p hp)).mink) ((hi _ (k1 q hq)).mink) t0 t1) hn hs (fun v => neg_ne2) _ _ _ (by
      intro p hp
      simp only [List.mem_cons, List.not_mem_nil, or_false] at hp
      rcases hp with rfl | rfl
      · exact (hs _ _ hfd hs0).1
      · exact (hs _ _ (neg_ne2 hfd) hs1).1) h
  have hδ : δ = v.norm := by rw [h2, ← V2.norm_neg]; rfl
  have hp : 0 < v.norm := V2.norm_pos hv
  rw [hδ]
  refine ⟨hp, ?_, ?_⟩
  · obtain ⟨l, r, hl, hr, rfl⟩ := h1
    exact ⟨l, r, hl, hr, rfl⟩
  · intro l r hl hr
    have k1 := h4 _ ⟨l, r, hl, hr, rfl⟩
    have k2 : ((l - r).dot (-v)) - x.dot (-v) < tolerance := k1
    rw [dot_neg2, dot_neg2] at k2
    have k3 : v.dot v ≤ x.dot v := h3
    have k4 := V2.cauchy (l - r) v
    have k5 := V2.norm_sq v
    have k6 : (v.norm - tolerance / v.norm) * v.norm < (l - r).norm * v.norm := by
      rw [sub_mul, div_mul_cancel₀ _ hp.ne']
      linarith
    exact lt_of_mul_lt_mul_right k6 hp.le

/-- C54 in 3D, for all convex shapes with correct support functions. -/
theorem c54_3d (L R : V3 ℝ → Prop) (hL : Convex3 L) (hR : Convex3 R) {left right : V3 ℝ → Res (V3 ℝ)} (hl : SupportFn3 left L) (hr : SupportFn3 right R)
    {nan : Res (SP (V3 ℝ))} (hn : ∀ p, nan = .ok p → FromShapes3 L R p) (tolerance : ℝ) (maxIterations : Nat) (leftPos rightPos : V3 ℝ) {δ : ℝ}
    (h : gjkDistance closest3 tolerance maxIterations left right nan leftPos rightPos = .ok (some δ)) :
    0 < δ ∧ (∃ x y, L x ∧ R y ∧ (x - y).norm = δ) ∧ ∀ x y, L x → R y → δ - tolerance / δ < (x - y).norm := by
  have hM := mink3_convex hL hR
  have hs : ∀ d p, d ≠ 0 → SP.fromMinkowski left right d = .ok p → FromShapes3 L R p ∧ ∀ m, Mink3 L R m → Inner.dot m d ≤ Inner.dot p.v d := by
    intro d p hd hp
    obtain ⟨a, ha, h1, h2⟩ := minkowski3 hl hr hd
    rw [hp] at ha
    cases ha
    exact ⟨h1, h2⟩
  unfold gjkDistance at h
  rw [Res.bind_eq_ok] at h
  obtain ⟨s0, hs0, h⟩ := h
  rw [Res.bind_eq_ok] at h
  obtain ⟨s1, hs1, h⟩ := h
  have hfd := firstDirection_neC3 leftPos rightPos
  obtain ⟨v, x, hv, h1, h2, h3, h4⟩ := distanceLoop_some (FromShapes3 L R) (Mink3 L R) (by
    intro s c s' hi hc
    obtain ⟨k1, k2⟩ := closest3_spec hc
    refine ⟨fun p hp => hi _ (k1 p hp), fun v hv h0 => ?_⟩
    obtain ⟨⟨p, hp, q, hq, r, hr, e⟩, k3⟩ := k2 v hv h0
    have mk : ∀ p ∈ s', Mink3 L R p.v := fun p hp => ⟨_, _, (hi _ (k1 p hp)).1, (hi _ (k1 p hp)).2.1, (hi _ (k1 p hp)).2.2⟩
    exact ⟨convex_tri3 hM (mk p hp) (mk q hq) (mk r hr) e, k3⟩) hn hs (fun v => neg_ne3) _ _ _ (by
      intro p hp
      simp only [List.mem_cons, List.not_mem_nil, or_false] at hp
      rcases hp with rfl | rfl
      · exact (hs _ _ hfd hs0).1
      · exact (hs _ _ (neg_ne3 hfd) hs1).1) h
  have hδ : δ = v.norm := by rw [h2, ← V3.norm_neg]; rfl
  have hp : 0 < v.norm := V3.norm_pos hv
  rw [hδ]
  refine ⟨hp, ?_, ?_⟩
  · obtain ⟨l, r, hl, hr, rfl⟩ := h1
    exact ⟨l, r, hl, hr, rfl⟩
  · intro l r hl hr
    have k1 := h4 _ ⟨l, r, hl, hr, rfl⟩
    have k2 : ((l - r).dot (-v)) - x.dot (-v) < tolerance := k1
    rw [dot_neg3, dot_neg3] at k2
    have k3 : v.dot v ≤ x.dot v := h3
    have k4 := V3.cauchy (l - r) v
    have k5 := V3.norm_sq v
    have k6 : (v.norm - tolerance / v.norm) * v.norm < (l - r).norm * v.norm := by
      rw [sub_mul, div_mul_cancel₀ _ hp.ne']
      linarith
    exact lt_of_mul_lt_mul_right k6 hp.le

/-- C54 for any two 2D primitives of the library, any rotations, translations and non-zero scales. -/
theorem c54_prim2 (s t : Prim2) (hs : s.Ok) (ht : t.Ok) (D E : Dec2 ℝ) (hD : D.rot.Orthogonal) (hE : E.rot.Orthogonal) (hDs : D.scale ≠ 0) (hEs : E.scale ≠ 0)
    {nan : Res (SP (V2 ℝ))} (hn : ∀ p, nan = .ok p → FromShapes2 (Image D.tr s.Points) (Image E.tr t.Points) p) (tolerance : ℝ) (maxIterations : Nat) {δ : ℝ}
    (h : gjkDistance closest2 tolerance maxIterations (s.supportPoint D.tr) (t.supportPoint E.tr) nan (D.tr.point 0) (E.tr.point 0) = .ok (some δ)) :
    0 < δ ∧ (∃ x y, Image D.tr s.Points x ∧ Image E.tr t.Points y ∧ (x - y).norm = δ) ∧
      ∀ x y, Image D.tr s.Points x → Image E.tr t.Points y → δ - tolerance / δ < (x - y).norm :=
  c54_2d _ _ (image_convex2 D (prim2_convex s)) (image_convex2 E (prim2_convex t)) (prim2_support s hs D hD hDs) (prim2_support t ht E hE hEs) hn _ _ _ _ h

/-- C54 for any two 3D primitives of the library. -/
theorem c54_prim3 (s t : Prim3) (hs : s.Ok) (ht : t.Ok) (nz nz' : V3 ℝ → Bool) (D E : Dec3 ℝ) (hD : D.rot.Orthogonal) (hE : E.rot.Orthogonal)
    (hDs : D.scale ≠ 0) (hEs : E.scale ≠ 0)
    {nan : Res (SP (V3 ℝ))} (hn : ∀ p, nan = .ok p → FromShapes3 (Image D.tr s.Points) (Image E.tr t.Points) p) (tolerance : ℝ) (maxIterations : Nat) {δ : ℝ}
    (h : gjkDistance closest3 tolerance maxIterations (s.supportPoint nz D.tr) (t.supportPoint nz' E.tr) nan (D.tr.point 0) (E.tr.point 0) = .ok (some δ)) :
    0 < δ ∧ (∃ x y, Image D.tr s.Points x ∧ Image E.tr t.Points y ∧ (x - y).norm = δ) ∧
      ∀ x y, Image D.tr s.Points x → Image E.tr t.Points y → δ - tolerance / δ < (x - y).norm :=
  c54_3d _ _ (image_convex3 D (prim3_convex s)) (image_convex3 E (prim3_convex t)) (prim3_support s hs nz D hD hDs) (prim3_support t ht nz' E hE hEs) hn _ _ _ _ h

/-! ## "None if they collide" -/

/-- The segment from `(2, 0)` to `(3, 0)` as a primitive. -/
def seg23 : Prim2 := .line ⟨⟨2, 0⟩, ⟨3, 0⟩⟩

theorem at2_point (p q : V2 ℝ) : (at2 p).tr.point q = q + p := by ext <;> simp [at2, Dec2.tr, M2.apply]

theorem seg23_support (p d : V2 ℝ) : seg23.supportPoint (at2 p).tr d = .ok ((if 0 ≤ d.x then ⟨3, 0⟩ else ⟨2, 0⟩) + p) := by
  simp only [seg23, Prim2.supportPoint, lineSupport, support, at2_point]
  have : (at2 p).tr.invVector d = some d := by
    have h1 : (at2 p).scale ≠ 0 := one_ne_zero
    simp only [Dec2.tr, h1, if_false]
    congr 1
    ext <;> simp [at2, M2.transpose, M2.apply]
  simp only [this, Res.ofOption_some, Res.bind_ok, Res.pure_eq, lineLocal, V2.dot, V2.sub_x, V2.sub_y]
  norm_num

/-- A segment on the x axis: the closest point to the origin. -/
theorem closest_x {a b : ℝ} (h : a ≠ b) (p q : SP (V2 ℝ)) (hp : p.v = ⟨a, 0⟩) (hq : q.v = ⟨b, 0⟩) (h1 : 0 < a) (h2 : 0 < b) :
    closest2 [p, q] = .ok (some ⟨min a b, 0⟩, [p, q]) := by
  have hne : (⟨a, 0⟩ : V2 ℝ) - ⟨b, 0⟩ ≠ 0 := by
    intro e
    have := congrArg V2.x e
    simp at this
    exact h (by linarith)
  obtain ⟨c, hc⟩ : ∃ c, closestOnEdge2 ⟨b, 0⟩ ⟨a, 0⟩ = some c := by
    unfold closestOnEdge2
    simp only [hne, if_false]
    exact ⟨_, rfl⟩
  obtain ⟨-, ⟨t, t0, t1, h3⟩, h4, h5⟩ := closestOnEdge2_spec hc
  have hx : c.x = b + (a - b) * t := by rw [h3]; simp
  have hy : c.y = 0 := by rw [h3]; simp
  simp only [V2.dot, hy, mul_zero, add_zero] at h4 h5
  have hcx : 0 < c.x := by
    rw [hx]
    rcases le_total a b with hle | hle
    · nlinarith
    · nlinarith
  have h6 : c.x ≤ b := le_of_mul_le_mul_right h4 hcx
  have h7 : c.x ≤ a := le_of_mul_le_mul_right h5 hcx
  have : c = ⟨min a b, 0⟩ := by
    ext
    · rcases le_total a b with hle | hle
      · rw [min_eq_left hle]; refine le_antisymm h7 ?_
        rw [hx]; nlinarith
      · rw [min_eq_right hle]; refine le_antisymm h6 ?_
        rw [hx]; nlinarith
    · exact hy
  simp only [closest2, reduce2, hp, hq, hc, this, Bool.false_eq_true, if_false]

/-- The hypotheses of `c54_2d` and `c54_prim2` are met: the distance of a segment and a particle, as the code computes it. -/
example (tolerance : ℝ) (ht : 0 < tolerance) (nan : Res (SP (V2 ℝ))) :
    gjkDistance closest2 tolerance 100 (seg23.supportPoint (at2 0).tr) (Prim2.particle.supportPoint (at2 0).tr) nan ⟨1, 0⟩ ⟨0, 0⟩ = .ok (some 2) := by
  have hl : ∀ d, Prim2.particle.supportPoint (at2 0).tr d = .ok 0 := by
    intro d
    simp only [Prim2.supportPoint, at2_point]
    congr 1
    ext <;> simp
  have e0 := firstDirection_eqC2 (fun a b => propDecidable (a = b)) ⟨1, 0⟩ ⟨0, 0⟩ ⟨-1, 0⟩ (by ext <;> simp)
    (by intro h; have := congrArg V2.x h; simp at this)
  unfold gjkDistance
  simp only [e0, SP.fromMinkowski, seg23_support, hl, Res.bind_ok, Res.pure_eq]
  unfold distanceLoop
  rw [closest_x (a := 2) (b := 3) (by norm_num) _ _ (by ext <;> norm_num) (by ext <;> norm_num) (by norm_num) (by norm_num)]
  have hne : (⟨min 2 3, 0⟩ : V2 ℝ) ≠ 0 := by intro h; have := congrArg V2.x h; norm_num at this
  simp only [Res.bind_ok, if_neg hne, SP.fromMinkowski, seg23_support, hl, Res.pure_eq, List.getElem?_cons_zero, Res.ofOption_some]
  have hm : min (2 : ℝ) 3 = 2 := by norm_num
  rw [if_pos]
  · simp only [mag, Inner.dot, V2.dot, V2.neg_x, V2.neg_y, hm]
    congr 2
    norm_num
    rw [show (4 : ℝ) = 2 * 2 by norm_num]
    exact Real.sqrt_mul_self (by norm_num)
  · simp only [Inner.dot, V2.dot, V2.neg_x, V2.neg_y, hm]
    norm_num
    exact ht

/-- "None if the objects collide" does not hold the other way round: for the segment from `(2, 0)` to `(3, 0)` and a particle at `(1, 0)` - one unit apart - the
answer is `None` (the convergence test looks at the first point of the simplex, here the far end of the segment; the next support point is the near end
again, and the flat triangle counts as containing the origin). -/
theorem c54_none_false (tolerance : ℝ) (ht : tolerance ≤ 1) (n : Nat) (nan : Res (SP (V2 ℝ))) :
    gjkDistance closest2 tolerance n (seg23.supportPoint (at2 0).tr) (Prim2.particle.supportPoint (at2 ⟨1, 0⟩).tr) nan
      ((at2 0).tr.point 0) ((at2 ⟨1, 0⟩).tr.point 0) = .ok none ∧
    ∀ x y, Image (at2 0).tr seg23.Points x → Image (at2 ⟨1, 0⟩).tr Prim2.particle.Points y → 1 ≤ (x - y).norm := by
  constructor
  · have hl : ∀ d, Prim2.particle.supportPoint (at2 ⟨1, 0⟩).tr d = .ok ⟨1, 0⟩ := by
      intro d
      simp only [Prim2.supportPoint, at2_point]
      congr 1
      ext <;> simp
    have e0 := firstDirection_eqC2 (fun a b => propDecidable (a = b)) ((at2 0).tr.point 0) ((at2 ⟨1, 0⟩).tr.point 0) ⟨1, 0⟩
      (by simp only [at2_point]; ext <;> simp) (by intro h; have := congrArg V2.x h; simp at this)
    unfold gjkDistance
    simp only [e0, SP.fromMinkowski, seg23_support, hl, Res.bind_ok, Res.pure_eq]
    cases n with
    | zero => rfl
    | succ n =>
    unfold distanceLoop
    rw [closest_x (a := 2) (b := 1) (by norm_num) _ _ (by ext <;> norm_num) (by ext <;> norm_num) (by norm_num) (by norm_num)]
    have hne : (⟨min 2 1, 0⟩ : V2 ℝ) ≠ 0 := by intro h; have := congrArg V2.x h; norm_num at this
    simp only [Res.bind_ok, if_neg hne, SP.fromMinkowski, seg23_support, hl, Res.pure_eq, List.getElem?_cons_zero, Res.ofOption_some]
    have hm : min (2 : ℝ) 1 = 1 := by norm_num
    rw [if_neg]
    · cases n with
      | zero => rfl
      | succ n =>
        unfold distanceLoop
        simp [closest2, reduce2, hm, tripleProduct, V2.dot]
    · simp only [Inner.dot, V2.dot, V2.neg_x, V2.neg_y, hm]
      norm_num
      linarith
  · rintro _ _ ⟨x, ⟨t, t0, t1, rfl⟩, rfl⟩ ⟨y, rfl, rfl⟩
    have h1 := V2.cauchy ((at2 0).tr.point (Line2.at ⟨⟨2, 0⟩, ⟨3, 0⟩⟩ t) - (at2 ⟨1, 0⟩).tr.point 0) ⟨1, 0⟩
    have h2 : V2.norm ⟨1, 0⟩ = 1 := by simp [V2.norm, V2.dot]
    rw [h2, mul_one] at h1
    refine le_trans ?_ h1
    simp only [at2_point, V2.dot, Line2.at]
    norm_num
    linarith

/-- Two particles: the search starts with the same support point twice, the direction becomes NaN and the answer is always `None`, however far apart they are.
(The support of a particle does not depend on the direction, so `nan` is the same point.) -/
theorem c54_particles_false (p q : V2 ℝ) (tolerance : ℝ) (n : Nat) :
    gjkDistance closest2 tolerance n (Prim2.particle.supportPoint (at2 p).tr) (Prim2.particle.supportPoint (at2 q).tr) (.ok ⟨p - q, p, q⟩)
      ((at2 p).tr.point 0) ((at2 q).tr.point 0) = .ok none := by
  have hp : ∀ (r d : V2 ℝ), Prim2.particle.supportPoint (at2 r).tr d = .ok r := by
    intro r d
    simp only [Prim2.supportPoint, at2_point]
    congr 1
    ext <;> simp
  unfold gjkDistance
  simp only [SP.fromMinkowski, hp, Res.bind_ok, Res.pure_eq]
  cases n with
  | zero => rfl
  | succ n =>
  unfold distanceLoop
  have e : closest2 [⟨p - q, p, q⟩, ⟨p - q, p, q⟩] = .ok (none, [⟨p - q, p, q⟩, ⟨p - q, p, q⟩]) := by
    have : p - q - (p - q) = 0 := by ext <;> simp
    simp [closest2, reduce2, closestOnEdge2, this]
  simp only [e, Res.bind_ok]
  cases n with
  | zero => rfl
  | succ n =>
    unfold distanceLoop
    have e2 : closest2 [⟨p - q, p, q⟩, ⟨p - q, p, q⟩, ⟨p - q, p, q⟩] = .ok (some 0, [⟨p - q, p, q⟩, ⟨p - q, p, q⟩, ⟨p - q, p, q⟩]) := by
      simp [closest2, reduce2, tripleProduct, V2.dot]
    simp [e2]
end
end Verif.Minkowski
