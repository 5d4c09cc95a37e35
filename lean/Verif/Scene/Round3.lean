import Verif.Scene.Round
/-!
# GJK in rounded arithmetic with spheres, capsules and cylinders (C118)
-/
namespace Verif.Scene
open Verif Geom Primitive Minkowski
open Verif.Dbvt (Rounding)
set_option linter.unusedSectionVars false
noncomputable section
open Classical
variable {F : Type} [LinearOrder F] {R : Rounding F} {u η Ω M N A B τ : ℝ}

/-- Specification: the support function of a solid in rounded arithmetic, in the directions that are not bad: its answer is a point of the solid up to rounding, and no point of the solid is farther by more than rounding. -/
def Near3S (R : Rounding F) (u M N : ℝ) (Bad : V3 (Fl R) → Prop) (f : V3 (Fl R) → Res (V3 (Fl R))) (S : V3 ℝ → Prop) : Prop :=
  ∀ d, Rep3 R d → Sz3 N d → ¬ Bad (toV3 R d) → ∃ w, Rep3 R w ∧ Sz3 (6 * M) w ∧ f (toV3 R d) = .ok (toV3 R w) ∧ (∃ p, S p ∧ Sz3 (80 * (u * M)) (w - p)) ∧
    ∀ p, S p → p.dot d ≤ w.dot d + 768 * (u * (M * size3 d))

theorem size3_neg (d : V3 ℝ) : size3 (-d) = size3 d := by simp [size3]
theorem dot_neg_3 (a b : V3 ℝ) : a.dot (-b) = -(a.dot b) := by simp [V3.dot]; ring

/-- A point of the Minkowski difference in rounded arithmetic. -/
theorem mink3_guarded (h : RoundStd R u η Ω τ M) {BL BR : V3 (Fl R) → Prop} (hBL : ∀ d, Tiny3 R τ d → BL d) {f g : V3 (Fl R) → Res (V3 (Fl R))} {L Rr : V3 ℝ → Prop} (hf : Near3S R u M N BL f L) (hg : Near3S R u M N BR g Rr)
    (hN : N ≤ 2 ^ 22 * M ^ 3) {d : V3 ℝ} (rd : Rep3 R d) (sd : Sz3 N d) :
    SP.fromMinkowski (refusing BL f) (refusing BR g) (toV3 R d) = .panic ∨
    ∃ a, SP.fromMinkowski (refusing BL f) (refusing BR g) (toV3 R d) = .ok a ∧ SP.fromMinkowski f g (toV3 R d) = .ok a ∧ BdV R (13 * M) a.v ∧ NearPoint3 R (176 * (u * M)) L Rr a ∧
      (a.v.dot (toV3 R d) ≤ 0 → NearlySeparated3 (2048 * (u * M)) L Rr) := by
  have hs := h.std
  have hu := hs.u0
  have hu1 := hs.u1
  have hη := hs.η0
  have hM := h.M1
  obtain ⟨m3, m4, m6, m1⟩ := h.m3
  have hΩ := h.high
  obtain ⟨s1, s2⟩ := h.small
  have uM : u * 1 ≤ u * M := mul_le_mul_of_nonneg_left hM hu
  have uM' : u * M ≤ 1 / 16 * M := mul_le_mul_of_nonneg_right hu1 (by linarith)
  have hNΩ : N ≤ Ω := by linarith
  have rn := rep3_neg hs rd sd hNΩ
  by_cases bl : BL (toV3 R d)
  · refine Or.inl ?_
    unfold SP.fromMinkowski refusing
    rw [if_pos bl]
    rfl
  obtain ⟨w, rw', sw, ew, ⟨p0, hp0, np⟩, dw⟩ := hf d rd sd bl
  by_cases br : BR (toV3 R (-d))
  · refine Or.inl ?_
    unfold SP.fromMinkowski refusing
    rw [if_neg bl, ew, Res.bind_ok, show -toV3 R d = toV3 R (-d) from toV3_neg rd, if_pos br]
    rfl
  obtain ⟨w2, rw2, sw2, ew2, ⟨q0, hq0, nq⟩, dw2⟩ := hg (-d) rn sd.neg br
  rw [size3_neg] at dw2
  refine Or.inr ?_
  obtain ⟨a', ra, ea, da⟩ := sub3_err hs rw' rw2 sw sw2 (by linarith)
  have da' : Sz3 (13 * (u * M)) (a' - (w - w2)) := da.mono (by linarith)
  have sa : Sz3 (13 * M) a' := (sz3_sub da' (sz3_diff sw sw2)).mono (by linarith)
  have htiny : τ ≤ size3 d := not_tiny3 rd fun ht => bl (hBL _ ht)
  refine ⟨⟨toV3 R a', toV3 R w, toV3 R w2⟩, ?_, ?_, ⟨a', rfl, ra, sa⟩, ⟨a', w, w2, p0, q0, hp0, hq0, rfl, ⟨ra, rw', rw2⟩, ?_, np.mono (by linarith), nq.mono (by linarith)⟩, ?_⟩
  · unfold SP.fromMinkowski refusing
    rw [if_neg bl, ew, Res.bind_ok, show -toV3 R d = toV3 R (-d) from toV3_neg rd, if_neg br, ew2, Res.bind_ok, ea]
    rfl
  · unfold SP.fromMinkowski
    rw [ew, Res.bind_ok, show -toV3 R d = toV3 R (-d) from toV3_neg rd, ew2, Res.bind_ok, ea]
    rfl
  · have k : ∀ {α β γ δ ε : ℝ}, |α - (β - γ)| ≤ 13 * (u * M) → |β - δ| ≤ 80 * (u * M) → |γ - ε| ≤ 80 * (u * M) → |α - (δ - ε)| ≤ 176 * (u * M) := by
      intro α β γ δ ε h1 h2 h3
      rw [abs_le] at h1 h2 h3 ⊢
      constructor <;> linarith
    exact ⟨k da'.1 np.1 nq.1, k da'.2.1 np.2.1 nq.2.1, k da'.2.2 np.2.2 nq.2.2⟩
  · intro hle
    have nd : d ≠ 0 := by
      rintro rfl
      have : size3 (0 : V3 ℝ) = 0 := by simp [size3]
      linarith [h.τ0]
    refine ⟨d, nd, fun p q hp hq => ?_⟩
    have hs0 := size3_nonneg d
    have sd' := sz_size3 d
    have hdN : size3 d ≤ N := size3_le sd
    have hMN : 0 ≤ M * size3 d := mul_nonneg (by linarith) hs0
    have big : M * size3 d ≤ 2 ^ 22 * M ^ 4 := by
      have : M * size3 d ≤ M * (2 ^ 22 * M ^ 3) := mul_le_mul_of_nonneg_left (hdN.trans hN) (by linarith)
      rw [show M * (2 ^ 22 * M ^ 3) = 2 ^ 22 * M ^ 4 by ring] at this
      exact this
    have hΩ4 := h.big4
    obtain ⟨r, rr, er, dr⟩ := dot3_err hs ra rd sa sd' (by linarith)
    have hr : r ≤ 0 := by
      rw [show (⟨toV3 R a', toV3 R w, toV3 R w2⟩ : SP (V3 (Fl R))).v = toV3 R a' from rfl, er, ← toF_zero] at hle
      exact (toF_le rr rep_zero).1 hle
    have h1 := dw p hp
    have h2 := dw2 q hq
    have h3 := dot3_sub_le da' sd'
    rw [show (w - w2).dot d = w.dot d - w2.dot d by simp [V3.dot]; ring] at h3
    rw [dot_neg_3, dot_neg_3] at h2
    rw [show (p - q).dot d = p.dot d - q.dot d by simp [V3.dot]; ring]
    rw [abs_le] at h3 dr
    have e1 : u * (M * size3 d) = u * M * size3 d := by ring
    have e2 : u * (13 * M * size3 d) = 13 * (u * M * size3 d) := by ring
    have e3 : 13 * (u * M) * size3 d = 13 * (u * M * size3 d) := by ring
    have e4 : 2048 * (u * M) * size3 d = 2048 * (u * M * size3 d) := by ring
    have q1 : u * τ ≤ u * M * size3 d := by
      have : u * τ ≤ u * M * τ := by
        have := mul_le_mul_of_nonneg_right uM h.τ0.le
        linarith
      exact this.trans (mul_le_mul_of_nonneg_left htiny (mul_nonneg hu (by linarith)))
    rw [e1] at h1 h2
    rw [e2] at dr
    rw [e3] at h3
    rw [e4]
    have q2 : 0 ≤ u * M * size3 d := mul_nonneg (mul_nonneg hu (by linarith)) hs0
    linarith

/-- **The run with guarded support functions.** -/
theorem run_guarded3 (h : RoundStd R u η Ω τ M) {eps tenth : Fl R} (hT : GoodTenth R tenth) {BL BR : V3 (Fl R) → Prop} (hBL : ∀ d, Tiny3 R τ d → BL d) {f g : V3 (Fl R) → Res (V3 (Fl R))} {L Rr : V3 ℝ → Prop}
    (hf : Near3S R u M (2 ^ 22 * M ^ 3) BL f L) (hg : Near3S R u M (2 ^ 22 * M ^ 3) BR g Rr) {p q : V3 (Fl R)} (bp : BdV R (6 * M) p) (bq : BdV R (6 * M) q) (n : Nat) :
    gjkRunG3 eps tenth n (refusing BL f) (refusing BR g) p q = .panic ∨
    ∃ o, gjkRunG3 eps tenth n (refusing BL f) (refusing BR g) p q = .ok o ∧ gjkRunG3 eps tenth n f g p q = .ok o ∧
      (o = .miss → NearlySeparated3 (2048 * (u * M)) L Rr) ∧ (∀ x, o = .hit x → x.length = 4 ∧ ∀ p ∈ x, NearPoint3 R (176 * (u * M)) L Rr p) := by
  have hs := h.std
  have hM := h.M1
  obtain ⟨m3, m4, m6, m1⟩ := h.m3
  have hΩ4 := h.big4
  have first : BdV R (2 ^ 22 * M ^ 3) (firstDirectionG3 eps p q) := by
    unfold firstDirectionG3
    dsimp only
    split
    · refine ⟨⟨1, 1, 1⟩, ?_, ⟨rep_one, rep_one, rep_one⟩, ?_⟩
      · show _ = (⟨toF R 1, toF R 1, toF R 1⟩ : V3 (Fl R))
        rw [toF_one]
      · have : Sz3 1 (⟨1, 1, 1⟩ : V3 ℝ) := ⟨by simp, by simp, by simp⟩
        exact this.mono (by linarith)
    · exact (bq.sub hs bp (by linarith) (by linarith) (by linarith)).mono (by linarith)
  rw [gjkRunG3_from, gjkRunG3_from]
  refine runFrom_guarded (fun l d => BdV R (2 ^ 22 * M ^ 3) d ∧ ∀ p ∈ l, BdV R (13 * M) p.v ∧ NearPoint3 R (176 * (u * M)) L Rr p) (NearlySeparated3 (2048 * (u * M)) L Rr)
    (fun x => x.length = 4 ∧ ∀ p ∈ x, NearPoint3 R (176 * (u * M)) L Rr p) ?_ n ?_
  · rintro l d ⟨hd, hl⟩
    obtain ⟨d', rfl, rd, sd⟩ := id hd
    rcases mink3_guarded h hBL hf hg le_rfl rd sd with e | ⟨a, e1, e2, ga, na, hmiss⟩
    · exact Or.inl e
    · have all : ∀ p ∈ l ++ [a], BdV R (13 * M) p.v ∧ NearPoint3 R (176 * (u * M)) L Rr p := by
        intro p hp
        rcases List.mem_append.1 hp with hp | hp
        · exact hl p hp
        · rw [List.mem_singleton.1 hp]
          exact ⟨ga, na⟩
      obtain ⟨k1, k2, k3⟩ := reduce3_bounded hs hM (by linarith) (eps := eps) hT (fun p hp => (all p hp).1) hd
      exact Or.inr ⟨a, e1, e2, hmiss, fun _ => ⟨fun hr => ⟨k3 hr, fun p hp => (all p (k1 p hp)).2⟩, fun _ => ⟨k2, fun p hp => all p (k1 p hp)⟩⟩⟩
  · obtain ⟨d', ed, rd, sd⟩ := id first
    rw [ed] at first ⊢
    rcases mink3_guarded h hBL hf hg le_rfl rd sd with e | ⟨a, e1, e2, ga, na, hmiss⟩
    · exact Or.inl e
    · exact Or.inr ⟨a, e1, e2, hmiss, fun _ => ⟨first.neg hs (by linarith), by simpa using ⟨ga, na⟩⟩⟩

/-- The solids with corners. -/
theorem box_guarded (h : RoundStd R u η Ω τ M) {s : Minkowski.Box3 ℝ} (hs : FitsS R M s) {D : Dec3 ℝ} (hD : Fits3 R M D) (hN : N ≤ 2 ^ 22 * M ^ 3) :
    Near3S R u M N (Tiny3 R τ) ((s.toFl R).supportG (decF3 R D)) (Image D.tr s.prim.Points) := by
  intro d rd sd ht
  have htiny := not_tiny3 rd ht
  have hM := h.M1
  have hu := h.std.u0
  have hη := h.std.η0
  have hs0 := size3_nonneg d
  have hdN : size3 d ≤ 2 ^ 22 * M ^ 3 := (size3_le sd).trans hN
  obtain ⟨m3, m4, m6, m1⟩ := h.m3
  have hΩ4 := h.big4
  obtain ⟨s1, s2⟩ := h.small
  have big : M * size3 d ≤ 2 ^ 22 * M ^ 4 := by
    have : M * size3 d ≤ M * (2 ^ 22 * M ^ 3) := mul_le_mul_of_nonneg_left hdN (by linarith)
    rw [show M * (2 ^ 22 * M ^ 3) = 2 ^ 22 * M ^ 4 by ring] at this
    exact this
  obtain ⟨w, rw', sw, ew, ⟨p0, hp0, np⟩, dw⟩ := support3_near h.std hs hD hM rd (sz_size3 d) (by linarith)
  have uM : u * 1 ≤ u * M := mul_le_mul_of_nonneg_left hM hu
  refine ⟨w, rw', sw, ew, ⟨p0, hp0, np.mono (by linarith)⟩, fun p hp => (dw p hp).trans ?_⟩
  have q1 : η ≤ u * size3 d := by
    have : u * τ ≤ u * size3 d := mul_le_mul_of_nonneg_left htiny hu
    linarith
  have q2 : η * M ≤ u * size3 d * M := mul_le_mul_of_nonneg_right q1 (by linarith)
  have q3 : η * size3 d ≤ u * size3 d := mul_le_mul_of_nonneg_right s1 hs0
  have q4 : u * size3 d * 1 ≤ u * size3 d * M := mul_le_mul_of_nonneg_left hM (mul_nonneg hu hs0)
  have e1 : u * (M * size3 d) = u * size3 d * M := by ring
  rw [e1]
  linarith

/-! ## Round solids -/

theorem image_dot3 (D : Dec3 ℝ) (hs : D.scale = 1) (x d : V3 ℝ) : (D.tr.point x).dot d = x.dot (D.rot.transpose.apply d) + D.disp.dot d := by
  show (D.rot.apply (x * D.scale) + D.disp).dot d = _
  rw [hs]
  simp [M3.apply, M3.transpose, V3.dot]
  ring
theorem sz3_chain {a b c : V3 ℝ} (h1 : Sz3 A (a - b)) (h2 : Sz3 B (b - c)) : Sz3 (A + B) (a - c) :=
  ⟨(abs_sub_le a.x b.x c.x).trans (add_le_add h1.1 h2.1), (abs_sub_le a.y b.y c.y).trans (add_le_add h1.2.1 h2.2.1), (abs_sub_le a.z b.z c.z).trans (add_le_add h1.2.2 h2.2.2)⟩
theorem size3_sub (a b : V3 ℝ) {δ : ℝ} (h : Sz3 δ (a - b)) : size3 b ≤ size3 a + δ := by
  have k : ∀ {x y : ℝ}, |x - y| ≤ δ → |y| ≤ |x| + δ := by
    intro x y hxy
    have := abs_sub_abs_le_abs_sub y x
    rw [abs_sub_comm] at this
    linarith
  have sa := sz_size3 a
  exact size3_le ⟨(k h.1).trans (by linarith [sa.1]), (k h.2.1).trans (by linarith [sa.2.1]), (k h.2.2).trans (by linarith [sa.2.2])⟩

/-- The local direction in rounded arithmetic. -/
theorem local3_near (h : RoundStd R u η Ω τ M) {D : Dec3 ℝ} (hD : Fits3 R M D) {d : V3 ℝ} (rd : Rep3 R d) (hdN : size3 d ≤ 2 ^ 22 * M ^ 3) (htiny : τ ≤ size3 d) :
    ∃ e, Rep3 R e ∧ invVectorG3 (decF3 R D) (toV3 R d) = some (toV3 R e) ∧ Sz3 (15 * (u * size3 d)) (e - D.rot.transpose.apply d) ∧ Sz3 (4 * size3 d) e := by
  have hS := h.std
  have hM := h.M1
  have hu := h.std.u0
  have hu' := h.u'
  have hη := h.std.η0
  have hs0 := size3_nonneg d
  obtain ⟨m3, m4, m6, m1⟩ := h.m3
  have hΩ4 := h.big4
  obtain ⟨s1, s2⟩ := h.small
  have un : u * size3 d ≤ 1 / 1024 * size3 d := mul_le_mul_of_nonneg_right hu' hs0
  have q1 : 16 * η ≤ u * size3 d := by
    have : u * τ ≤ u * size3 d := mul_le_mul_of_nonneg_left htiny hu
    linarith
  obtain ⟨e, re, ee, de⟩ := apply3_err hS hD.rot.transpose rd (sz_size3 d) (by linarith)
  have sT : Sz3 (3 * size3 d) (D.rot.transpose.apply d) := apply3_sz hD.rot.transpose (sz_size3 d)
  have de' : Sz3 (15 * (u * size3 d)) (e - D.rot.transpose.apply d) := de.mono (by linarith)
  refine ⟨e, re, ?_, de', (sz3_sub de' sT).mono (by linarith)⟩
  unfold invVectorG3
  rw [if_neg (scale_one3 D hD.scale rd).2.2, (scale_one3 D hD.scale rd).2.1]
  exact congrArg some ee

/-- From the local answer to the answer. -/
theorem place3_near (h : RoundStd R u η Ω τ M) {D : Dec3 ℝ} (hD : Fits3 R M D) {S : V3 ℝ → Prop} (hS : ∀ p, S p → Sz3 (M / 2) p) {d e v p0 : V3 ℝ} (de : Sz3 (15 * (u * size3 d)) (e - D.rot.transpose.apply d)) (hx : Extreme3 S e p0)
    (rv : Rep3 R v) (dv : Sz3 (18 * (u * M)) (v - p0)) :
    ∃ w, Rep3 R w ∧ Sz3 (6 * M) w ∧ pointG3 (decF3 R D) (toV3 R v) = toV3 R w ∧ (∃ p, Image D.tr S p ∧ Sz3 (80 * (u * M)) (w - p)) ∧
      ∀ p, Image D.tr S p → p.dot d ≤ w.dot d + 768 * (u * (M * size3 d)) := by
  have hSt := h.std
  have hM := h.M1
  have hu := h.std.u0
  have hu' := h.u'
  have hs0 := size3_nonneg d
  obtain ⟨m3, m4, m6, m1⟩ := h.m3
  have hΩ4 := h.big4
  obtain ⟨s1, s2⟩ := h.small
  have uM : u * 1 ≤ u * M := mul_le_mul_of_nonneg_left hM hu
  have uM' : u * M ≤ 1 / 1024 * M := mul_le_mul_of_nonneg_right hu' (by linarith)
  obtain ⟨p1, p2⟩ := hx
  have sp := hS _ p1
  have sv : Sz3 M v := (sz3_sub dv sp).mono (by linarith)
  obtain ⟨w, rw', sw, ew, dw⟩ := point3_near hSt hD hM rv sv (by linarith)
  have dp : Sz3 (80 * (u * M)) (w - D.tr.point p0) := by
    have h1 := apply3_sz hD.rot dv
    have h2 : D.rot.apply (v - p0) = D.tr.point v - D.tr.point p0 := by
      show _ = D.rot.apply (v * D.scale) + D.disp - (D.rot.apply (p0 * D.scale) + D.disp)
      rw [hD.scale]
      ext <;> simp [M3.apply] <;> ring
    rw [h2] at h1
    exact (sz3_chain dw h1).mono (by linarith)
  refine ⟨w, rw', sw, ew, ⟨_, ⟨_, p1, rfl⟩, dp⟩, ?_⟩
  rintro p ⟨q, hq, rfl⟩
  have h1 := p2 q hq
  have h2 := dot3_sub_le de (hS q hq)
  have h3 := dot3_sub_le de sp
  have h4 := dot3_sub_le dp (sz_size3 d)
  rw [image_dot3 D hD.scale] at h4 ⊢
  have comm : ∀ a b : V3 ℝ, a.dot b = b.dot a := fun a b => by simp [V3.dot]; ring
  rw [comm q, comm p0] at h1
  rw [comm q]
  rw [comm p0 (D.rot.transpose.apply d)] at h4
  rw [abs_le] at h2 h3 h4
  have e1 : u * (M * size3 d) = u * size3 d * M := by ring
  have e2 : 15 * (u * size3 d) * (M / 2) = 15 / 2 * (u * size3 d * M) := by ring
  have e3 : 80 * (u * M) * size3 d = 80 * (u * size3 d * M) := by ring
  rw [e2] at h2 h3
  rw [e3] at h4
  rw [e1]
  have q4 : 0 ≤ u * size3 d * M := mul_nonneg (mul_nonneg hu hs0) (by linarith)
  linarith

/-- `normalize_to` of a vector between `τ / 4` and `2^25 M^3`. -/
theorem normal3_near (h : RoundStd R u η Ω τ M) {e : V3 ℝ} {r : ℝ} (hr : 0 ≤ r) (rr : Rep R r) (hrM : r ≤ M) (re : Rep3 R e) (lo : τ / 4 ≤ e.norm) (hi : e.norm ≤ 2 ^ 25 * M ^ 3) :
    ∃ v, Rep3 R v ∧ normalizeToF3 R (toV3 R e) (toF R r) = toV3 R v ∧ Sz3 (25 * (u * r) + 3 * u) (v - e.normalizeTo r) := by
  have hSt := h.std
  have hM := h.M1
  have hu := h.std.u0
  have hη := h.std.η0
  obtain ⟨m3, m4, m6, m1⟩ := h.m3
  have hΩ := h.high
  obtain ⟨s1, s2⟩ := h.small
  have hL : 0 < e.norm := by linarith [h.τ0]
  have hsq : η ≤ u * (e.norm * e.norm) := by
    have h1 : τ / 4 * (τ / 4) ≤ e.norm * e.norm := mul_self_le_mul_self (by linarith [h.τ0]) lo
    have h2 := mul_le_mul_of_nonneg_left h1 hu
    have h3 := h.sq
    have h4 : u * (τ / 4 * (τ / 4)) = u * (τ * τ) / 16 := by ring
    linarith
  have hL1 : η ≤ u * e.norm := by
    have := mul_le_mul_of_nonneg_left lo hu
    linarith
  have hL2 : η * e.norm ≤ u := by
    have h1 : η * e.norm ≤ η * (2 ^ 26 * M ^ 3) := mul_le_mul_of_nonneg_left (by linarith) hη
    linarith [h.low]
  have hLL : e.norm * e.norm ≤ 2 ^ 50 * M ^ 6 := by
    have := mul_self_le_mul_self hL.le hi
    rw [show 2 ^ 25 * M ^ 3 * (2 ^ 25 * M ^ 3) = 2 ^ 50 * M ^ 6 by ring] at this
    exact this
  have far : 2 * r ≤ Ω * e.norm := by
    have h1 : Ω * (τ / 4) ≤ Ω * e.norm := mul_le_mul_of_nonneg_left lo (by linarith)
    have := h.far
    linarith
  exact normalize3_near hSt h.u' hr rr re hL hsq hL1 hL2 s1 (by linarith) (by linarith) far (by linarith)

/-- A matrix that does not shorten vectors by much, such as a rotation up to rounding. -/
def Turns3 (m : M3 ℝ) : Prop := ∀ d : V3 ℝ, size3 d ≤ 2 * size3 (m.transpose.apply d)

theorem local3_lo (h : RoundStd R u η Ω τ M) {D : Dec3 ℝ} (hT : Turns3 D.rot) {d e : V3 ℝ} (htiny : τ ≤ size3 d) (de : Sz3 (15 * (u * size3 d)) (e - D.rot.transpose.apply d)) : τ / 4 ≤ e.norm := by
  have hs0 := size3_nonneg d
  have un : u * size3 d ≤ 1 / 1024 * size3 d := mul_le_mul_of_nonneg_right h.u' hs0
  have h1 := size3_sub e _ de
  have h2 := hT d
  have h3 : size3 e ≤ e.norm := size3_le (sz_norm3 e)
  linarith
theorem ne_zero_of_norm {e : V3 ℝ} (h : 0 < e.norm) : e ≠ 0 := by
  rintro rfl
  have : (0 : V3 ℝ).norm = 0 := by simp [V3.norm, V3.dot]
  linarith

variable (R) in
/-- `support_point` of a sphere, `src/primitive/sphere.rs:32-38` -/
def sphereF (r : Fl R) (D : Dec3 (Fl R)) (d : V3 (Fl R)) : Res (V3 (Fl R)) := do
  let e ← Res.ofOption (invVectorG3 D d)
  return pointG3 D (normalizeToF3 R e r)

/-- Spheres. -/
theorem sphere_guarded (h : RoundStd R u η Ω τ M) {r : ℝ} (hr : 0 ≤ r) (rr : Rep R r) (hrM : 2 * r ≤ M) {D : Dec3 ℝ} (hD : Fits3 R M D) (hT : Turns3 D.rot) (hN : N ≤ 2 ^ 22 * M ^ 3) :
    Near3S R u M N (Tiny3 R τ) (sphereF R (toF R r) (decF3 R D)) (Image D.tr (InBall r)) := by
  intro d rd sd ht
  have htiny := not_tiny3 rd ht
  have hdN : size3 d ≤ 2 ^ 22 * M ^ 3 := (size3_le sd).trans hN
  have hM := h.M1
  have hu := h.std.u0
  obtain ⟨e, re, i1, de, se⟩ := local3_near h hD rd hdN htiny
  have lo := local3_lo h hT htiny de
  obtain ⟨v, rv, ev, dv⟩ := normal3_near h hr rr (by linarith) re lo ((norm_le_sz3 se).trans (by linarith))
  have uM : u * 1 ≤ u * M := mul_le_mul_of_nonneg_left hM hu
  have ur : u * r ≤ u * (M / 2) := mul_le_mul_of_nonneg_left (by linarith) hu
  obtain ⟨w, rw', sw, ew, k1, k2⟩ := place3_near h hD (S := InBall r) (fun p hp => (sz_norm3 p).mono (le_trans hp (by linarith))) de (ball_extreme r hr (ne_zero_of_norm (by linarith [h.τ0]))) rv (dv.mono (by linarith))
  refine ⟨w, rw', sw, ?_, k1, k2⟩
  unfold sphereF
  rw [i1]
  show Res.ok (pointG3 (decF3 R D) (normalizeToF3 R (toV3 R e) (toF R r))) = _
  rw [ev, ew]

/-- `Float::is_sign_negative`; `nz` tells whether a zero is `-0` -/
def signNegF (nz : Bool) (y : Fl R) : Bool := y < 0 || (y = 0 && nz)
theorem signNegF_toF (nz : Bool) {y : ℝ} (hy : Rep R y) : signNegF nz (toF R y) = signNeg nz y := by
  unfold signNegF signNeg
  have h1 : (toF R y < 0) = (y < 0) := by
    rw [← toF_zero]
    exact propext (toF_lt hy rep_zero)
  have h2 : (toF R y = 0) = (y = 0) := by
    rw [← toF_zero]
    exact propext (toF_inj hy rep_zero)
  simp only [h1, h2]

variable (R) in
/-- `support_point` of a capsule, `src/primitive/capsule.rs:51-60`; `nz d` tells whether a zero `y` component of the local direction is `-0` -/
def capsuleF (hh r : Fl R) (nz : V3 (Fl R) → Bool) (D : Dec3 (Fl R)) (d : V3 (Fl R)) : Res (V3 (Fl R)) := do
  let e ← Res.ofOption (invVectorG3 D d)
  let y : Fl R := (if signNegF (nz d) e.y then -1 else 1) * hh
  return pointG3 D ((⟨0, y, 0⟩ : V3 (Fl R)) + normalizeToF3 R e r)

/-- Capsules. -/
theorem capsule_guarded (h : RoundStd R u η Ω τ M) {hh r : ℝ} (h0 : 0 ≤ hh) (hr : 0 ≤ r) (rh : Rep R hh) (rr : Rep R r) (hrM : 2 * (hh + r) ≤ M) (nz : V3 (Fl R) → Bool) {D : Dec3 ℝ} (hD : Fits3 R M D) (hT : Turns3 D.rot)
    (hN : N ≤ 2 ^ 22 * M ^ 3) : Near3S R u M N (Tiny3 R τ) (capsuleF R (toF R hh) (toF R r) nz (decF3 R D)) (Image D.tr (InCapsule hh r)) := by
  intro d rd sd ht
  have htiny := not_tiny3 rd ht
  have hdN : size3 d ≤ 2 ^ 22 * M ^ 3 := (size3_le sd).trans hN
  have hM := h.M1
  have hu := h.std.u0
  have hu' := h.u'
  have hη := h.std.η0
  obtain ⟨m3, m4, m6, m1⟩ := h.m3
  have hΩ := h.high
  obtain ⟨s1, s2⟩ := h.small
  obtain ⟨e, re, i1, de, se⟩ := local3_near h hD rd hdN htiny
  have lo := local3_lo h hT htiny de
  have he := ne_zero_of_norm (e := e) (by linarith [h.τ0])
  obtain ⟨v, rv, ev, dv⟩ := normal3_near h hr rr (by linarith) re lo ((norm_le_sz3 se).trans (by linarith))
  have uM : u * 1 ≤ u * M := mul_le_mul_of_nonneg_left hM hu
  have uM' : u * M ≤ 1 / 1024 * M := mul_le_mul_of_nonneg_right hu' (by linarith)
  have ur : u * r ≤ u * (M / 2) := mul_le_mul_of_nonneg_left (by linarith) hu
  have dv' : Sz3 (16 * (u * M)) (v - e.normalizeTo r) := dv.mono (by linarith)
  have sn : Sz3 (M / 2) (e.normalizeTo r) := (sz_norm3 _).mono (le_trans (ball_extreme r hr he).1 (by linarith))
  have sv : Sz3 M v := (sz3_sub dv' sn).mono (by linarith)
  -- the end of the axis
  obtain ⟨y, ry, ey, hy⟩ : ∃ y, Rep R y ∧ (if signNegF (nz (toV3 R d)) (toF R e.y) then (-1 : Fl R) else 1) * toF R hh = toF R y ∧ y = signum (nz (toV3 R d)) e.y * hh := by
    rw [signNegF_toF _ re.2.1]
    unfold signum
    have rn := h.std.rep_neg (x := hh) (by rw [abs_of_nonneg h0]; linarith) rh
    split
    · refine ⟨-hh, rn, ?_, by ring⟩
      have r1 := h.std.rep_neg (x := 1) (by rw [abs_one]; linarith) rep_one
      rw [show (-1 : Fl R) = toF R (-1) by rw [← toF_neg rep_one, toF_one], toF_mul r1 rh]
      congr 1
      ring
    · refine ⟨hh, rh, ?_, by ring⟩
      rw [show (1 : Fl R) = toF R 1 from toF_one.symm, toF_mul rep_one rh, one_mul]
  have ay : |y| ≤ M / 2 := by
    rw [hy]
    rcases signum_cases (nz (toV3 R d)) e.y with h | h <;> rw [h]
    · rw [one_mul, abs_of_nonneg h0]; linarith
    · rw [neg_one_mul, abs_neg, abs_of_nonneg h0]; linarith
  obtain ⟨c, rc, ec, dc⟩ := add3_err h.std (a := ⟨0, y, 0⟩) (b := v) (A := M / 2) (B := M) ⟨rep_zero, ry, rep_zero⟩ rv ⟨by simp; linarith, ay, by simp; linarith⟩ sv (by linarith)
  have ex := capsule_extreme ⟨hh, r⟩ h0 hr (nz (toV3 R d)) he
  have dc' : Sz3 (18 * (u * M)) (c - (Capsule.local ⟨hh, r⟩ (nz (toV3 R d)) e)) := by
    have e1 : Capsule.local ⟨hh, r⟩ (nz (toV3 R d)) e = ⟨0, y, 0⟩ + e.normalizeTo r := by
      unfold Capsule.local
      rw [hy]
    rw [e1]
    have ur2 : u * (M / 2 + M) ≤ 3 / 2 * (u * M) := by linarith
    -- only the height is rounded
    have key : Sz3 (18 * (u * M)) (c - ((⟨0, y, 0⟩ : V3 ℝ) + e.normalizeTo r)) := by
      have dv2 : Sz3 (25 * (u * r) + 3 * u) (((⟨0, y, 0⟩ : V3 ℝ) + v) - ((⟨0, y, 0⟩ : V3 ℝ) + e.normalizeTo r)) := by
        rw [show ((⟨0, y, 0⟩ : V3 ℝ) + v) - ((⟨0, y, 0⟩ : V3 ℝ) + e.normalizeTo r) = v - e.normalizeTo r by ext <;> simp]
        exact dv
      exact (sz3_chain dc dv2).mono (by linarith)
    exact key
  obtain ⟨w, rw', sw, ew, k1, k2⟩ := place3_near h hD (S := InCapsule hh r) (by
    rintro p ⟨s, b1, b2, b3⟩
    have h1 := (sz_norm3 _).mono b3
    obtain ⟨hx, hy, hz⟩ := h1
    simp only [V3.sub_x, V3.sub_y, V3.sub_z, sub_zero, abs_le] at hx hy hz
    refine ⟨abs_le.2 ⟨by linarith, by linarith⟩, abs_le.2 ⟨by linarith, by linarith⟩, abs_le.2 ⟨by linarith, by linarith⟩⟩) de ex rc dc'
  refine ⟨w, rw', sw, ?_, k1, k2⟩
  unfold capsuleF
  rw [i1]
  show Res.ok (pointG3 (decF3 R D) ((⟨0, (if signNegF (nz (toV3 R d)) (toF R e.y) then (-1 : Fl R) else 1) * toF R hh, 0⟩ : V3 (Fl R)) + normalizeToF3 R (toV3 R e) (toF R r))) = _
  rw [ev, ey, show (⟨0, toF R y, 0⟩ : V3 (Fl R)) = toV3 R ⟨0, y, 0⟩ by rw [toV3, toF_zero], ec, ew]

variable (R) in
/-- `support_point` of a cylinder, `src/primitive/cylinder.rs:51-77`; `nz d` tells whether a zero `y` component of the local direction is `-0` -/
def cylinderF (hh r : Fl R) (nz : V3 (Fl R) → Bool) (D : Dec3 (Fl R)) (d : V3 (Fl R)) : Res (V3 (Fl R)) := do
  let e ← Res.ofOption (invVectorG3 D d)
  let negative := signNegF (nz d) e.y
  let q : V3 (Fl R) := ⟨e.x, 0, e.z⟩
  let q : V3 (Fl R) := if q.dot q = 0 then 0 else
    let n := normalizeToF3 R q 1
    if n = 0 then 0 else n * r
  return pointG3 D (if negative then ⟨q.x, -hh, q.z⟩ else ⟨q.x, hh, q.z⟩)

/-- The directions that are bad for a cylinder: all components smaller than `τ`, or so close to its axis that the components of the local direction across the axis are smaller than `τ` and not both zero. -/
def TinyAcross (R : Rounding F) (τ : ℝ) (D : Dec3 (Fl R)) (d : V3 (Fl R)) : Prop :=
  Tiny3 R τ d ∨ ∃ e, invVectorG3 D d = some e ∧ TinyN R τ e.x ∧ TinyN R τ e.z ∧ ¬ (e.x = 0 ∧ e.z = 0)

/-- The disk of a cylinder: the part of the support point across the axis. -/
theorem disk_near (h : RoundStd R u η Ω τ M) {r : ℝ} (hr : 0 ≤ r) (rr : Rep R r) (hrM : 2 * r ≤ M) {x z : ℝ} (rx : Rep R x) (rz : Rep R z) (hz : (x = 0 ∧ z = 0) ∨ τ ≤ max |x| |z|) (hi : (⟨x, 0, z⟩ : V3 ℝ).norm ≤ 2 ^ 25 * M ^ 3) :
    ∃ v, Rep3 R v ∧ (if (⟨toF R x, 0, toF R z⟩ : V3 (Fl R)).dot ⟨toF R x, 0, toF R z⟩ = 0 then (0 : V3 (Fl R)) else
        if normalizeToF3 R (⟨toF R x, 0, toF R z⟩ : V3 (Fl R)) 1 = 0 then 0 else normalizeToF3 R (⟨toF R x, 0, toF R z⟩ : V3 (Fl R)) 1 * toF R r) = toV3 R v ∧
      Sz3 (18 * (u * M)) (v - (if (⟨x, 0, z⟩ : V3 ℝ).dot ⟨x, 0, z⟩ = 0 then (0 : V3 ℝ) else if (⟨x, 0, z⟩ : V3 ℝ).normalize = 0 then 0 else (⟨x, 0, z⟩ : V3 ℝ).normalize * r)) := by
  have hSt := h.std
  have hM := h.M1
  have hu := h.std.u0
  have hu' := h.u'
  have hη := h.std.η0
  obtain ⟨m3, m4, m6, m1⟩ := h.m3
  have hΩ := h.high
  obtain ⟨s1, s2⟩ := h.small
  have uM : u * 1 ≤ u * M := mul_le_mul_of_nonneg_left hM hu
  have re : Rep3 R (⟨x, 0, z⟩ : V3 ℝ) := ⟨rx, rep_zero, rz⟩
  have ee : (⟨toF R x, 0, toF R z⟩ : V3 (Fl R)) = toV3 R ⟨x, 0, z⟩ := by rw [toV3, toF_zero]
  rw [ee]
  rcases hz with ⟨rfl, rfl⟩ | hz
  · have e0 : (toV3 R (⟨0, 0, 0⟩ : V3 ℝ)).dot (toV3 R ⟨0, 0, 0⟩) = 0 := by
      obtain ⟨m, rm, em, dm⟩ := dot3_err hSt re re (A := 0) (B := 0) ⟨by simp, by simp, by simp⟩ ⟨by simp, by simp, by simp⟩ (by linarith)
      have hz : toF R 0 * toF R 0 = toF R 0 := by rw [toF_mul rep_zero rep_zero, mul_zero]
      have ha : toF R 0 + toF R 0 = toF R 0 := by rw [toF_add rep_zero rep_zero, add_zero]
      show toF R 0 * toF R 0 + toF R 0 * toF R 0 + toF R 0 * toF R 0 = 0
      rw [hz, ha, ha, toF_zero]
    rw [if_pos e0, if_pos (by simp [V3.dot])]
    refine ⟨0, ⟨rep_zero, rep_zero, rep_zero⟩, ?_, ?_⟩
    · show (⟨0, 0, 0⟩ : V3 (Fl R)) = ⟨toF R 0, toF R 0, toF R 0⟩
      rw [toF_zero]
    · rw [show (0 : V3 ℝ) - 0 = 0 by ext <;> simp]
      have : 0 ≤ 18 * (u * M) := by linarith [mul_nonneg hu (by linarith : (0 : ℝ) ≤ M)]
      exact ⟨by simpa using this, by simpa using this, by simpa using this⟩
  · have sn := sz_norm3 (⟨x, 0, z⟩ : V3 ℝ)
    have lo : τ ≤ (⟨x, 0, z⟩ : V3 ℝ).norm := hz.trans (max_le sn.1 sn.2.2)
    have hL : 0 < (⟨x, 0, z⟩ : V3 ℝ).norm := by linarith [h.τ0]
    have hne := ne_zero_of_norm hL
    have hdd := norm_sq3 (⟨x, 0, z⟩ : V3 ℝ)
    have hLL : 0 < (⟨x, 0, z⟩ : V3 ℝ).norm * (⟨x, 0, z⟩ : V3 ℝ).norm := mul_pos hL hL
    have hL2 : (⟨x, 0, z⟩ : V3 ℝ).norm * (⟨x, 0, z⟩ : V3 ℝ).norm ≤ 2 ^ 50 * M ^ 6 := by
      have := mul_self_le_mul_self hL.le hi
      rw [show 2 ^ 25 * M ^ 3 * (2 ^ 25 * M ^ 3) = 2 ^ 50 * M ^ 6 by ring] at this
      exact this
    have nn := V3.norm_normalize hne
    have e1 : (⟨x, 0, z⟩ : V3 ℝ).normalize = (⟨x, 0, z⟩ : V3 ℝ).normalizeTo 1 := by
      ext <;> simp [V3.normalize, V3.normalizeTo]
    have hA : ¬ (⟨x, 0, z⟩ : V3 ℝ).dot ⟨x, 0, z⟩ = 0 := by
      rw [← hdd]
      exact hLL.ne'
    have hB : ¬ (⟨x, 0, z⟩ : V3 ℝ).normalize = 0 := by
      intro hh
      rw [hh] at nn
      have : (0 : V3 ℝ).norm = 0 := by simp [V3.norm, V3.dot]
      linarith
    rw [if_neg hA, if_neg hB]
    rw [e1] at nn ⊢
    obtain ⟨v, rv, ev, dv⟩ := normal3_near h (r := 1) zero_le_one rep_one hM re (by linarith [h.τ0]) hi
    rw [toF_one] at ev
    obtain ⟨m, rm, em, dm⟩ := dot3_err hSt re re sn sn (by linarith)
    have hsq : η ≤ u * ((⟨x, 0, z⟩ : V3 ℝ).norm * (⟨x, 0, z⟩ : V3 ℝ).norm) := by
      have h1 : τ * τ ≤ (⟨x, 0, z⟩ : V3 ℝ).norm * (⟨x, 0, z⟩ : V3 ℝ).norm := mul_self_le_mul_self h.τ0.le lo
      have h2 := mul_le_mul_of_nonneg_left h1 hu
      linarith [h.sq]
    have uL : u * ((⟨x, 0, z⟩ : V3 ℝ).norm * (⟨x, 0, z⟩ : V3 ℝ).norm) ≤ 1 / 1024 * ((⟨x, 0, z⟩ : V3 ℝ).norm * (⟨x, 0, z⟩ : V3 ℝ).norm) := mul_le_mul_of_nonneg_right hu' hLL.le
    have hm : 0 < m := by
      rw [← hdd, abs_le] at dm
      linarith
    have dv' : Sz3 (28 * u) (v - (⟨x, 0, z⟩ : V3 ℝ).normalizeTo 1) := dv.mono (by linarith)
    have sn1 : Sz3 1 ((⟨x, 0, z⟩ : V3 ℝ).normalizeTo 1) := (sz_norm3 _).mono (by rw [nn])
    have sv : Sz3 (33 / 32) v := (sz3_sub dv' sn1).mono (by linarith)
    have vne : toV3 R v ≠ 0 := by
      intro h0
      have hx := congrArg V3.x h0
      have hy := congrArg V3.y h0
      have hz := congrArg V3.z h0
      have k : ∀ {t : ℝ}, Rep R t → toF R t = (0 : Fl R) → t = 0 := fun rt ht => by
        rw [← toF_zero] at ht
        exact (toF_inj rt rep_zero).1 ht
      have hv : v = 0 := by
        ext
        · exact k rv.1 hx
        · exact k rv.2.1 hy
        · exact k rv.2.2 hz
      rw [hv] at dv'
      have h2 : Sz3 (28 * u) ((⟨x, 0, z⟩ : V3 ℝ).normalizeTo 1) := by
        obtain ⟨a1, a2, a3⟩ := dv'
        simp only [V3.sub_x, V3.sub_y, V3.sub_z, V3.zero_x, V3.zero_y, V3.zero_z, zero_sub, abs_neg] at a1 a2 a3
        exact ⟨a1, a2, a3⟩
      have := norm_le_sz3 h2
      linarith
    have hC : ¬ (toV3 R (⟨x, 0, z⟩ : V3 ℝ)).dot (toV3 R ⟨x, 0, z⟩) = 0 := by
      rw [em, ← toF_zero]
      intro hh
      exact hm.ne' ((toF_inj rm rep_zero).1 hh)
    rw [if_neg hC, ev, if_neg vne]
    -- the product with the radius
    have ur : u * r ≤ u * (M / 2) := mul_le_mul_of_nonneg_left (by linarith) hu
    have k : ∀ {a b : ℝ}, Rep R a → |a| ≤ 33 / 32 → |a - b| ≤ 28 * u → ∃ c, Rep R c ∧ toF R a * toF R r = toF R c ∧ |c - b * r| ≤ 18 * (u * M) := by
      intro a b ra sa dab
      have hab : |a * r| ≤ 33 / 32 * r := by
        rw [abs_mul, abs_of_nonneg hr]
        exact mul_le_mul_of_nonneg_right sa hr
      obtain ⟨c, rc, ec, dc⟩ := hSt.err (a * r) (by linarith)
      refine ⟨c, rc, by rw [toF_mul ra rr, ec], ?_⟩
      have h1 : |a * r - b * r| ≤ 28 * (u * r) := by
        rw [← sub_mul, abs_mul, abs_of_nonneg hr]
        have := mul_le_mul_of_nonneg_right dab hr
        linarith
      have h2 : u * |a * r| ≤ 33 / 32 * (u * r) := by
        have := mul_le_mul_of_nonneg_left hab hu
        linarith
      have h3 := abs_sub_le c (a * r) (b * r)
      linarith
    obtain ⟨cx, rcx, ecx, dcx⟩ := k rv.1 sv.1 dv'.1
    obtain ⟨cy, rcy, ecy, dcy⟩ := k rv.2.1 sv.2.1 dv'.2.1
    obtain ⟨cz, rcz, ecz, dcz⟩ := k rv.2.2 sv.2.2 dv'.2.2
    refine ⟨⟨cx, cy, cz⟩, ⟨rcx, rcy, rcz⟩, ?_, dcx, dcy, dcz⟩
    ext
    · exact ecx
    · exact ecy
    · exact ecz

/-- Cylinders. -/
theorem cylinder_guarded (h : RoundStd R u η Ω τ M) {hh r : ℝ} (h0 : 0 ≤ hh) (hr : 0 ≤ r) (rh : Rep R hh) (rr : Rep R r) (hhM : 2 * hh ≤ M) (hrM : 2 * r ≤ M) (nz : V3 (Fl R) → Bool) {D : Dec3 ℝ} (hD : Fits3 R M D)
    (hN : N ≤ 2 ^ 22 * M ^ 3) : Near3S R u M N (TinyAcross R τ (decF3 R D)) (cylinderF R (toF R hh) (toF R r) nz (decF3 R D)) (Image D.tr (InCylinder hh r)) := by
  intro d rd sd ht
  have htiny := not_tiny3 rd fun hh => ht (Or.inl hh)
  have hdN : size3 d ≤ 2 ^ 22 * M ^ 3 := (size3_le sd).trans hN
  have hM := h.M1
  have hu := h.std.u0
  obtain ⟨m3, m4, m6, m1⟩ := h.m3
  have hΩ := h.high
  have uM0 : 0 ≤ u * M := mul_nonneg hu (by linarith)
  obtain ⟨e, re, i1, de, se⟩ := local3_near h hD rd hdN htiny
  have hz : (e.x = 0 ∧ e.z = 0) ∨ τ ≤ max |e.x| |e.z| := by
    by_contra hc
    obtain ⟨c1, c2⟩ := not_or.1 hc
    obtain ⟨c3, c4⟩ := max_lt_iff.1 (not_le.1 c2)
    refine ht (Or.inr ⟨_, i1, (tiny_iff re.1).2 c3, (tiny_iff re.2.2).2 c4, ?_⟩)
    rintro ⟨k1, k2⟩
    refine c1 ⟨?_, ?_⟩
    · rw [← toF_zero] at k1
      exact (toF_inj re.1 rep_zero).1 k1
    · rw [← toF_zero] at k2
      exact (toF_inj re.2.2 rep_zero).1 k2
  have hs0 : 0 ≤ 4 * size3 d := by linarith [size3_nonneg d]
  obtain ⟨v, rv, ev, dv⟩ := disk_near h hr rr hrM re.1 re.2.2 hz ((norm_le_sz3 (e := ⟨e.x, 0, e.z⟩) (A := 4 * size3 d) ⟨se.1, by simpa using hs0, se.2.2⟩).trans (by linarith))
  have rn := h.std.rep_neg (x := hh) (by rw [abs_of_nonneg h0]; linarith) rh
  -- the height is exact
  obtain ⟨c, rc, ec, dc⟩ : ∃ c, Rep3 R c ∧ (if signNegF (nz (toV3 R d)) (toF R e.y) then (⟨toF R v.x, -toF R hh, toF R v.z⟩ : V3 (Fl R)) else ⟨toF R v.x, toF R hh, toF R v.z⟩) = toV3 R c ∧
      Sz3 (18 * (u * M)) (c - Cylinder.local ⟨hh, r⟩ (nz (toV3 R d)) e) := by
    rw [signNegF_toF _ re.2.1]
    unfold Cylinder.local
    dsimp only
    split
    · refine ⟨⟨v.x, -hh, v.z⟩, ⟨rv.1, rn, rv.2.2⟩, ?_, dv.1, ?_, dv.2.2⟩
      · rw [show -toF R hh = toF R (-hh) from toF_neg rh]
        rfl
      · show |(-hh) - (-hh)| ≤ _
        rw [sub_self, abs_zero]
        linarith
    · refine ⟨⟨v.x, hh, v.z⟩, ⟨rv.1, rh, rv.2.2⟩, rfl, dv.1, ?_, dv.2.2⟩
      show |hh - hh| ≤ _
      rw [sub_self, abs_zero]
      linarith
  obtain ⟨w, rw', sw, ew, k1, k2⟩ := place3_near h hD (S := InCylinder hh r) (by
    rintro p ⟨⟨b1, b2⟩, b3⟩
    have kx : |p.x| ≤ r := abs_le_of_sq_le_sq (by nlinarith [mul_self_nonneg p.z]) hr
    have kz : |p.z| ≤ r := abs_le_of_sq_le_sq (by nlinarith [mul_self_nonneg p.x]) hr
    exact ⟨by linarith, abs_le.2 ⟨by linarith, by linarith⟩, by linarith⟩) de (cylinder_extreme ⟨hh, r⟩ h0 hr (nz (toV3 R d)) e) rc dc
  refine ⟨w, rw', sw, ?_, k1, k2⟩
  rw [← ew, ← ec]
  unfold cylinderF
  rw [i1]
  show Res.ok (pointG3 (decF3 R D) (if signNegF (nz (toV3 R d)) (toF R e.y) then _ else _)) = _
  dsimp only
  have ev' := ev
  rw [show (⟨(toV3 R e).x, 0, (toV3 R e).z⟩ : V3 (Fl R)) = ⟨toF R e.x, 0, toF R e.z⟩ from rfl, ev']
  rfl
end
end Verif.Scene
