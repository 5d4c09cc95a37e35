import Verif.Scene.RoundErr
/-!
# GJK in rounded arithmetic with circles, spheres and capsules (C117)

The runs of C115, with round shapes. `normalize_to` squares its argument, so a direction is now bad when its components are below about the root of the smallest normal number. In such a direction the support
point of a round shape may be anything (NaN included), so nothing is said about a run that asks for one: the run is given support functions that panic on bad directions, and the theorems say what holds
when it does not panic.
-/
namespace Verif.Scene
open Verif Geom Primitive Minkowski
open Verif.Dbvt (Rounding)
set_option linter.unusedSectionVars false
noncomputable section
open Classical

/-- The loop, next to the loop with support functions that refuse some directions. -/
theorem loop_guarded {V K : Type} [Neg V] [Sub V] [Zero K] [LinearOrder K] [Inner V K] {reduce : List (SP V) → V → Bool × List (SP V) × V} {left right left' right' : V → Res V}
    (Inv : List (SP V) → V → Prop) (Miss : Prop) (Hit : List (SP V) → Prop)
    (step : ∀ s d, Inv s d → SP.fromMinkowski left' right' d = .panic ∨ ∃ a, SP.fromMinkowski left' right' d = .ok a ∧ SP.fromMinkowski left right d = .ok a ∧ (Inner.dot a.v d ≤ 0 → Miss) ∧
      (0 < Inner.dot a.v d → ((reduce (s ++ [a]) d).1 = true → Hit (reduce (s ++ [a]) d).2.1) ∧
        ((reduce (s ++ [a]) d).1 = false → Inv (reduce (s ++ [a]) d).2.1 (reduce (s ++ [a]) d).2.2))) :
    ∀ n s d, Inv s d → gjkLoop reduce left' right' n s d = .panic ∨
      ∃ o, gjkLoop reduce left' right' n s d = .ok o ∧ gjkLoop reduce left right n s d = .ok o ∧ (o = .miss → Miss) ∧ (∀ t, o = .hit t → Hit t)
  | 0, s, d, _ => Or.inr ⟨.exhausted, rfl, rfl, nofun, nofun⟩
  | n + 1, s, d, h => by
    rcases step s d h with e | ⟨a, e1, e2, h1, h2⟩
    · refine Or.inl ?_
      simp only [gjkLoop, e, Res.bind_panic]
    · simp only [gjkLoop, e1, e2, Res.bind_ok]
      by_cases hd : Inner.dot a.v d ≤ 0
      · exact Or.inr ⟨.miss, by simp [hd], by simp [hd], fun _ => h1 hd, nofun⟩
      · obtain ⟨g1, g2⟩ := h2 (not_le.1 hd)
        cases hr : (reduce (s ++ [a]) d).1
        · simpa [hd] using loop_guarded Inv Miss Hit step n _ _ (g2 hr)
        · refine Or.inr ⟨.hit (reduce (s ++ [a]) d).2.1, by simp [hd], by simp [hd], nofun, ?_⟩
          rintro t ⟨⟩
          exact g1 hr

theorem runFrom_guarded {V K : Type} [Neg V] [Sub V] [Zero K] [LinearOrder K] [Inner V K] {reduce : List (SP V) → V → Bool × List (SP V) × V} {left right left' right' : V → Res V}
    (Inv : List (SP V) → V → Prop) (Miss : Prop) (Hit : List (SP V) → Prop)
    (step : ∀ s d, Inv s d → SP.fromMinkowski left' right' d = .panic ∨ ∃ a, SP.fromMinkowski left' right' d = .ok a ∧ SP.fromMinkowski left right d = .ok a ∧ (Inner.dot a.v d ≤ 0 → Miss) ∧
      (0 < Inner.dot a.v d → ((reduce (s ++ [a]) d).1 = true → Hit (reduce (s ++ [a]) d).2.1) ∧
        ((reduce (s ++ [a]) d).1 = false → Inv (reduce (s ++ [a]) d).2.1 (reduce (s ++ [a]) d).2.2))) (n : Nat) {d : V}
    (first : SP.fromMinkowski left' right' d = .panic ∨ ∃ a, SP.fromMinkowski left' right' d = .ok a ∧ SP.fromMinkowski left right d = .ok a ∧ (Inner.dot a.v d ≤ 0 → Miss) ∧ (0 < Inner.dot a.v d → Inv [a] (-d))) :
    runFrom reduce n left' right' d = .panic ∨
      ∃ o, runFrom reduce n left' right' d = .ok o ∧ runFrom reduce n left right d = .ok o ∧ (o = .miss → Miss) ∧ (∀ t, o = .hit t → Hit t) := by
  unfold runFrom
  rcases first with e | ⟨a, e1, e2, hmiss, hinv⟩
  · rw [e]
    exact Or.inl rfl
  · rw [e1, e2, Res.bind_ok, Res.bind_ok]
    by_cases hle : Inner.dot a.v d ≤ 0
    · rw [if_pos hle, if_pos hle]
      exact Or.inr ⟨.miss, rfl, rfl, fun _ => hmiss hle, nofun⟩
    · rw [if_neg hle, if_neg hle]
      exact loop_guarded Inv Miss Hit step n _ _ (hinv (not_le.1 hle))

variable {F : Type} [LinearOrder F] {R : Rounding F} {u η Ω M N A B τ : ℝ}

/-- The standard model for round shapes: `τ` is the least size of a direction, its square is not hurt by underflow; coordinates of at most `M`. -/
structure RoundStd (R : Rounding F) (u η Ω τ M : ℝ) : Prop where
  std : Std R u η Ω
  u' : u ≤ 1 / 1024
  τ0 : 0 < τ
  τ1 : τ ≤ 1
  M1 : 1 ≤ M
  sq : 16 * η ≤ u * (τ * τ)
  low : η * (2 ^ 26 * M ^ 3) ≤ u
  high : 2 ^ 54 * M ^ 6 ≤ Ω
  far : 8 * M ≤ Ω * τ

theorem RoundStd.small (h : RoundStd R u η Ω τ M) : η ≤ u ∧ 16 * η ≤ u * τ := by
  have hu := h.std.u0
  have h1 : u * (τ * τ) ≤ u * τ := by
    have := mul_le_mul_of_nonneg_left h.τ1 h.τ0.le
    rw [mul_one] at this
    exact mul_le_mul_of_nonneg_left this hu
  have h2 : u * τ ≤ u * 1 := mul_le_mul_of_nonneg_left h.τ1 hu
  have := h.sq
  have := h.std.η0
  exact ⟨by linarith, by linarith⟩
theorem RoundStd.m3 (h : RoundStd R u η Ω τ M) : (M ≤ M ^ 3 ∧ M ^ 3 ≤ M ^ 4 ∧ M ^ 4 ≤ M ^ 6 ∧ 1 ≤ M ^ 3) :=
  ⟨le_self_pow₀ h.M1 (by norm_num), pow_le_pow_right₀ h.M1 (by norm_num), pow_le_pow_right₀ h.M1 (by norm_num), one_le_pow₀ h.M1⟩
theorem RoundStd.big4 (h : RoundStd R u η Ω τ M) : 2 ^ 54 * M ^ 4 ≤ Ω := by
  have := h.m3
  have := h.high
  linarith

/-! ## 2D -/
section two

/-- Specification: the support function of a shape in rounded arithmetic, in the directions that are not bad: its answer is a point of the shape up to rounding, and no point of the shape is farther by more than rounding. -/
def Near2 (R : Rounding F) (u M N : ℝ) (Bad : V2 (Fl R) → Prop) (f : V2 (Fl R) → Res (V2 (Fl R))) (S : V2 ℝ → Prop) : Prop :=
  ∀ d, Rp R d → Sz N d → ¬ Bad (toV2 R d) → ∃ w, Rp R w ∧ Sz (5 * M) w ∧ f (toV2 R d) = .ok (toV2 R w) ∧ (∃ p, S p ∧ Sz (48 * (u * M)) (w - p)) ∧
    ∀ p, S p → p.dot d ≤ w.dot d + 384 * (u * (M * size2 d))

theorem size2_neg (d : V2 ℝ) : size2 (-d) = size2 d := by simp [size2]
theorem size2_nonneg (d : V2 ℝ) : 0 ≤ size2 d := (abs_nonneg _).trans (le_max_left _ _)

/-- A point of the Minkowski difference in rounded arithmetic. -/
theorem mink_guarded (h : RoundStd R u η Ω τ M) {BL BR : V2 (Fl R) → Prop} (hBL : ∀ d, Tiny2 R τ d → BL d) {f g : V2 (Fl R) → Res (V2 (Fl R))} {L Rr : V2 ℝ → Prop} (hf : Near2 R u M N BL f L) (hg : Near2 R u M N BR g Rr)
    (hN : N ≤ 2 ^ 22 * M ^ 3) {d : V2 ℝ} (rd : Rp R d) (sd : Sz N d) :
    SP.fromMinkowski (refusing BL f) (refusing BR g) (toV2 R d) = .panic ∨
    ∃ a a', SP.fromMinkowski (refusing BL f) (refusing BR g) (toV2 R d) = .ok a ∧ SP.fromMinkowski f g (toV2 R d) = .ok a ∧ a.v = toV2 R a' ∧ Rp R a' ∧ Sz (11 * M) a' ∧ NearPoint R (108 * (u * M)) L Rr a ∧
      (a.v.dot (toV2 R d) ≤ 0 → NearlySeparated (1024 * (u * M)) L Rr) := by
  have hs := h.std
  have hu := hs.u0
  have hu1 := hs.u1
  have hη := hs.η0
  have hM := h.M1
  obtain ⟨m3, m4, m6, m1⟩ := h.m3
  have hΩ := h.high
  obtain ⟨s1, s2⟩ := h.small
  have uM : u * 1 ≤ u * M := mul_le_mul_of_nonneg_left hM hu
  have uM' : u * M ≤ 1 / 16 * M := mul_le_mul_of_nonneg_right hu1 (by linarith)
  have hNΩ : N ≤ Ω := by linarith
  have rn := rd.neg hs sd hNΩ
  by_cases bl : BL (toV2 R d)
  · refine Or.inl ?_
    unfold SP.fromMinkowski refusing
    rw [if_pos bl]
    rfl
  obtain ⟨w, rw', sw, ew, ⟨p0, hp0, np⟩, dw⟩ := hf d rd sd bl
  by_cases br : BR (toV2 R (-d))
  · refine Or.inl ?_
    unfold SP.fromMinkowski refusing
    rw [if_neg bl, ew, Res.bind_ok, show -toV2 R d = toV2 R (-d) from toV2_neg rd, if_pos br]
    rfl
  obtain ⟨w2, rw2, sw2, ew2, ⟨q0, hq0, nq⟩, dw2⟩ := hg (-d) rn sd.neg br
  rw [size2_neg] at dw2
  refine Or.inr ?_
  obtain ⟨a', ra, ea, da, -⟩ := sub_err hs rw' rw2 sw sw2 (by linarith)
  have da' : Sz (11 * (u * M)) (a' - (w - w2)) := da.mono (by linarith)
  have sa : Sz (11 * M) a' := by
    refine (sz_sub da' (B := 10 * M) ?_).mono (by linarith)
    constructor
    · refine (abs_sub _ _).trans ?_
      linarith [sw.1, sw2.1]
    · refine (abs_sub _ _).trans ?_
      linarith [sw.2, sw2.2]
  have htiny : τ ≤ size2 d := not_tiny2 rd fun ht => bl (hBL _ ht)
  refine ⟨⟨toV2 R a', toV2 R w, toV2 R w2⟩, a', ?_, ?_, rfl, ra, sa, ⟨a', w, w2, p0, q0, hp0, hq0, rfl, ⟨ra, rw', rw2⟩, ?_, np.mono (by linarith), nq.mono (by linarith)⟩, ?_⟩
  · unfold SP.fromMinkowski refusing
    rw [if_neg bl, ew, Res.bind_ok, show -toV2 R d = toV2 R (-d) from toV2_neg rd, if_neg br, ew2, Res.bind_ok, ea]
    rfl
  · unfold SP.fromMinkowski
    rw [ew, Res.bind_ok, show -toV2 R d = toV2 R (-d) from toV2_neg rd, ew2, Res.bind_ok, ea]
    rfl
  · have k : ∀ {α β γ δ ε : ℝ}, |α - (β - γ)| ≤ 11 * (u * M) → |β - δ| ≤ 48 * (u * M) → |γ - ε| ≤ 48 * (u * M) → |α - (δ - ε)| ≤ 108 * (u * M) := by
      intro α β γ δ ε h1 h2 h3
      rw [abs_le] at h1 h2 h3 ⊢
      constructor <;> linarith
    exact ⟨k da'.1 np.1 nq.1, k da'.2 np.2 nq.2⟩
  · intro hle
    have nd : d ≠ 0 := by
      rintro rfl
      have : size2 (0 : V2 ℝ) = 0 := by simp [size2]
      linarith [h.τ0]
    refine ⟨d, nd, fun p q hp hq => ?_⟩
    have hs0 := size2_nonneg d
    have sd' := sz_size d
    have hdN : size2 d ≤ N := size_le sd
    have hMN : 0 ≤ M * size2 d := mul_nonneg (by linarith) hs0
    have big : M * size2 d ≤ 2 ^ 22 * M ^ 4 := by
      have : M * size2 d ≤ M * (2 ^ 22 * M ^ 3) := mul_le_mul_of_nonneg_left (hdN.trans hN) (by linarith)
      rw [show M * (2 ^ 22 * M ^ 3) = 2 ^ 22 * M ^ 4 by ring] at this
      exact this
    have hΩ4 := h.big4
    obtain ⟨r, rr, er, dr, -⟩ := dot_err hs ra rd sa sd' (by linarith)
    have hr : r ≤ 0 := by
      rw [show (⟨toV2 R a', toV2 R w, toV2 R w2⟩ : SP (V2 (Fl R))).v = toV2 R a' from rfl, er, ← toF_zero] at hle
      exact (toF_le rr rep_zero).1 hle
    have h1 := dw p hp
    have h2 := dw2 q hq
    have h3 := dot_sub_le da' sd'
    rw [show (w - w2).dot d = w.dot d - w2.dot d by simp [V2.dot]; ring] at h3
    rw [dot_neg2, dot_neg2] at h2
    rw [show (p - q).dot d = p.dot d - q.dot d by simp [V2.dot]; ring]
    rw [abs_le] at h3 dr
    have e1 : u * (M * size2 d) = u * M * size2 d := by ring
    have e2 : u * (11 * M * size2 d) = 11 * (u * M * size2 d) := by ring
    have e3 : 11 * (u * M) * size2 d = 11 * (u * M * size2 d) := by ring
    have e4 : 1024 * (u * M) * size2 d = 1024 * (u * M * size2 d) := by ring
    have q1 : u * τ ≤ u * M * size2 d := by
      have : u * τ ≤ u * M * τ := by
        have := mul_le_mul_of_nonneg_right uM h.τ0.le
        linarith
      exact this.trans (mul_le_mul_of_nonneg_left htiny (mul_nonneg hu (by linarith)))
    rw [e1] at h1 h2
    rw [e2] at dr
    rw [e3] at h3
    rw [e4]
    have q2 : 0 ≤ u * M * size2 d := mul_nonneg (mul_nonneg hu (by linarith)) hs0
    linarith

/-- **The run with guarded support functions.** -/
theorem run_guarded2 (h : RoundStd R u η Ω τ M) {eps : Fl R} (heps : 0 ≤ eps) {BL BR : V2 (Fl R) → Prop} (hBL : ∀ d, Tiny2 R τ d → BL d) {f g : V2 (Fl R) → Res (V2 (Fl R))} {L Rr : V2 ℝ → Prop}
    (hf : Near2 R u M (9 * (24 * M) ^ 3) BL f L) (hg : Near2 R u M (9 * (24 * M) ^ 3) BR g Rr) {p q : V2 ℝ} (rp : Rp R p) (rq : Rp R q) (sp : Sz (5 * M) p) (sq : Sz (5 * M) q) (n : Nat) :
    gjkRunG2 eps n (refusing BL f) (refusing BR g) (toV2 R p) (toV2 R q) = .panic ∨
    ∃ o, gjkRunG2 eps n (refusing BL f) (refusing BR g) (toV2 R p) (toV2 R q) = .ok o ∧ gjkRunG2 eps n f g (toV2 R p) (toV2 R q) = .ok o ∧
      (o = .miss → NearlySeparated (1024 * (u * M)) L Rr) ∧ (∀ x, o = .hit x → x.length = 3 ∧ ∀ p ∈ x, NearPoint R (108 * (u * M)) L Rr p) := by
  have hs := h.std
  have hu := hs.u0
  have hu1 := hs.u1
  have hη := hs.η0
  have hM := h.M1
  obtain ⟨m3, m4, m6, m1⟩ := h.m3
  have hΩ4 := h.big4
  have hΩ23 : 2 ^ 23 * M ^ 4 ≤ Ω := by linarith
  obtain ⟨s1, s2⟩ := h.small
  have hN : 9 * (24 * M) ^ 3 ≤ 2 ^ 22 * M ^ 3 := by
    rw [mul_pow]
    linarith
  have hΩ' : 9 * (24 * M) ^ 3 ≤ Ω := by
    rw [mul_pow]; linarith
  obtain ⟨d, ed, rd, sd, nd⟩ : ∃ d', firstDirectionG2 eps (toV2 R p) (toV2 R q) = toV2 R d' ∧ Rp R d' ∧ Sz (9 * (24 * M) ^ 3) d' ∧ d' ≠ 0 := by
    obtain ⟨c, rc, ec, dc, -⟩ := sub_err hs rq rp sq sp (by linarith)
    unfold firstDirectionG2
    dsimp only
    rw [ec]
    by_cases hn : NearG2 eps (toV2 R c)
    · rw [if_pos hn]
      refine ⟨⟨1, 1⟩, ?_, ⟨rep_one, rep_one⟩, ?_, ?_⟩
      · show _ = (⟨toF R 1, toF R 1⟩ : V2 (Fl R))
        rw [toF_one]
      · have : Sz 1 (⟨1, 1⟩ : V2 ℝ) := ⟨by simp, by simp⟩
        refine this.mono ?_
        rw [mul_pow]
        linarith
      · intro h0
        have : (1 : ℝ) = 0 := congrArg V2.x h0
        norm_num at this
    · rw [if_neg hn]
      refine ⟨c, rfl, rc, ?_, ?_⟩
      · have uM : u * (5 * M + 5 * M) ≤ 1 / 16 * (5 * M + 5 * M) := mul_le_mul_of_nonneg_right hu1 (by linarith)
        refine (sz_sub dc (B := 10 * M) ?_).mono (by rw [mul_pow]; linarith)
        constructor
        · refine (abs_sub _ _).trans ?_
          linarith [sq.1, sp.1]
        · refine (abs_sub _ _).trans ?_
          linarith [sq.2, sp.2]
      · rintro rfl
        exact hn (near_zero heps)
  rw [gjkRunG2_from, gjkRunG2_from, ed]
  refine runFrom_guarded (fun x d => MissInv R M x d ∧ ∀ p ∈ x, NearPoint R (108 * (u * M)) L Rr p) (NearlySeparated (1024 * (u * M)) L Rr) (fun x => x.length = 3 ∧ ∀ p ∈ x, NearPoint R (108 * (u * M)) L Rr p) ?_ n ?_
  · rintro x d ⟨hI, nx⟩
    obtain ⟨d', rfl, rd, sd, nd, -⟩ := id hI
    rcases mink_guarded h hBL hf hg hN rd sd with e | ⟨a, a', e1, e2, va, ra, sa, na, hmiss⟩
    · exact Or.inl e
    · have all : ∀ p ∈ (reduceG2 eps (x ++ [a]) (toV2 R d')).2.1, NearPoint R (108 * (u * M)) L Rr p := by
        intro p hp
        rcases List.mem_append.1 (reduceG2_mem hp) with hp | hp
        · exact nx p hp
        · rw [List.mem_singleton.1 hp]
          exact na
      exact Or.inr ⟨a, e1, e2, hmiss, fun hpos => ⟨fun ht => ⟨reduceG2_hit ht, all⟩, fun hf => ⟨reduce_miss hs hM hΩ23 heps hI va ra sa hpos hf, all⟩⟩⟩
  · rcases mink_guarded h hBL hf hg hN rd sd with e | ⟨a, a', e1, e2, va, ra, sa, na, hmiss⟩
    · exact Or.inl e
    · refine Or.inr ⟨a, e1, e2, hmiss, fun hpos => ⟨⟨-d, toV2_neg rd, rd.neg hs sd hΩ', sd.neg, neg_ne2 nd, Or.inl ⟨a, a', rfl, va, ra, sa, ?_⟩⟩, by simpa using na⟩⟩
      rw [show - -d = d by ext <;> simp, ← va]
      exact hpos

/-- The polygons, rectangles, lines and particles. -/
theorem flat_guarded (h : RoundStd R u η Ω τ M) {s : Flat2 ℝ} (hs : s.Fits R M) {D : Dec2 ℝ} (hD : Fits2 R M D) (hN : N ≤ 2 ^ 22 * M ^ 3) :
    Near2 R u M N (Tiny2 R τ) ((s.toFl R).supportG (decF R D)) (Image D.tr s.prim.Points) := by
  intro d rd sd ht
  have htiny := not_tiny2 rd ht
  have hM := h.M1
  have hu := h.std.u0
  have hη := h.std.η0
  have hs0 := size2_nonneg d
  have hdN : size2 d ≤ 2 ^ 22 * M ^ 3 := (size_le sd).trans hN
  obtain ⟨m3, m4, m6, m1⟩ := h.m3
  have hΩ4 := h.big4
  obtain ⟨s1, s2⟩ := h.small
  have big : M * size2 d ≤ 2 ^ 22 * M ^ 4 := by
    have : M * size2 d ≤ M * (2 ^ 22 * M ^ 3) := mul_le_mul_of_nonneg_left hdN (by linarith)
    rw [show M * (2 ^ 22 * M ^ 3) = 2 ^ 22 * M ^ 4 by ring] at this
    exact this
  obtain ⟨w, rw', sw, ew, ⟨p0, hp0, np⟩, dw⟩ := support_near h.std hs hD hM rd (sz_size d) (by linarith)
  have uM : u * 1 ≤ u * M := mul_le_mul_of_nonneg_left hM hu
  refine ⟨w, rw', sw, ew, ⟨p0, hp0, np.mono (by linarith)⟩, fun p hp => (dw p hp).trans ?_⟩
  have q1 : η ≤ u * size2 d := by
    have : u * τ ≤ u * size2 d := mul_le_mul_of_nonneg_left htiny hu
    linarith
  have q2 : η * M ≤ u * size2 d * M := mul_le_mul_of_nonneg_right q1 (by linarith)
  have q3 : η * size2 d ≤ u * size2 d := mul_le_mul_of_nonneg_right s1 hs0
  have q4 : u * size2 d * 1 ≤ u * size2 d * M := mul_le_mul_of_nonneg_left hM (mul_nonneg hu hs0)
  have e1 : u * (M * size2 d) = u * size2 d * M := by ring
  rw [e1]
  linarith

/-- A matrix that does not shorten vectors by much, such as a rotation up to rounding. -/
def Turns2 (m : M2 ℝ) : Prop := ∀ d : V2 ℝ, size2 d ≤ 2 * size2 (m.transpose.apply d)

variable (R) in
/-- `support_point` of a circle, `src/primitive/circle.rs:34-40` -/
def circleF (r : Fl R) (D : Dec2 (Fl R)) (d : V2 (Fl R)) : Res (V2 (Fl R)) := do
  let e ← Res.ofOption (invVectorG2 D d)
  return pointG2 D (normalizeToF2 R e r)

theorem image_dot (D : Dec2 ℝ) (hs : D.scale = 1) (x d : V2 ℝ) : (D.tr.point x).dot d = x.dot (D.rot.transpose.apply d) + D.disp.dot d := by
  show (D.rot.apply (x * D.scale) + D.disp).dot d = _
  rw [hs]
  simp [M2.apply, M2.transpose, V2.dot]
  ring

theorem sz_chain {a b c : V2 ℝ} (h1 : Sz A (a - b)) (h2 : Sz B (b - c)) : Sz (A + B) (a - c) := by
  constructor
  · have := abs_sub_le a.x b.x c.x
    exact this.trans (add_le_add h1.1 h2.1)
  · have := abs_sub_le a.y b.y c.y
    exact this.trans (add_le_add h1.2 h2.2)
theorem size_sub (a b : V2 ℝ) {δ : ℝ} (h : Sz δ (a - b)) : size2 b ≤ size2 a + δ := by
  have hx : |b.x| ≤ |a.x| + δ := by
    have h1 := h.1
    rw [show (a - b).x = a.x - b.x from rfl] at h1
    have := abs_sub_abs_le_abs_sub b.x a.x
    rw [abs_sub_comm] at this
    linarith
  have hy : |b.y| ≤ |a.y| + δ := by
    have h1 := h.2
    rw [show (a - b).y = a.y - b.y from rfl] at h1
    have := abs_sub_abs_le_abs_sub b.y a.y
    rw [abs_sub_comm] at this
    linarith
  exact max_le (hx.trans (by linarith [le_max_left |a.x| |a.y|, show size2 a = max |a.x| |a.y| from rfl])) (hy.trans (by linarith [le_max_right |a.x| |a.y|, show size2 a = max |a.x| |a.y| from rfl]))

set_option maxHeartbeats 1000000 in
/-- Circles. -/
theorem circle_guarded (h : RoundStd R u η Ω τ M) {r : ℝ} (hr : 0 ≤ r) (rr : Rep R r) (hrM : 2 * r ≤ M) {D : Dec2 ℝ} (hD : Fits2 R M D) (hT : Turns2 D.rot) (hN : N ≤ 2 ^ 22 * M ^ 3) :
    Near2 R u M N (Tiny2 R τ) (circleF R (toF R r) (decF R D)) (Image D.tr (InDisc r)) := by
  intro d rd sd ht
  have htiny := not_tiny2 rd ht
  have hS := h.std
  have hM := h.M1
  have hu := h.std.u0
  have hu' := h.u'
  have hη := h.std.η0
  have hs0 := size2_nonneg d
  have hdN : size2 d ≤ 2 ^ 22 * M ^ 3 := (size_le sd).trans hN
  obtain ⟨m3, m4, m6, m1⟩ := h.m3
  have hΩ := h.high
  obtain ⟨s1, s2⟩ := h.small
  have un : u * size2 d ≤ 1 / 1024 * size2 d := mul_le_mul_of_nonneg_right hu' hs0
  have un0 : 0 ≤ u * size2 d := mul_nonneg hu hs0
  have q1 : 16 * η ≤ u * size2 d := by
    have : u * τ ≤ u * size2 d := mul_le_mul_of_nonneg_left htiny hu
    linarith
  have uM : u * 1 ≤ u * M := mul_le_mul_of_nonneg_left hM hu
  have ur : u * r ≤ u * (M / 2) := mul_le_mul_of_nonneg_left (by linarith) hu
  have uM' : u * M ≤ 1 / 1024 * M := mul_le_mul_of_nonneg_right hu' (by linarith)
  have t0 : Rp R ⟨D.rot.c0.x, D.rot.c1.x⟩ := ⟨hD.r0.1, hD.r1.1⟩
  have t1 : Rp R ⟨D.rot.c0.y, D.rot.c1.y⟩ := ⟨hD.r0.2, hD.r1.2⟩
  obtain ⟨e, re, ee, de⟩ := apply_err hS (m := D.rot.transpose) t0 t1 ⟨hD.s0.1, hD.s1.1⟩ ⟨hD.s0.2, hD.s1.2⟩ rd (sz_size d) (by linarith)
  have sT : Sz (2 * size2 d) (D.rot.transpose.apply d) := apply_sz (m := D.rot.transpose) ⟨hD.s0.1, hD.s1.1⟩ ⟨hD.s0.2, hD.s1.2⟩ (sz_size d)
  have de' : Sz (9 * (u * size2 d)) (e - D.rot.transpose.apply d) := de.mono (by linarith)
  have se : Sz (3 * size2 d) e := (sz_sub de' sT).mono (by linarith)
  have i1 : invVectorG2 (decF R D) (toV2 R d) = some (toV2 R e) := by
    unfold invVectorG2
    rw [if_neg (scale_one D hD.scale rd).2.2, (scale_one D hD.scale rd).2.1]
    exact congrArg some ee
  -- the size of the local direction
  have lo : size2 d / 4 ≤ e.norm := by
    have h1 := size_sub e _ de'
    have h2 := hT d
    have h3 : size2 e ≤ e.norm := size_le (sz_norm e)
    linarith
  have hi : e.norm ≤ 6 * size2 d := (norm_le_sz se).trans (by linarith)
  have hτe : τ / 4 ≤ e.norm := by linarith
  have hL : 0 < e.norm := by linarith [h.τ0]
  have hsq : η ≤ u * (e.norm * e.norm) := by
    have h1 : τ / 4 * (τ / 4) ≤ e.norm * e.norm := mul_self_le_mul_self (by linarith [h.τ0]) hτe
    have h2 := mul_le_mul_of_nonneg_left h1 hu
    have h3 := h.sq
    have h4 : u * (τ / 4 * (τ / 4)) = u * (τ * τ) / 16 := by ring
    linarith
  have hL1 : η ≤ u * e.norm := by
    have := mul_le_mul_of_nonneg_left hτe hu
    linarith
  have hL2 : η * e.norm ≤ u := by
    have h1 : η * e.norm ≤ η * (2 ^ 26 * M ^ 3) := mul_le_mul_of_nonneg_left (by linarith) hη
    linarith [h.low]
  have b25 : e.norm ≤ 2 ^ 25 * M ^ 3 := by linarith
  have hLL : e.norm * e.norm ≤ 2 ^ 50 * M ^ 6 := by
    have := mul_self_le_mul_self hL.le b25
    rw [show 2 ^ 25 * M ^ 3 * (2 ^ 25 * M ^ 3) = 2 ^ 50 * M ^ 6 by ring] at this
    exact this
  have far : 2 * r ≤ Ω * e.norm := by
    have h1 : Ω * (τ / 4) ≤ Ω * e.norm := mul_le_mul_of_nonneg_left hτe (by linarith)
    have := h.far
    linarith
  obtain ⟨v, rv, ev, dv⟩ := normalize2_near hS hu' hr rr re hL hsq hL1 hL2 s1 (by linarith) (by linarith) far (by linarith)
  have dv' : Sz (16 * (u * M)) (v - e.normalizeTo r) := dv.mono (by linarith)
  have he0 : e ≠ 0 := by
    rintro rfl
    have : (0 : V2 ℝ).norm = 0 := by simp [V2.norm, V2.dot]
    linarith
  obtain ⟨p1, p2⟩ := disc_extreme r hr he0
  have sp : Sz r (e.normalizeTo r) := (sz_norm _).mono p1
  have sv : Sz M v := (sz_sub dv' sp).mono (by linarith)
  obtain ⟨w, rw', sw, ew, dw⟩ := point_near hS hD hM rv sv (by linarith)
  have dp : Sz (48 * (u * M)) (w - D.tr.point (e.normalizeTo r)) := by
    have h1 := apply_sz hD.s0 hD.s1 dv'
    have h2 : D.rot.apply (v - e.normalizeTo r) = D.tr.point v - D.tr.point (e.normalizeTo r) := by
      show _ = D.rot.apply (v * D.scale) + D.disp - (D.rot.apply (e.normalizeTo r * D.scale) + D.disp)
      rw [hD.scale]
      ext <;> simp [M2.apply] <;> ring
    rw [h2] at h1
    exact (sz_chain dw h1).mono (by linarith)
  refine ⟨w, rw', sw, ?_, ⟨_, ⟨_, p1, rfl⟩, dp⟩, ?_⟩
  · unfold circleF
    rw [i1]
    show Res.ok (pointG2 (decF R D) (normalizeToF2 R (toV2 R e) (toF R r))) = _
    rw [ev, ew]
  · rintro p ⟨p0, hp0, rfl⟩
    have sp0 : Sz (M / 2) p0 := (sz_norm _).mono (hp0.trans (by linarith))
    have sp' : Sz (M / 2) (e.normalizeTo r) := sp.mono (by linarith)
    have h1 := p2 p0 hp0
    have h2 := dot_sub_le de' sp0
    have h3 := dot_sub_le de' sp'
    have h4 := dot_sub_le dp (sz_size d)
    rw [image_dot D hD.scale] at h4 ⊢
    have comm : ∀ a b : V2 ℝ, a.dot b = b.dot a := fun a b => by simp [V2.dot]; ring
    rw [comm p0, comm (e.normalizeTo r)] at h1
    rw [comm p0]
    rw [comm (e.normalizeTo r) (D.rot.transpose.apply d)] at h4
    rw [abs_le] at h2 h3 h4
    have e1 : u * (M * size2 d) = u * size2 d * M := by ring
    have e2 : 9 * (u * size2 d) * (M / 2) = 9 / 2 * (u * size2 d * M) := by ring
    have e3 : 48 * (u * M) * size2 d = 48 * (u * size2 d * M) := by ring
    rw [e2] at h2 h3
    rw [e3] at h4
    rw [e1]
    have q4 : 0 ≤ u * size2 d * M := mul_nonneg un0 (by linarith)
    linarith
end two
end
end Verif.Scene
