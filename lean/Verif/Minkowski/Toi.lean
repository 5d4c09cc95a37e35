import Verif.Minkowski.Distance
/-!
# Time of impact (C66, C69)
-/
namespace Verif.Minkowski
open Verif Geom Primitive
set_option linter.unusedSectionVars false
noncomputable section
open Classical

section generic
variable {V : Type} [Neg V] [Sub V] [Zero V] [HMul V ℝ V] [Inner V ℝ]

/-- What holds of the state of the loop: `M` are the points of the Minkowski difference at time 0. -/
structure ToiState (M : V → Prop) (ray : V) (st : Impact V) : Prop where
  origin : st.rayOrigin = ray * st.lambda
  nonneg : 0 ≤ st.lambda
  le_one : st.lambda ≤ 1
  early : ∀ t : ℝ, 0 ≤ t → t ≤ 1 → M (ray * t) → st.lambda ≤ t
  normal : 0 < st.lambda → ∃ v, st.normal = -v ∧ 0 < Inner.dot v v ∧ 0 < Inner.dot v ray ∧ ∀ m, M m → st.lambda * Inner.dot v ray ≤ Inner.dot v m

theorem toiLoop_spec {closest : List (SP V) → Res (Option V × List (SP V))} {tolerance : ℝ} (htol : 0 ≤ tolerance) {left right : V → Res V}
    {ray : V} {M : V → Prop} (hs : ∀ v p, (0:ℝ) < Inner.dot v v → SP.fromMinkowski left right (-v) = .ok p → ∀ m, M m → Inner.dot v p.v ≤ Inner.dot v m)
    (hr : ∀ (v : V) (t : ℝ), Inner.dot v (ray * t) = t * Inner.dot v ray)
    (Inv : V → List (SP V) → V → Prop)
    (clip : ∀ v p o c s', (0:ℝ) < Inner.dot v v → SP.fromMinkowski left right (-v) = .ok p → closest [p.subPoint o] = .ok (some c, s') → Inv o s' c)
    (add : ∀ v p o s c s', Inv o s v → (0:ℝ) < Inner.dot v v → SP.fromMinkowski left right (-v) = .ok p → Inner.dot v p.v ≤ Inner.dot v o →
      closest (s ++ [p.subPoint o]) = .ok (some c, s') → Inv o s' c) :
    ∀ fuel simplex st r, ToiState M ray st → Inv st.rayOrigin simplex st.v →
      toiLoop closest tolerance left right ray fuel simplex st = .ok r →
      (r = none → ∀ t : ℝ, 0 ≤ t → t ≤ 1 → ¬ M (ray * t)) ∧
      ∀ st', r = some st' → ToiState M ray st' ∧ Inner.dot st'.v st'.v ≤ tolerance ∧ ∃ s', Inv st'.rayOrigin s' st'.v := by
  intro fuel
  induction fuel with
  | zero =>
    intro s st r h0 hi h
    unfold toiLoop at h
    split at h
    · cases h
    · rename_i hv
      cases h
      refine ⟨nofun, ?_⟩
      rintro _ ⟨⟩
      exact ⟨h0, not_lt.mp hv, s, hi⟩
  | succ fuel ih =>
    intro s st r h0 hi h
    unfold toiLoop at h
    split at h
    · rename_i hv
      have hv0 : 0 < Inner.dot st.v st.v := lt_of_le_of_lt htol hv
      rw [Res.bind_eq_ok] at h
      obtain ⟨p, hp, h⟩ := h
      dsimp only at h
      split at h
      · rename_i hvp
        split at h
        · rename_i hvr
          have hlt : st.lambda < Inner.dot st.v p.v / Inner.dot st.v ray := by
            rw [lt_div_iff₀ hvr]; exact hvp
          have hearly : ∀ t : ℝ, 0 ≤ t → t ≤ 1 → M (ray * t) → Inner.dot st.v p.v / Inner.dot st.v ray ≤ t := by
            intro t _ _ hm
            have := hs _ _ hv0 hp _ hm
            rw [hr] at this
            rw [div_le_iff₀ hvr]; exact this
          split at h
          · rename_i hl1
            cases h
            refine ⟨fun _ t ht0 ht1 hm => ?_, nofun⟩
            exact absurd (lt_of_lt_of_le hl1 (hearly t ht0 ht1 hm)) (not_lt.mpr ht1)
          · rename_i hl1
            rw [Res.bind_eq_ok] at h
            obtain ⟨⟨c, s'⟩, hc, h⟩ := h
            rw [Res.bind_eq_ok] at h
            obtain ⟨v, hv', h⟩ := h
            dsimp only at hv' h
            cases c with
            | none => cases hv'
            | some c =>
              cases hv'
              refine ih _ _ _ ⟨rfl, le_trans h0.nonneg hlt.le, not_lt.mp hl1, hearly, fun _ => ⟨st.v, rfl, hv0, hvr, ?_⟩⟩ (clip st.v p _ v s' hv0 hp hc) h
              intro m hm
              dsimp only
              rw [div_mul_cancel₀ _ hvr.ne']
              exact hs _ _ hv0 hp _ hm
        · rename_i hvr
          cases h
          refine ⟨fun _ t ht0 ht1 hm => ?_, nofun⟩
          have h1 := hs _ _ hv0 hp _ hm
          rw [hr] at h1
          have h2 := h0.early t ht0 ht1 hm
          have h3 := mul_le_mul_of_nonpos_right h2 (not_lt.mp hvr)
          exact absurd (lt_of_lt_of_le hvp h1) (not_lt.mpr h3)
      · rename_i hvp
        rw [Res.bind_eq_ok] at h
        obtain ⟨⟨c, s'⟩, hc, h⟩ := h
        rw [Res.bind_eq_ok] at h
        obtain ⟨v, hv', h⟩ := h
        dsimp only at hv' h
        cases c with
        | none => cases hv'
        | some c =>
          cases hv'
          refine ih s' ⟨st.lambda, st.normal, st.rayOrigin, v⟩ r ⟨h0.origin, h0.nonneg, h0.le_one, h0.early, h0.normal⟩ (add st.v p _ _ v s' hi hv0 hp ?_ hc) h
          rw [h0.origin, hr]
          exact not_lt.mp hvp
    · rename_i hv
      cases h
      refine ⟨nofun, ?_⟩
      rintro _ ⟨⟩
      exact ⟨h0, not_lt.mp hv, s, hi⟩

/-- The loop does not panic. -/
theorem toiLoop_total {closest : List (SP V) → Res (Option V × List (SP V))} {tolerance : ℝ} (htol : 0 ≤ tolerance) {left right : V → Res V}
    {ray : V} (hs : ∀ v, (0:ℝ) < Inner.dot v v → ∃ p, SP.fromMinkowski left right (-v) = .ok p)
    (hr : ∀ (v : V) (t : ℝ), Inner.dot v (ray * t) = t * Inner.dot v ray)
    (Inv : V → List (SP V) → V → Prop)
    (clip : ∀ v p o, (0:ℝ) < Inner.dot v v → SP.fromMinkowski left right (-v) = .ok p → ∃ c s', closest [p.subPoint o] = .ok (some c, s') ∧ Inv o s' c)
    (add : ∀ v p o s, Inv o s v → (0:ℝ) < Inner.dot v v → SP.fromMinkowski left right (-v) = .ok p → Inner.dot v p.v ≤ Inner.dot v o →
      ∃ c s', closest (s ++ [p.subPoint o]) = .ok (some c, s') ∧ Inv o s' c) :
    ∀ fuel simplex st, st.rayOrigin = ray * st.lambda → Inv st.rayOrigin simplex st.v →
      toiLoop closest tolerance left right ray fuel simplex st ≠ .panic := by
  intro fuel
  induction fuel with
  | zero =>
    intro s st _ _
    unfold toiLoop
    split <;> nofun
  | succ fuel ih =>
    intro s st h0 hi
    unfold toiLoop
    split
    · rename_i hv
      have hv0 : 0 < Inner.dot st.v st.v := lt_of_le_of_lt htol hv
      obtain ⟨p, hp⟩ := hs _ hv0
      dsimp only
      rw [hp, Res.bind_ok]
      split
      · split
        · split
          · nofun
          · obtain ⟨c, s', hc, hi'⟩ := clip _ _ (ray * (Inner.dot st.v p.v / Inner.dot st.v ray)) hv0 hp
            rw [hc, Res.bind_ok]
            dsimp only
            simp only [Res.ofOption, Res.bind_ok]
            exact ih _ _ rfl hi'
        · nofun
      · rename_i hvp
        obtain ⟨c, s', hc, hi'⟩ := add _ _ st.rayOrigin _ hi hv0 hp (by rw [h0, hr]; exact not_lt.mp hvp)
        rw [hc, Res.bind_ok]
        dsimp only
        simp only [Res.ofOption, Res.bind_ok]
        exact ih _ _ h0 hi'
    · nofun
end generic

/-! ## Two dimensions: the simplex around the ray origin -/

/-- If the closest point `v` of the segment from `b` to `b + z` does not lie beyond the level of the new point `b + u`, and the
origin is on the outer side of the new edge, then the origin is not behind `b` on that edge. -/
theorem edge_behind {b z u v : V2 ℝ} {t : ℝ} (ht0 : 0 ≤ t) (ht1 : t ≤ 1) (hv : v = b + z * t) (hvb : v.dot v ≤ b.dot v)
    (hvc : v.dot v ≤ (b + z).dot v) (hv0 : 0 < v.dot v) (hz : z ≠ 0) (hu : u ≠ 0) (hvp : (b + u).dot v ≤ 0)
    (hside : 0 < u.perpDot z * u.perpDot b) : (b + u).dot b < b.dot b := by
  by_contra hcon
  have hub : 0 ≤ u.dot b := by
    simp only [V2.dot, V2.add_x, V2.add_y] at hcon ⊢; nlinarith
  have hzz := dot_self_pos2 hz
  have huu := dot_self_pos2 hu
  have hid : u.perpDot z * u.perpDot b = u.dot u * z.dot b - u.dot b * z.dot u := by
    simp only [V2.dot, V2.perpDot]; ring
  -- `t > 0`
  have htpos : 0 < t := by
    rcases lt_or_eq_of_le ht0 with h | h
    · exact h
    · exfalso
      have hvb' : v = b := by rw [hv, ← h]; ext <;> simp
      rw [hvb'] at hvp hv0
      simp only [V2.dot, V2.add_x, V2.add_y] at hvp hv0 hub; nlinarith
  have hcomb : (1 - t) * (b.dot v - v.dot v) + t * ((b + z).dot v - v.dot v) = 0 := by
    have : v.dot v = (b + z * t).dot v := by rw [← hv]
    have h2 : (b + z * t).dot v = (1 - t) * b.dot v + t * (b + z).dot v := by
      simp only [V2.dot, V2.add_x, V2.add_y, V2.mul_x, V2.mul_y]; ring
    rw [h2] at this
    linear_combination -this
  have hcv : (b + z).dot v = v.dot v := by
    have h1 : 0 ≤ (1 - t) * (b.dot v - v.dot v) := mul_nonneg (by linarith) (by linarith)
    have h2 : 0 ≤ t * ((b + z).dot v - v.dot v) := mul_nonneg ht0 (by linarith)
    have h3 : t * ((b + z).dot v - v.dot v) = 0 := by linarith
    rcases mul_eq_zero.mp h3 with h | h
    · exact absurd h htpos.ne'
    · linarith
  have hzb : z.dot b ≤ -(t * z.dot z) := by
    have h1 : z.dot v ≤ 0 := by
      have : (b + z).dot v = b.dot v + z.dot v := by simp only [V2.dot, V2.add_x, V2.add_y]; ring
      linarith
    have h2 : z.dot v = z.dot b + t * z.dot z := by
      rw [hv]; simp only [V2.dot, V2.add_x, V2.add_y, V2.mul_x, V2.mul_y]; ring
    linarith
  have hzu2 : z.dot u * z.dot u ≤ z.dot z * u.dot u := by
    have : z.dot z * u.dot u - z.dot u * z.dot u = (z.perpDot u) * (z.perpDot u) := by
      simp only [V2.dot, V2.perpDot]; ring
    nlinarith [mul_self_nonneg (z.perpDot u)]
  have hvb0 : 0 < b.dot v := lt_of_lt_of_le hv0 hvb
  have hvp' : b.dot v + u.dot b + t * z.dot u ≤ 0 := by
    have : (b + u).dot v = b.dot v + u.dot b + t * z.dot u := by
      conv_lhs => rw [hv]
      conv_rhs => rw [hv]
      simp only [V2.dot, V2.add_x, V2.add_y, V2.mul_x, V2.mul_y]; ring
    linarith
  have hzu : z.dot u < 0 := by nlinarith
  rw [hid] at hside
  have h1 : u.dot u * z.dot b ≤ -(t * (z.dot z * u.dot u)) := by nlinarith
  have h2 : t * (z.dot u * z.dot u) ≤ t * (z.dot z * u.dot u) := mul_le_mul_of_nonneg_left hzu2 ht0
  have h3 : u.dot b * z.dot u < -(t * (z.dot u * z.dot u)) := by linarith
  have h4 : -(t * z.dot u) < u.dot b := by
    by_contra h
    have := mul_le_mul_of_nonpos_right (not_lt.mp h) hzu.le
    nlinarith
  linarith

/-- The simplex and the closest point in it; `N` is the Minkowski difference seen from the ray origin. -/
inductive Simp2 (N : V2 ℝ → Prop) : List (SP (V2 ℝ)) → V2 ℝ → Prop
  | empty {v} : N v → Simp2 N [] v
  | one {s : SP (V2 ℝ)} : N s.v → Simp2 N [s] s.v
  | edge {s0 s1 : SP (V2 ℝ)} {v} (w : V2 ℝ) : N s0.v → N s1.v → closestOnEdge2 s1.v s0.v = some v → s1.v.dot w < s0.v.dot w →
      (∀ m, N m → s1.v.dot w ≤ m.dot w) → s1.v.dot s0.v < s0.v.dot s0.v → Simp2 N [s0, s1] v
  | inside {s} : N 0 → Simp2 N s 0

theorem closestOnEdge2_some {a b : V2 ℝ} (h : a ≠ b) : ∃ c, closestOnEdge2 a b = some c := by
  unfold closestOnEdge2
  have : b - a ≠ 0 := by
    intro h0; apply h
    have hx := congrArg V2.x h0
    have hy := congrArg V2.y h0
    simp at hx hy
    ext <;> linarith
  rw [if_neg this]
  exact ⟨_, rfl⟩

theorem simp2_mem {N : V2 ℝ → Prop} (hN : Convex2 N) {s : List (SP (V2 ℝ))} {v : V2 ℝ} (h : Simp2 N s v) : N v := by
  cases h with
  | empty h => exact h
  | one h => exact h
  | edge w h0 h1 hc =>
    obtain ⟨_, ⟨t, ht0, ht1, rfl⟩, _⟩ := closestOnEdge2_spec hc
    exact hN _ _ _ h1 h0 ht0 ht1
  | inside h => exact h

theorem closest2_one (p : SP (V2 ℝ)) : closest2 [p] = .ok (some p.v, [p]) := rfl

theorem closest2_two {s p : SP (V2 ℝ)} : closest2 [s, p] = .ok (closestOnEdge2 p.v s.v, [s, p]) := rfl

theorem collinear2 {u z : V2 ℝ} (hz : z ≠ 0) (h : u.perpDot z = 0) : ∃ k : ℝ, u = z * k := by
  have hzz := dot_self_pos2 hz
  refine ⟨u.dot z / z.dot z, ?_⟩
  have h1 : u.x * z.dot z = z.x * u.dot z := by
    simp only [V2.perpDot, V2.dot] at h ⊢; linear_combination z.y * h
  have h2 : u.y * z.dot z = z.y * u.dot z := by
    simp only [V2.perpDot, V2.dot] at h ⊢; linear_combination -z.x * h
  ext
  · simp only [V2.mul_x]; field_simp; linarith
  · simp only [V2.mul_y]; field_simp; linarith

/-- The three points of the simplex are not in line. -/
theorem simp2_area {a b c v w : V2 ℝ} {t : ℝ} (hne : b ≠ c) (ht0 : 0 ≤ t) (ht1 : t ≤ 1) (hvt : v = b + (c - b) * t) (hd1 : v.dot v ≤ b.dot v)
    (hd0 : v.dot v ≤ c.dot v) (hw : b.dot w < c.dot w) (hwm : b.dot w ≤ a.dot w) (hb : b.dot c < c.dot c) (hv : 0 < v.dot v) (hvp : a.dot v ≤ 0) :
    (b - a).perpDot (c - a) ≠ 0 := by
  intro hD
  have hz : c - b ≠ 0 := by
    intro h0; apply hne
    have hx := congrArg V2.x h0
    have hy := congrArg V2.y h0
    simp at hx hy
    ext <;> linarith
  obtain ⟨k, hk⟩ := collinear2 hz (u := a - b) (by
    simp only [V2.perpDot, V2.sub_x, V2.sub_y] at hD ⊢; linarith)
  have hax : a.x = b.x + (c.x - b.x) * k := by
    have := congrArg V2.x hk
    simp only [V2.sub_x, V2.mul_x] at this; linarith
  have hay : a.y = b.y + (c.y - b.y) * k := by
    have := congrArg V2.y hk
    simp only [V2.sub_y, V2.mul_y] at this; linarith
  have hlin : ∀ d : V2 ℝ, a.dot d = b.dot d + (c.dot d - b.dot d) * k := by
    intro d; simp only [V2.dot, hax, hay]; ring
  have hk0 : 0 ≤ k := by
    rw [hlin] at hwm
    by_contra h
    nlinarith
  have hk1 : 1 < k := by
    by_contra h
    rw [hlin] at hvp
    have h1 : 0 ≤ k * (c.dot v - v.dot v) := mul_nonneg hk0 (by linarith)
    have h2 : 0 ≤ (1 - k) * (b.dot v - v.dot v) := mul_nonneg (by linarith) (by linarith)
    nlinarith
  have hlt : c.dot v < b.dot v := by
    by_contra h
    rw [hlin] at hvp
    nlinarith
  have hcomb : (1 - t) * (b.dot v - v.dot v) + t * (c.dot v - v.dot v) = 0 := by
    have : v.dot v = (b + (c - b) * t).dot v := by rw [← hvt]
    have h2 : (b + (c - b) * t).dot v = (1 - t) * b.dot v + t * c.dot v := by
      simp only [V2.dot, V2.add_x, V2.add_y, V2.sub_x, V2.sub_y, V2.mul_x, V2.mul_y]; ring
    rw [h2] at this
    linear_combination -this
  have ht : t = 1 := by
    have h1 : 0 ≤ (1 - t) * (b.dot v - v.dot v) := mul_nonneg (by linarith) (by linarith)
    have h2 : 0 ≤ t * (c.dot v - v.dot v) := mul_nonneg ht0 (by linarith)
    have h3 : (1 - t) * (b.dot v - v.dot v) = 0 := by linarith
    rcases mul_eq_zero.mp h3 with h | h
    · linarith
    · linarith
  have hvc : v = c := by rw [hvt, ht]; ext <;> simp
  rw [hvc] at hlt
  linarith

theorem simp2_add {N : V2 ℝ → Prop} (hN : Convex2 N) {s : List (SP (V2 ℝ))} {v : V2 ℝ} {p : SP (V2 ℝ)} (h : Simp2 N s v) (hv : 0 < v.dot v)
    (hp : N p.v) (hmin : ∀ m, N m → p.v.dot v ≤ m.dot v) (hvp : p.v.dot v ≤ 0) :
    ∃ c s', closest2 (s ++ [p]) = .ok (some c, s') ∧ Simp2 N s' c := by
  cases h with
  | empty _ => exact ⟨_, _, closest2_one p, .one hp⟩
  | one h0 =>
    rename_i s0
    have hne : p.v ≠ s0.v := by
      intro h; rw [h] at hvp; linarith
    obtain ⟨c, hc⟩ := closestOnEdge2_some hne
    refine ⟨c, [s0, p], ?_, .edge s0.v h0 hp hc (by linarith) hmin (by linarith)⟩
    show closest2 [s0, p] = _
    rw [closest2_two, hc]
  | inside h0 => simp [V2.dot] at hv
  | edge w h0 h1 hc hw hwm hb =>
    rename_i s0 s1
    obtain ⟨hne, ⟨t, ht0, ht1, hvt⟩, hd1, hd0⟩ := closestOnEdge2_spec hc
    have hne' : s1.v ≠ s0.v := hne
    have hD := simp2_area hne' ht0 ht1 hvt hd1 hd0 hw (hwm _ hp) hb hv hvp
    have hpb : p.v ≠ s1.v := by intro h; rw [h] at hvp; linarith
    have hpc : p.v ≠ s0.v := by intro h; rw [h] at hvp; linarith
    have hsub : ∀ {x y : V2 ℝ}, x ≠ y → x - y ≠ 0 := by
      intro x y hxy h0; apply hxy
      have hx := congrArg V2.x h0
      have hy := congrArg V2.y h0
      simp at hx hy
      ext <;> linarith
    by_cases c1 : (tripleProduct (s0.v - p.v) (s1.v - p.v) (s1.v - p.v)).dot (-p.v) > 0
    · obtain ⟨c, hc'⟩ := closestOnEdge2_some hpb
      refine ⟨c, [s1, p], ?_, .edge v h1 hp hc' (by linarith) hmin ?_⟩
      · show closest2 [s0, s1, p] = _
        have : reduce2 [s0, s1, p] 0 = (false, [s1, p], tripleProduct (s0.v - p.v) (s1.v - p.v) (s1.v - p.v)) := by
          unfold reduce2; dsimp only; rw [if_pos c1]
        unfold closest2
        rw [this]
        dsimp only
        rw [hc']
        rfl
      · have e1 : s1.v + (s0.v - s1.v) = s0.v := by ext <;> simp
        have e2 : s1.v + (p.v - s1.v) = p.v := by ext <;> simp
        have := edge_behind (b := s1.v) (z := s0.v - s1.v) (u := p.v - s1.v) ht0 ht1 hvt hd1 (by rw [e1]; exact hd0) hv (hsub hne'.symm) (hsub hpb)
          (by rw [e2]; exact hvp) (by
            rw [abp_dot] at c1
            simp only [V2.perpDot, V2.sub_x, V2.sub_y, V2.neg_x, V2.neg_y] at c1 ⊢
            nlinarith)
        rw [e2] at this
        exact this
    · by_cases c2 : (tripleProduct (s1.v - p.v) (s0.v - p.v) (s0.v - p.v)).dot (-p.v) > 0
      · obtain ⟨c, hc'⟩ := closestOnEdge2_some hpc
        refine ⟨c, [s0, p], ?_, .edge v h0 hp hc' (by linarith) hmin ?_⟩
        · show closest2 [s0, s1, p] = _
          have : reduce2 [s0, s1, p] 0 = (false, [s0, p], tripleProduct (s1.v - p.v) (s0.v - p.v) (s0.v - p.v)) := by
            unfold reduce2; dsimp only; rw [if_neg c1, if_pos c2]
          unfold closest2
          rw [this]
          dsimp only
          rw [hc']
          rfl
        · have e1 : s0.v + (s1.v - s0.v) = s1.v := by ext <;> simp
          have e2 : s0.v + (p.v - s0.v) = p.v := by ext <;> simp
          have := edge_behind (b := s0.v) (z := s1.v - s0.v) (u := p.v - s0.v) (t := 1 - t) (v := v) (by linarith) (by linarith)
            (by rw [hvt]; ext <;> simp <;> ring) hd0 (by rw [e1]; exact hd1) hv (hsub hne') (hsub hpc)
            (by rw [e2]; exact hvp) (by
              rw [acp_dot] at c2
              simp only [V2.perpDot, V2.sub_x, V2.sub_y, V2.neg_x, V2.neg_y] at c2 ⊢
              nlinarith)
          rw [e2] at this
          exact this
      · refine ⟨0, [s0, s1, p], ?_, .inside ?_⟩
        · show closest2 [s0, s1, p] = _
          have : reduce2 [s0, s1, p] 0 = (true, [s0, s1, p], 0) := by
            unfold reduce2; dsimp only; rw [if_neg c1, if_neg c2]
          unfold closest2
          rw [this]
          rfl
        · rw [abp_dot] at c1
          rw [acp_dot] at c2
          set D := (s1.v - p.v).perpDot (s0.v - p.v) with hDd
          set γ := (s1.v - p.v).perpDot (-p.v) / D with hγ
          set β := (-p.v).perpDot (s0.v - p.v) / D with hβ
          have hγ0 : 0 ≤ γ := by
            have : γ = (D * (s1.v - p.v).perpDot (-p.v)) / (D * D) := by rw [hγ]; field_simp
            rw [this]
            exact div_nonneg (by linarith) (mul_self_nonneg D)
          have hβ0 : 0 ≤ β := by
            have : β = (D * (-p.v).perpDot (s0.v - p.v)) / (D * D) := by rw [hβ]; field_simp
            rw [this]
            exact div_nonneg (by linarith) (mul_self_nonneg D)
          have hx : -p.v.x = (s1.v.x - p.v.x) * β + (s0.v.x - p.v.x) * γ := by
            rw [hγ, hβ, div_eq_mul_inv, div_eq_mul_inv]
            have : D * D⁻¹ = 1 := mul_inv_cancel₀ hD
            rw [show -p.v.x = -p.v.x * (D * D⁻¹) by rw [this, mul_one]]
            rw [hDd]
            simp only [V2.perpDot, V2.sub_x, V2.sub_y, V2.neg_x, V2.neg_y]; ring
          have hy : -p.v.y = (s1.v.y - p.v.y) * β + (s0.v.y - p.v.y) * γ := by
            rw [hγ, hβ, div_eq_mul_inv, div_eq_mul_inv]
            have : D * D⁻¹ = 1 := mul_inv_cancel₀ hD
            rw [show -p.v.y = -p.v.y * (D * D⁻¹) by rw [this, mul_one]]
            rw [hDd]
            simp only [V2.perpDot, V2.sub_x, V2.sub_y, V2.neg_x, V2.neg_y]; ring
          clear_value β γ
          have hv' : -p.v.dot v = (s1.v.dot v - p.v.dot v) * β + (s0.v.dot v - p.v.dot v) * γ := by
            simp only [V2.dot] at *
            linear_combination v.x * hx + v.y * hy
          have hle : β + γ ≤ 1 := by
            by_contra h
            have g1 : 0 ≤ β * (s1.v.dot v - v.dot v) := mul_nonneg hβ0 (by linarith)
            have g2 : 0 ≤ γ * (s0.v.dot v - v.dot v) := mul_nonneg hγ0 (by linarith)
            have g3 : 0 ≤ (β + γ - 1) * (-(p.v.dot v)) := mul_nonneg (by linarith) (by linarith)
            nlinarith
          -- the origin is on the segment from `p` to a point of the opposite edge
          by_cases hz : β + γ = 0
          · have hb0 : β = 0 := by linarith
            have hg0 : γ = 0 := by linarith
            rw [hb0, hg0] at hx hy
            have : p.v = 0 := by ext <;> simp <;> linarith
            rw [← this]; exact hp
          · have hpos : 0 < β + γ := lt_of_le_of_ne (by linarith) (Ne.symm hz)
            have hm : N (s1.v + (s0.v - s1.v) * (γ / (β + γ))) :=
              hN _ _ _ h1 h0 (div_nonneg hγ0 hpos.le) (by rw [div_le_one hpos]; linarith)
            have := hN _ _ (β + γ) hp hm hpos.le hle
            convert this using 1
            ext
            · simp only [V2.zero_x, V2.add_x, V2.sub_x, V2.mul_x]
              field_simp
              linarith
            · simp only [V2.zero_y, V2.add_y, V2.sub_y, V2.mul_y]
              field_simp
              linarith

/-! ## C66 -/

/-- Specification: the shapes `L` and `R`, moving along `u` and `w` from time 0 to time 1, share a point at time `t`. -/
def MeetAt2 (L R : V2 ℝ → Prop) (u w : V2 ℝ) (t : ℝ) : Prop := ∃ x y, L x ∧ R y ∧ x + u * t = y + w * t
/-- Specification: the shapes `L` and `R`, moving along `u` and `w` from time 0 to time 1, share a point at time `t`. -/
def MeetAt3 (L R : V3 ℝ → Prop) (u w : V3 ℝ) (t : ℝ) : Prop := ∃ x y, L x ∧ R y ∧ x + u * t = y + w * t

theorem meetAt2_iff {L R : V2 ℝ → Prop} {u w : V2 ℝ} {t : ℝ} : MeetAt2 L R u w t ↔ Mink2 L R ((w - u) * t) := by
  constructor
  · rintro ⟨x, y, hx, hy, h⟩
    refine ⟨x, y, hx, hy, ?_⟩
    have h1 := congrArg V2.x h
    have h2 := congrArg V2.y h
    simp at h1 h2
    ext <;> simp <;> linarith
  · rintro ⟨x, y, hx, hy, h⟩
    refine ⟨x, y, hx, hy, ?_⟩
    have h1 := congrArg V2.x h
    have h2 := congrArg V2.y h
    simp at h1 h2
    ext <;> simp <;> linarith
theorem meetAt3_iff {L R : V3 ℝ → Prop} {u w : V3 ℝ} {t : ℝ} : MeetAt3 L R u w t ↔ Mink3 L R ((w - u) * t) := by
  constructor
  · rintro ⟨x, y, hx, hy, h⟩
    refine ⟨x, y, hx, hy, ?_⟩
    have h1 := congrArg V3.x h
    have h2 := congrArg V3.y h
    have h3 := congrArg V3.z h
    simp at h1 h2 h3
    ext <;> simp <;> linarith
  · rintro ⟨x, y, hx, hy, h⟩
    refine ⟨x, y, hx, hy, ?_⟩
    have h1 := congrArg V3.x h
    have h2 := congrArg V3.y h
    have h3 := congrArg V3.z h
    simp at h1 h2 h3
    ext <;> simp <;> linarith

theorem toi_normal2 (v : V2 ℝ) : -(V2.normalize (-v)) = v.normalize := by
  unfold V2.normalize
  rw [V2.norm_neg]
  ext <;> simp
theorem toi_normal3 (v : V3 ℝ) : -(V3.normalize (-v)) = v.normalize := by
  unfold V3.normalize
  rw [V3.norm_neg]
  ext <;> simp

theorem ne_of_dot2 {v : V2 ℝ} (h : (0:ℝ) < Inner.dot v v) : v ≠ 0 := by
  rintro rfl; simp [Inner.dot, V2.dot] at h
theorem ne_of_dot3 {v : V3 ℝ} (h : (0:ℝ) < Inner.dot v v) : v ≠ 0 := by
  rintro rfl; simp [Inner.dot, V3.dot] at h

/-- C66, 2D: `None` is returned only if the shapes never meet on the way; a contact has a time in `[0,1]` before which the shapes do not
meet. If the shapes move relative to each other, at that time two of their points are at the distance given as penetration depth, which
is at most the square root of the tolerance; the normal of a contact after time 0 is a unit vector, separates the shapes at that time
(the left shape is on its side) and is a direction in which they approach each other. -/
theorem c66_2d (L R : V2 ℝ → Prop) (hL : Convex2 L) (hR : Convex2 R) {left right : V2 ℝ → Res (V2 ℝ)} (hl : SupportFn2 left L) (hr : SupportFn2 right R)
    (hl0 : ∀ a, left 0 = .ok a → L a) (hr0 : ∀ a, right 0 = .ok a → R a)
    {tolerance : ℝ} (htol : 0 ≤ tolerance) (fuel : Nat) (lStart lEnd rStart rEnd : V2 ℝ) (place : ℝ → V2 ℝ → V2 ℝ) {r : Option (Contact (V2 ℝ) ℝ)}
    (h : gjkToi closest2 V2.normalize tolerance fuel left right lStart lEnd rStart rEnd place = .ok r) :
    (r = none → ∀ t, 0 ≤ t → t ≤ 1 → ¬ MeetAt2 L R (lEnd - lStart) (rEnd - rStart) t) ∧
    ∀ c, r = some c → 0 ≤ c.toi ∧ c.toi ≤ 1 ∧ (∀ t, 0 ≤ t → t < c.toi → ¬ MeetAt2 L R (lEnd - lStart) (rEnd - rStart) t) ∧
      c.depth * c.depth ≤ tolerance ∧
      (∃ x y, L x ∧ R y ∧ ((x + (lEnd - lStart) * c.toi) - (y + (rEnd - rStart) * c.toi)).norm = c.depth) ∧
      (0 < c.toi → c.normal.norm = 1 ∧ 0 < ((rEnd - rStart) - (lEnd - lStart)).dot c.normal ∧
        ∀ x y, L x → R y → (y + (rEnd - rStart) * c.toi).dot c.normal ≤ (x + (lEnd - lStart) * c.toi).dot c.normal) := by
  have hM := mink2_convex hL hR
  have hs : ∀ v p, (0:ℝ) < Inner.dot v v → SP.fromMinkowski left right (-v) = .ok p →
      FromShapes2 L R p ∧ ∀ m, Mink2 L R m → Inner.dot v p.v ≤ Inner.dot v m := by
    intro v p hv hp
    obtain ⟨a, ha, h1, h2⟩ := minkowski2 hl hr (neg_ne2 (ne_of_dot2 hv))
    rw [hp] at ha
    cases ha
    refine ⟨h1, fun m hm => ?_⟩
    have := h2 m hm
    simp only [Inner.dot, V2.dot, V2.neg_x, V2.neg_y] at this ⊢
    linarith
  set u := lEnd - lStart with hu
  set w := rEnd - rStart with hw
  unfold gjkToi at h
  rw [← hu, ← hw] at h
  dsimp only at h
  clear_value u w
  rw [Res.bind_eq_ok] at h
  obtain ⟨p, hp, h⟩ := h
  rw [Res.bind_eq_ok] at h
  obtain ⟨o, ho, h⟩ := h
  have hdr : ∀ (v : V2 ℝ) (t : ℝ), Inner.dot v ((w - u) * t) = t * Inner.dot v (w - u) := by
    intro v t; simp only [Inner.dot, V2.dot, V2.mul_x, V2.mul_y]; ring
  have hshift : ∀ o : V2 ℝ, Convex2 (fun m => Mink2 L R (m + o)) := by
    intro o a b t ha hb t0 t1
    have := hM _ _ t ha hb t0 t1
    convert this using 1
    ext <;> simp <;> ring
  have hsub : ∀ (p : SP (V2 ℝ)) (o : V2 ℝ), FromShapes2 L R p → Mink2 L R ((p.subPoint o).v + o) := by
    intro p o hp
    have e : (p.subPoint o).v + o = p.v := by ext <;> simp [SP.subPoint]
    rw [e]; exact hp.mink
  have key := toiLoop_spec (closest := closest2) htol (left := left) (right := right) (ray := w - u) (M := Mink2 L R)
    (fun v p hv hp => (hs v p hv hp).2) hdr
    (Inv := fun o s v => Simp2 (fun m => Mink2 L R (m + o)) s v)
    (by
      intro v p o c s' hv hp hc
      rw [closest2_one] at hc
      cases hc
      exact .one (hsub p o (hs v p hv hp).1))
    (by
      intro v p o s c s' hi hv hp hle hc
      obtain ⟨h1, h2⟩ := hs v p hv hp
      obtain ⟨c', s'', hc', hi'⟩ := simp2_add (p := p.subPoint o) (hshift o) hi hv (hsub p o h1)
        (by
          intro m hm
          have := h2 _ hm
          simp only [Inner.dot, V2.dot, SP.subPoint, V2.add_x, V2.add_y, V2.sub_x, V2.sub_y] at this ⊢
          linarith)
        (by
          simp only [Inner.dot, V2.dot, SP.subPoint, V2.sub_x, V2.sub_y] at hle ⊢
          linarith)
      rw [hc'] at hc
      cases hc
      exact hi')
    fuel [] ⟨0, 0, 0, p.v⟩ o
    ⟨by ext <;> simp, le_refl _, zero_le_one, fun t ht _ _ => ht, fun h => absurd h (lt_irrefl _)⟩
    (by
      have h1 : FromShapes2 L R p := by
        by_cases h0 : w - u = 0
        · have e : -(w - u) = 0 := by rw [h0]; ext <;> simp
          rw [e] at hp
          unfold SP.fromMinkowski at hp
          rw [Res.bind_eq_ok] at hp
          obtain ⟨a, ha, hp⟩ := hp
          rw [Res.bind_eq_ok] at hp
          obtain ⟨b, hb, hp⟩ := hp
          have e' : -(0 : V2 ℝ) = 0 := by ext <;> simp
          rw [e'] at hb
          cases hp
          exact ⟨hl0 a ha, hr0 b hb, rfl⟩
        · obtain ⟨a, ha, h1, h2⟩ := minkowski2 hl hr (neg_ne2 h0)
          rw [hp] at ha
          cases ha
          exact h1
      refine .empty ?_
      have e : p.v + 0 = p.v := by ext <;> simp
      dsimp only
      rw [e]; exact h1.mink) ho
  obtain ⟨k1, k2⟩ := key
  cases o with
  | none =>
    cases h
    refine ⟨fun _ t t0 t1 hm => k1 rfl t t0 t1 (meetAt2_iff.mp hm), nofun⟩
  | some st =>
    cases h
    refine ⟨nofun, ?_⟩
    rintro _ ⟨⟩
    obtain ⟨hst, hvt, s', hi⟩ := k2 st rfl
    dsimp only [Contact.newWithPoint]
    refine ⟨hst.nonneg, hst.le_one, ?_, ?_, ?_, ?_⟩
    · intro t t0 t1 hm
      exact absurd (hst.early t t0 (by linarith [hst.le_one]) (meetAt2_iff.mp hm)) (not_le.mpr t1)
    · have : mag st.v * mag st.v = st.v.dot st.v := V2.norm_sq st.v
      rw [this]; exact hvt
    · obtain ⟨x, y, hx, hy, e⟩ := simp2_mem (hshift _) hi
      rw [hst.origin] at e
      refine ⟨x, y, hx, hy, ?_⟩
      have e' : (x + u * st.lambda) - (y + w * st.lambda) = st.v := by
        have h1 := congrArg V2.x e
        have h2 := congrArg V2.y e
        simp at h1 h2
        ext <;> simp <;> linarith
      rw [e']
      rfl
    · intro h0
      obtain ⟨v, hn, hv, hvr, hsep⟩ := hst.normal h0
      rw [hn, toi_normal2]
      have hv0 := ne_of_dot2 hv
      have hnp := V2.norm_pos hv0
      have hc : 0 < 1 / v.norm := by positivity
      have hnd : ∀ z : V2 ℝ, z.dot v.normalize = (Inner.dot v z : ℝ) * (1 / v.norm) := by
        intro z; simp only [V2.normalize, Inner.dot, V2.dot, V2.mul_x, V2.mul_y]; ring
      refine ⟨V2.norm_normalize hv0, by rw [hnd]; exact mul_pos hvr hc, ?_⟩
      intro x y hx hy
      rw [hnd, hnd]
      apply mul_le_mul_of_nonneg_right _ hc.le
      have := hsep _ ⟨x, y, hx, hy, rfl⟩
      simp only [Inner.dot, V2.dot, V2.add_x, V2.add_y, V2.sub_x, V2.sub_y, V2.mul_x, V2.mul_y] at this ⊢
      linarith

/-! ## Three dimensions -/

theorem convex_tet3 {S : V3 ℝ → Prop} (hS : Convex3 S) {a b c d : V3 ℝ} (ha : S a) (hb : S b) (hc : S c) (hd : S d) {x y z w : ℝ} (hx : 0 ≤ x) (hy : 0 ≤ y) (hz : 0 ≤ z)
    (hw : 0 ≤ w) (h1 : x + y + z + w = 1) : S (a * x + b * y + c * z + d * w) := by
  by_cases h : w = 1
  · have : x = 0 ∧ y = 0 ∧ z = 0 := ⟨by linarith, by linarith, by linarith⟩
    obtain ⟨rfl, rfl, rfl⟩ := this
    subst h
    convert hd using 1
    ext <;> simp
  · have hpos : 0 < 1 - w := by
      have : w ≤ 1 := by linarith
      have := lt_of_le_of_ne this h
      linarith
    have ht : S (a * (x / (1 - w)) + b * (y / (1 - w)) + c * (z / (1 - w))) := by
      refine convex_tri3 hS ha hb hc ⟨x / (1 - w), y / (1 - w), z / (1 - w), by positivity, by positivity, by positivity, ?_, rfl⟩
      field_simp
      linarith
    have := hS _ _ w ht hd hw (by linarith)
    convert this using 1
    ext <;> simp <;> field_simp <;> ring

/-- The simplex and the point `v` kept with it in 3D; `N` is the Minkowski difference seen from the ray origin. On a face, `v` is the foot of the perpendicular from the origin. -/
structure Simp3 (N : V3 ℝ → Prop) (s : List (SP (V3 ℝ))) (v : V3 ℝ) : Prop where
  mem : N v
  points : v ≠ 0 → s.length ≤ 3 ∧ (∀ p ∈ s, N p.v) ∧ ∀ t0 t1 t2, s = [t0, t1, t2] → t2.v.dot (nrm t2.v t1.v t0.v) ≤ 0 ∧
    v = nrm t2.v t1.v t0.v * (t2.v.dot (nrm t2.v t1.v t0.v) / (nrm t2.v t1.v t0.v).dot (nrm t2.v t1.v t0.v))

theorem simp3_add {N : V3 ℝ → Prop} (hN : Convex3 N) {s s' : List (SP (V3 ℝ))} {v c : V3 ℝ} {p : SP (V3 ℝ)} (hi : Simp3 N s v) (hv : (0:ℝ) < Inner.dot v v) (hp : N p.v)
    (hc : closest3 (s ++ [p]) = .ok (some c, s')) : Simp3 N s' c := by
  have hv0 := ne_of_dot3 hv
  obtain ⟨hlen, hpts, hface⟩ := hi.points hv0
  have hall : ∀ q ∈ s ++ [p], N q.v := by
    intro q hq
    rcases List.mem_append.mp hq with hq | hq
    · exact hpts q hq
    · rw [List.mem_singleton.mp hq]; exact hp
  rcases closest3_full (by rw [List.length_append, List.length_singleton]; omega) hc with ⟨ht, rfl⟩ | ⟨h1, h2, ⟨a, ha, b, hb, d, hd, e⟩, h4⟩
  · refine ⟨?_, fun h => absurd rfl h⟩
    match s, hlen, hpts, hface, ht with
    | [], _, _, _, ht => simp [reduce3] at ht
    | [_], _, _, _, ht => simp [reduce3] at ht
    | [_, _], _, _, _, ht => simp [reduce3] at ht
    | [s0, s1, s2], _, hpts, hface, ht =>
      obtain ⟨k1, k2⟩ := hface _ _ _ rfl
      have hlt : s2.v.dot (nrm s2.v s1.v s0.v) < 0 := by
        rcases k1.lt_or_eq with h | h
        · exact h
        · exfalso
          apply hv0
          rw [k2, h]
          ext <;> simp
      obtain ⟨x, y, z, w, hx, hy, hz, hw, h1, e⟩ := reduce3_inside hlt ht
      rw [← e]
      exact convex_tet3 hN (hpts s0 (by simp)) (hpts s1 (by simp)) (hpts s2 (by simp)) hp hx hy hz hw h1
    | _ :: _ :: _ :: _ :: _, h, _, _, _ => simp at h; omega
  · exact ⟨convex_tri3 hN (hall _ (h2 a ha)) (hall _ (h2 b hb)) (hall _ (h2 d hd)) e, fun _ => ⟨h1, fun q hq => hall q (h2 q hq), fun t0 t1 t2 he => (h4 t0 t1 t2 he).2⟩⟩

/-- C66, 3D, for all convex shapes with correct support functions (when the computation answers; it can panic and it can run out of iterations, see `c85_false`). -/
theorem c66_3d (L R : V3 ℝ → Prop) (hL : Convex3 L) (hR : Convex3 R) {left right : V3 ℝ → Res (V3 ℝ)} (hl : SupportFn3 left L) (hr : SupportFn3 right R)
    (hl0 : ∀ a, left 0 = .ok a → L a) (hr0 : ∀ a, right 0 = .ok a → R a)
    {tolerance : ℝ} (htol : 0 ≤ tolerance) (fuel : Nat) (lStart lEnd rStart rEnd : V3 ℝ) (place : ℝ → V3 ℝ → V3 ℝ) {r : Option (Contact (V3 ℝ) ℝ)}
    (h : gjkToi closest3 V3.normalize tolerance fuel left right lStart lEnd rStart rEnd place = .ok r) :
    (r = none → ∀ t, 0 ≤ t → t ≤ 1 → ¬ MeetAt3 L R (lEnd - lStart) (rEnd - rStart) t) ∧
    ∀ c, r = some c → 0 ≤ c.toi ∧ c.toi ≤ 1 ∧ (∀ t, 0 ≤ t → t < c.toi → ¬ MeetAt3 L R (lEnd - lStart) (rEnd - rStart) t) ∧
      c.depth * c.depth ≤ tolerance ∧
      (∃ x y, L x ∧ R y ∧ ((x + (lEnd - lStart) * c.toi) - (y + (rEnd - rStart) * c.toi)).norm = c.depth) ∧
      (0 < c.toi → c.normal.norm = 1 ∧ 0 < ((rEnd - rStart) - (lEnd - lStart)).dot c.normal ∧
        ∀ x y, L x → R y → (y + (rEnd - rStart) * c.toi).dot c.normal ≤ (x + (lEnd - lStart) * c.toi).dot c.normal) := by
  have hM := mink3_convex hL hR
  have hs : ∀ v p, (0:ℝ) < Inner.dot v v → SP.fromMinkowski left right (-v) = .ok p →
      FromShapes3 L R p ∧ ∀ m, Mink3 L R m → Inner.dot v p.v ≤ Inner.dot v m := by
    intro v p hv hp
    obtain ⟨a, ha, h1, h2⟩ := minkowski3 hl hr (neg_ne3 (ne_of_dot3 hv))
    rw [hp] at ha
    cases ha
    refine ⟨h1, fun m hm => ?_⟩
    have := h2 m hm
    simp only [Inner.dot, V3.dot, V3.neg_x, V3.neg_y, V3.neg_z] at this ⊢
    linarith
  set u := lEnd - lStart with hu
  set w := rEnd - rStart with hw
  unfold gjkToi at h
  rw [← hu, ← hw] at h
  dsimp only at h
  clear_value u w
  rw [Res.bind_eq_ok] at h
  obtain ⟨p, hp, h⟩ := h
  rw [Res.bind_eq_ok] at h
  obtain ⟨o, ho, h⟩ := h
  have hdr : ∀ (v : V3 ℝ) (t : ℝ), Inner.dot v ((w - u) * t) = t * Inner.dot v (w - u) := by
    intro v t; simp only [Inner.dot, V3.dot, V3.mul_x, V3.mul_y, V3.mul_z]; ring
  have hshift : ∀ o : V3 ℝ, Convex3 (fun m => Mink3 L R (m + o)) := by
    intro o a b t ha hb t0 t1
    have := hM _ _ t ha hb t0 t1
    convert this using 1
    ext <;> simp <;> ring
  have hsub : ∀ (p : SP (V3 ℝ)) (o : V3 ℝ), FromShapes3 L R p → Mink3 L R ((p.subPoint o).v + o) := by
    intro p o hp
    have e : (p.subPoint o).v + o = p.v := by ext <;> simp [SP.subPoint]
    rw [e]; exact ⟨_, _, hp.1, hp.2.1, hp.2.2⟩
  have key := toiLoop_spec (closest := closest3) htol (left := left) (right := right) (ray := w - u) (M := Mink3 L R)
    (fun v p hv hp => (hs v p hv hp).2) hdr
    (Inv := fun o s v => Simp3 (fun m => Mink3 L R (m + o)) s v)
    (by
      intro v p o c s' hv hp hc
      cases hc
      have := hsub p o (hs v p hv hp).1
      refine ⟨this, fun _ => ⟨by simp, ?_, fun t0 t1 t2 he => by simp at he⟩⟩
      intro q hq
      simp only [List.mem_singleton] at hq
      rw [hq]; exact this)
    (by
      intro v p o s c s' hi hv hp hle hc
      exact simp3_add (hshift o) hi hv (hsub p o (hs v p hv hp).1) hc)
    fuel [] ⟨0, 0, 0, p.v⟩ o
    ⟨by ext <;> simp, le_refl _, zero_le_one, fun t ht _ _ => ht, fun h => absurd h (lt_irrefl _)⟩
    (by
      have h1 : FromShapes3 L R p := by
        by_cases h0 : w - u = 0
        · have e : -(w - u) = 0 := by rw [h0]; ext <;> simp
          rw [e] at hp
          unfold SP.fromMinkowski at hp
          rw [Res.bind_eq_ok] at hp
          obtain ⟨a, ha, hp⟩ := hp
          rw [Res.bind_eq_ok] at hp
          obtain ⟨b, hb, hp⟩ := hp
          have e' : -(0 : V3 ℝ) = 0 := by ext <;> simp
          rw [e'] at hb
          cases hp
          exact ⟨hl0 a ha, hr0 b hb, rfl⟩
        · obtain ⟨a, ha, h1, h2⟩ := minkowski3 hl hr (neg_ne3 h0)
          rw [hp] at ha
          cases ha
          exact h1
      have e : p.v + 0 = p.v := by ext <;> simp
      refine ⟨?_, fun _ => ⟨by simp, by simp, fun t0 t1 t2 he => by simp at he⟩⟩
      dsimp only
      rw [e]; exact ⟨_, _, h1.1, h1.2.1, h1.2.2⟩) ho
  obtain ⟨k1, k2⟩ := key
  cases o with
  | none =>
    cases h
    refine ⟨fun _ t t0 t1 hm => k1 rfl t t0 t1 (meetAt3_iff.mp hm), nofun⟩
  | some st =>
    cases h
    refine ⟨nofun, ?_⟩
    rintro _ ⟨⟩
    obtain ⟨hst, hvt, s', hi⟩ := k2 st rfl
    dsimp only [Contact.newWithPoint]
    refine ⟨hst.nonneg, hst.le_one, ?_, ?_, ?_, ?_⟩
    · intro t t0 t1 hm
      exact absurd (hst.early t t0 (by linarith [hst.le_one]) (meetAt3_iff.mp hm)) (not_le.mpr t1)
    · have : mag st.v * mag st.v = st.v.dot st.v := V3.norm_sq st.v
      rw [this]; exact hvt
    · obtain ⟨x, y, hx, hy, e⟩ := hi.mem
      rw [hst.origin] at e
      refine ⟨x, y, hx, hy, ?_⟩
      have e' : (x + u * st.lambda) - (y + w * st.lambda) = st.v := by
        have h1 := congrArg V3.x e
        have h2 := congrArg V3.y e
        have h3 := congrArg V3.z e
        simp at h1 h2 h3
        ext <;> simp <;> linarith
      rw [e']
      rfl
    · intro h0
      obtain ⟨v, hn, hv, hvr, hsep⟩ := hst.normal h0
      rw [hn, toi_normal3]
      have hv0 := ne_of_dot3 hv
      have hnp := V3.norm_pos hv0
      have hc : 0 < 1 / v.norm := by positivity
      have hnd : ∀ z : V3 ℝ, z.dot v.normalize = (Inner.dot v z : ℝ) * (1 / v.norm) := by
        intro z; simp only [V3.normalize, Inner.dot, V3.dot, V3.mul_x, V3.mul_y, V3.mul_z]; ring
      refine ⟨V3.norm_normalize hv0, by rw [hnd]; exact mul_pos hvr hc, ?_⟩
      intro x y hx hy
      rw [hnd, hnd]
      apply mul_le_mul_of_nonneg_right _ hc.le
      have := hsep _ ⟨x, y, hx, hy, rfl⟩
      simp only [Inner.dot, V3.dot, V3.add_x, V3.add_y, V3.add_z, V3.sub_x, V3.sub_y, V3.sub_z, V3.mul_x, V3.mul_y, V3.mul_z] at this ⊢
      linarith

/-! ## No panic in 2D -/

/-- In 2D the computation neither panics nor meets a NaN (before the final normal), for shapes in relative motion. -/
theorem c66_no_panic (L R : V2 ℝ → Prop) (hL : Convex2 L) (hR : Convex2 R) {left right : V2 ℝ → Res (V2 ℝ)} (hl : SupportFn2 left L) (hr : SupportFn2 right R)
    {tolerance : ℝ} (htol : 0 ≤ tolerance) (fuel : Nat) (lStart lEnd rStart rEnd : V2 ℝ) (place : ℝ → V2 ℝ → V2 ℝ) (hne : rEnd - rStart ≠ lEnd - lStart) :
    gjkToi closest2 V2.normalize tolerance fuel left right lStart lEnd rStart rEnd place ≠ .panic := by
  have hM := mink2_convex hL hR
  have hs : ∀ v p, (0:ℝ) < Inner.dot v v → SP.fromMinkowski left right (-v) = .ok p →
      FromShapes2 L R p ∧ ∀ m, Mink2 L R m → Inner.dot v p.v ≤ Inner.dot v m := by
    intro v p hv hp
    obtain ⟨a, ha, h1, h2⟩ := minkowski2 hl hr (neg_ne2 (ne_of_dot2 hv))
    rw [hp] at ha
    cases ha
    refine ⟨h1, fun m hm => ?_⟩
    have := h2 m hm
    simp only [Inner.dot, V2.dot, V2.neg_x, V2.neg_y] at this ⊢
    linarith
  set u := lEnd - lStart with hu
  set w := rEnd - rStart with hw
  unfold gjkToi
  rw [← hu, ← hw]
  dsimp only
  clear_value u w
  have hray : -(w - u) ≠ 0 := by
    apply neg_ne2
    intro h0; apply hne
    have hx := congrArg V2.x h0
    have hy := congrArg V2.y h0
    simp at hx hy
    ext <;> linarith
  obtain ⟨p, hp, h1, h2⟩ := minkowski2 hl hr hray
  rw [hp, Res.bind_ok]
  have hshift : ∀ o : V2 ℝ, Convex2 (fun m => Mink2 L R (m + o)) := by
    intro o a b t ha hb t0 t1
    have := hM _ _ t ha hb t0 t1
    convert this using 1
    ext <;> simp <;> ring
  have hsub : ∀ (p : SP (V2 ℝ)) (o : V2 ℝ), FromShapes2 L R p → Mink2 L R ((p.subPoint o).v + o) := by
    intro p o hp
    have e : (p.subPoint o).v + o = p.v := by ext <;> simp [SP.subPoint]
    rw [e]; exact hp.mink
  have key := toiLoop_total (closest := closest2) htol (left := left) (right := right) (ray := w - u)
    (fun v hv => by
      obtain ⟨a, ha, _⟩ := minkowski2 hl hr (neg_ne2 (ne_of_dot2 hv))
      exact ⟨a, ha⟩)
    (by intro v t; simp only [Inner.dot, V2.dot, V2.mul_x, V2.mul_y]; ring)
    (Inv := fun o s v => Simp2 (fun m => Mink2 L R (m + o)) s v)
    (by
      intro v p o hv hp
      exact ⟨_, _, closest2_one _, .one (hsub p o (hs v p hv hp).1)⟩)
    (by
      intro v p o s hi hv hp hle
      obtain ⟨h1, h2⟩ := hs v p hv hp
      exact simp2_add (p := p.subPoint o) (hshift o) hi hv (hsub p o h1)
        (by
          intro m hm
          have := h2 _ hm
          simp only [Inner.dot, V2.dot, SP.subPoint, V2.add_x, V2.add_y, V2.sub_x, V2.sub_y] at this ⊢
          linarith)
        (by
          simp only [Inner.dot, V2.dot, SP.subPoint, V2.sub_x, V2.sub_y] at hle ⊢
          linarith))
    fuel [] ⟨0, 0, 0, p.v⟩ (by ext <;> simp)
    (by
      refine .empty ?_
      have e : p.v + 0 = p.v := by ext <;> simp
      dsimp only
      rw [e]; exact h1.mink)
  cases hq : toiLoop closest2 tolerance left right (w - u) fuel [] ⟨0, 0, 0, p.v⟩ with
  | panic => exact absurd hq key
  | timeout => simp
  | ok o => cases o <;> simp

/-! ## The primitives of the library -/

/-- The transform of a body at time `t` of a linear motion from the position of `D` to that of `D'`, without rotation. -/
def Dec2.glide (D D' : Dec2 ℝ) (t : ℝ) : Dec2 ℝ := ⟨D.scale, D.rot, D.disp + (D'.disp - D.disp) * t⟩
/-- The transform of a body at time `t` of a linear motion from the position of `D` to that of `D'`, without rotation. -/
def Dec3.glide (D D' : Dec3 ℝ) (t : ℝ) : Dec3 ℝ := ⟨D.scale, D.rot, D.disp + (D'.disp - D.disp) * t⟩

/-- `TranslationInterpolate for Decomposed`, `src/traits.rs:232-245` (rotation and scale of the end) -/
def Dec2.translationInterpolate (D D' : Dec2 ℝ) (t : ℝ) : Dec2 ℝ := ⟨D'.scale, D'.rot, D.disp + (D'.disp - D.disp) * t⟩
/-- `TranslationInterpolate for Decomposed`, `src/traits.rs:232-245` (rotation and scale of the end) -/
def Dec3.translationInterpolate (D D' : Dec3 ℝ) (t : ℝ) : Dec3 ℝ := ⟨D'.scale, D'.rot, D.disp + (D'.disp - D.disp) * t⟩

theorem tr_zero2 (D : Dec2 ℝ) : D.tr.point 0 = D.disp := by
  simp only [Dec2.tr]; ext <;> simp [M2.apply]
theorem tr_zero3 (D : Dec3 ℝ) : D.tr.point 0 = D.disp := by
  simp only [Dec3.tr]; ext <;> simp [M3.apply]

theorem glide_image2 (D D' : Dec2 ℝ) (t : ℝ) (S : V2 ℝ → Prop) (z : V2 ℝ) :
    Image (Dec2.glide D D' t).tr S z ↔ ∃ x, Image D.tr S x ∧ z = x + (D'.disp - D.disp) * t := by
  constructor
  · rintro ⟨p, hp, rfl⟩
    exact ⟨_, ⟨p, hp, rfl⟩, by simp only [Dec2.tr, Dec2.glide]; ext <;> simp <;> ring⟩
  · rintro ⟨_, ⟨p, hp, rfl⟩, rfl⟩
    exact ⟨p, hp, by simp only [Dec2.tr, Dec2.glide]; ext <;> simp <;> ring⟩
theorem glide_image3 (D D' : Dec3 ℝ) (t : ℝ) (S : V3 ℝ → Prop) (z : V3 ℝ) :
    Image (Dec3.glide D D' t).tr S z ↔ ∃ x, Image D.tr S x ∧ z = x + (D'.disp - D.disp) * t := by
  constructor
  · rintro ⟨p, hp, rfl⟩
    exact ⟨_, ⟨p, hp, rfl⟩, by simp only [Dec3.tr, Dec3.glide]; ext <;> simp <;> ring⟩
  · rintro ⟨_, ⟨p, hp, rfl⟩, rfl⟩
    exact ⟨p, hp, by simp only [Dec3.tr, Dec3.glide]; ext <;> simp <;> ring⟩

/-- C66 for any two 2D primitives of the library gliding from `D` to `D'` and from `E` to `E'`. -/
theorem c66_prim2 (s q : Prim2) (hs : s.Ok) (hq : q.Ok) (D D' E E' : Dec2 ℝ) (hD : D.rot.Orthogonal) (hE : E.rot.Orthogonal) (hDs : D.scale ≠ 0)
    (hEs : E.scale ≠ 0) {tolerance : ℝ} (htol : 0 ≤ tolerance) (fuel : Nat) {r : Option (Contact (V2 ℝ) ℝ)}
    (h : gjkToi closest2 V2.normalize tolerance fuel (s.supportPoint D.tr) (q.supportPoint E.tr) (D.tr.point 0) (D'.tr.point 0) (E.tr.point 0) (E'.tr.point 0)
      (fun t => (Dec2.translationInterpolate E E' t).tr.point) = .ok r) :
    (r = none → ∀ t, 0 ≤ t → t ≤ 1 → ¬ ∃ z, Image (Dec2.glide D D' t).tr s.Points z ∧ Image (Dec2.glide E E' t).tr q.Points z) ∧
    ∀ c, r = some c → 0 ≤ c.toi ∧ c.toi ≤ 1 ∧
      (∀ t, 0 ≤ t → t < c.toi → ¬ ∃ z, Image (Dec2.glide D D' t).tr s.Points z ∧ Image (Dec2.glide E E' t).tr q.Points z) ∧
      c.depth * c.depth ≤ tolerance ∧
      (∃ x y, Image (Dec2.glide D D' c.toi).tr s.Points x ∧ Image (Dec2.glide E E' c.toi).tr q.Points y ∧ (x - y).norm = c.depth) ∧
      (0 < c.toi → c.normal.norm = 1 ∧ 0 < ((E'.disp - E.disp) - (D'.disp - D.disp)).dot c.normal ∧
        ∀ x y, Image (Dec2.glide D D' c.toi).tr s.Points x → Image (Dec2.glide E E' c.toi).tr q.Points y → y.dot c.normal ≤ x.dot c.normal) := by
  simp only [tr_zero2] at h
  have key := c66_2d _ _ (image_convex2 D (prim2_convex s)) (image_convex2 E (prim2_convex q)) (prim2_support s hs D hD hDs) (prim2_support q hq E hE hEs) (fun _ h => prim2_zero s hs D hDs h) (fun _ h => prim2_zero q hq E hEs h) htol _ _ _ _ _ _ h
  have hm : ∀ t, (∃ z, Image (Dec2.glide D D' t).tr s.Points z ∧ Image (Dec2.glide E E' t).tr q.Points z) →
      MeetAt2 (Image D.tr s.Points) (Image E.tr q.Points) (D'.disp - D.disp) (E'.disp - E.disp) t := by
    rintro t ⟨z, h1, h2⟩
    obtain ⟨x, hx, e1⟩ := (glide_image2 _ _ _ _ _).mp h1
    obtain ⟨y, hy, e2⟩ := (glide_image2 _ _ _ _ _).mp h2
    exact ⟨x, y, hx, hy, e1.symm.trans e2⟩
  refine ⟨fun hr t t0 t1 hz => key.1 hr t t0 t1 (hm t hz), fun c hc => ?_⟩
  obtain ⟨k1, k2, k3, k4, k5, k6⟩ := key.2 c hc
  refine ⟨k1, k2, fun t t0 t1 hz => k3 t t0 t1 (hm t hz), k4, ?_, fun h0 => ?_⟩
  · obtain ⟨x, y, hx, hy, e⟩ := k5
    exact ⟨_, _, (glide_image2 _ _ _ _ _).mpr ⟨x, hx, rfl⟩, (glide_image2 _ _ _ _ _).mpr ⟨y, hy, rfl⟩, e⟩
  · obtain ⟨g1, g2, g3⟩ := k6 h0
    refine ⟨g1, g2, fun x y hx hy => ?_⟩
    obtain ⟨x', hx', rfl⟩ := (glide_image2 _ _ _ _ _).mp hx
    obtain ⟨y', hy', rfl⟩ := (glide_image2 _ _ _ _ _).mp hy
    exact g3 x' y' hx' hy'

/-- C66 for any two 3D primitives of the library gliding from `D` to `D'` and from `E` to `E'`. -/
theorem c66_prim3 (s q : Prim3) (hs : s.Ok) (hq : q.Ok) (nz nz' : V3 ℝ → Bool) (D D' E E' : Dec3 ℝ) (hD : D.rot.Orthogonal) (hE : E.rot.Orthogonal) (hDs : D.scale ≠ 0)
    (hEs : E.scale ≠ 0) {tolerance : ℝ} (htol : 0 ≤ tolerance) (fuel : Nat) {r : Option (Contact (V3 ℝ) ℝ)}
    (h : gjkToi closest3 V3.normalize tolerance fuel (s.supportPoint nz D.tr) (q.supportPoint nz' E.tr) (D.tr.point 0) (D'.tr.point 0) (E.tr.point 0) (E'.tr.point 0)
      (fun t => (Dec3.translationInterpolate E E' t).tr.point) = .ok r) :
    (r = none → ∀ t, 0 ≤ t → t ≤ 1 → ¬ ∃ z, Image (Dec3.glide D D' t).tr s.Points z ∧ Image (Dec3.glide E E' t).tr q.Points z) ∧
    ∀ c, r = some c → 0 ≤ c.toi ∧ c.toi ≤ 1 ∧
      (∀ t, 0 ≤ t → t < c.toi → ¬ ∃ z, Image (Dec3.glide D D' t).tr s.Points z ∧ Image (Dec3.glide E E' t).tr q.Points z) ∧
      c.depth * c.depth ≤ tolerance ∧
      (∃ x y, Image (Dec3.glide D D' c.toi).tr s.Points x ∧ Image (Dec3.glide E E' c.toi).tr q.Points y ∧ (x - y).norm = c.depth) ∧
      (0 < c.toi → c.normal.norm = 1 ∧ 0 < ((E'.disp - E.disp) - (D'.disp - D.disp)).dot c.normal ∧
        ∀ x y, Image (Dec3.glide D D' c.toi).tr s.Points x → Image (Dec3.glide E E' c.toi).tr q.Points y → y.dot c.normal ≤ x.dot c.normal) := by
  simp only [tr_zero3] at h
  have key := c66_3d _ _ (image_convex3 D (prim3_convex s)) (image_convex3 E (prim3_convex q)) (prim3_support s hs nz D hD hDs) (prim3_support q hq nz' E hE hEs) (fun _ h => prim3_zero s hs nz D hDs h) (fun _ h => prim3_zero q hq nz' E hEs h) htol _ _ _ _ _ _ h
  have hm : ∀ t, (∃ z, Image (Dec3.glide D D' t).tr s.Points z ∧ Image (Dec3.glide E E' t).tr q.Points z) →
      MeetAt3 (Image D.tr s.Points) (Image E.tr q.Points) (D'.disp - D.disp) (E'.disp - E.disp) t := by
    rintro t ⟨z, h1, h2⟩
    obtain ⟨x, hx, e1⟩ := (glide_image3 _ _ _ _ _).mp h1
    obtain ⟨y, hy, e2⟩ := (glide_image3 _ _ _ _ _).mp h2
    exact ⟨x, y, hx, hy, e1.symm.trans e2⟩
  refine ⟨fun hr t t0 t1 hz => key.1 hr t t0 t1 (hm t hz), fun c hc => ?_⟩
  obtain ⟨k1, k2, k3, k4, k5, k6⟩ := key.2 c hc
  refine ⟨k1, k2, fun t t0 t1 hz => k3 t t0 t1 (hm t hz), k4, ?_, fun h0 => ?_⟩
  · obtain ⟨x, y, hx, hy, e⟩ := k5
    exact ⟨_, _, (glide_image3 _ _ _ _ _).mpr ⟨x, hx, rfl⟩, (glide_image3 _ _ _ _ _).mpr ⟨y, hy, rfl⟩, e⟩
  · obtain ⟨g1, g2, g3⟩ := k6 h0
    refine ⟨g1, g2, fun x y hx hy => ?_⟩
    obtain ⟨x', hx', rfl⟩ := (glide_image3 _ _ _ _ _).mp hx
    obtain ⟨y', hy', rfl⟩ := (glide_image3 _ _ _ _ _).mp hy
    exact g3 x' y' hx' hy'

/-! ## Examples -/

/-- A particle at the origin and one flying past it from `(10, 0)` to `(-10, 0)`. -/
theorem toi_particles (tolerance : ℝ) (ht : 0 ≤ tolerance) (ht' : tolerance < 100) (fuel : Nat) :
    gjkToi closest2 V2.normalize tolerance (fuel + 1) (Prim2.particle.supportPoint (at2 0).tr) (Prim2.particle.supportPoint (at2 ⟨10, 0⟩).tr)
      ((at2 0).tr.point 0) ((at2 0).tr.point 0) ((at2 ⟨10, 0⟩).tr.point 0) ((at2 ⟨-10, 0⟩).tr.point 0)
      (fun t => (Dec2.translationInterpolate (at2 ⟨10, 0⟩) (at2 ⟨-10, 0⟩) t).tr.point) =
    .ok (some ⟨.fullResolution, ⟨-1, 0⟩, 0, ⟨-10, 0⟩, 1 / 2⟩) := by
  have hp : ∀ (r d : V2 ℝ), Prim2.particle.supportPoint (at2 r).tr d = .ok r := by
    intro r d
    simp only [Prim2.supportPoint, at2_point]
    congr 1
    ext <;> simp
  unfold gjkToi
  simp only [SP.fromMinkowski, hp, Res.bind_ok, Res.pure_eq, tr_zero2]
  unfold toiLoop
  have e1 : (Inner.dot (0 - ⟨10, 0⟩ : V2 ℝ) (0 - ⟨10, 0⟩) : ℝ) = 100 := by simp [Inner.dot, V2.dot]; norm_num
  have e2 : (Inner.dot (0 - ⟨10, 0⟩ : V2 ℝ) ((at2 ⟨-10, 0⟩).disp - (at2 ⟨10, 0⟩).disp - ((at2 0).disp - (at2 0).disp)) : ℝ) = 200 := by
    simp [Inner.dot, V2.dot, at2]; norm_num
  dsimp only
  rw [if_pos (by rw [e1]; exact ht')]
  simp only [SP.fromMinkowski, hp, Res.bind_ok, Res.pure_eq, e1, e2]
  rw [if_pos (by norm_num), if_pos (by norm_num), if_neg (by norm_num), closest2_one]
  simp only [Res.bind_ok, Res.ofOption_some]
  unfold toiLoop
  have e3 : ((⟨0 - ⟨10, 0⟩, 0, ⟨10, 0⟩⟩ : SP (V2 ℝ)).subPoint (((at2 ⟨-10, 0⟩).disp - (at2 ⟨10, 0⟩).disp - ((at2 0).disp - (at2 0).disp)) * ((100 : ℝ) / 200))).v = 0 := by
    ext <;> simp [SP.subPoint, at2]
    norm_num
  dsimp only
  rw [e3, if_neg (by simp [Inner.dot, V2.dot]; exact ht)]
  simp only [Res.bind_ok, Contact.newWithPoint]
  congr 2
  have e4 : V2.norm (-(0 - ⟨10, 0⟩ : V2 ℝ)) = 10 := by
    unfold V2.norm
    rw [show V2.dot (-(0 - ⟨10, 0⟩ : V2 ℝ)) (-(0 - ⟨10, 0⟩ : V2 ℝ)) = 10 * 10 by simp [V2.dot]]
    exact Real.sqrt_mul_self (by norm_num)
  congr 1
  · unfold V2.normalize
    rw [e4]
    ext <;> simp
  · simp [mag, Inner.dot, V2.dot]
  · simp only [Dec2.translationInterpolate, Dec2.tr, at2, M2.apply]
    ext <;> simp <;> norm_num
  · norm_num

/-- The hypotheses of `c66_2d` and `c66_prim2` are met by two moving particles. -/
example : ∃ c, gjkToi closest2 V2.normalize 1 1 (Prim2.particle.supportPoint (at2 0).tr) (Prim2.particle.supportPoint (at2 ⟨10, 0⟩).tr)
      ((at2 0).tr.point 0) ((at2 0).tr.point 0) ((at2 ⟨10, 0⟩).tr.point 0) ((at2 ⟨-10, 0⟩).tr.point 0)
      (fun t => (Dec2.translationInterpolate (at2 ⟨10, 0⟩) (at2 ⟨-10, 0⟩) t).tr.point) = .ok (some c) ∧ c.toi = 1 / 2 ∧ Prim2.particle.Ok :=
  ⟨_, toi_particles 1 (by norm_num) (by norm_num) 0, rfl, trivial⟩

/-- C69 is false: the contact point of a time-of-impact query need not be a point of either shape at that time, nor near one. The particle at the origin is hit by
the other one at time 1/2, and the contact point reported is `(-10, 0)`. -/
theorem c69_toi_point_false : ∃ c : Contact (V2 ℝ) ℝ,
    gjkToi closest2 V2.normalize 1 1 (Prim2.particle.supportPoint (at2 0).tr) (Prim2.particle.supportPoint (at2 ⟨10, 0⟩).tr)
      ((at2 0).tr.point 0) ((at2 0).tr.point 0) ((at2 ⟨10, 0⟩).tr.point 0) ((at2 ⟨-10, 0⟩).tr.point 0)
      (fun t => (Dec2.translationInterpolate (at2 ⟨10, 0⟩) (at2 ⟨-10, 0⟩) t).tr.point) = .ok (some c) ∧
    (∀ x, Image (Dec2.glide (at2 0) (at2 0) c.toi).tr Prim2.particle.Points x → (x - c.point).norm = 10) ∧
    (∀ x, Image (Dec2.glide (at2 ⟨10, 0⟩) (at2 ⟨-10, 0⟩) c.toi).tr Prim2.particle.Points x → (x - c.point).norm = 10) := by
  have h10 : ∀ a : V2 ℝ, a = ⟨10, 0⟩ → a.norm = 10 := by
    rintro _ rfl
    unfold V2.norm
    rw [show V2.dot (⟨10, 0⟩ : V2 ℝ) ⟨10, 0⟩ = 10 * 10 by simp [V2.dot]]
    exact Real.sqrt_mul_self (by norm_num)
  refine ⟨_, toi_particles 1 (by norm_num) (by norm_num) 0, ?_, ?_⟩
  · rintro _ ⟨p, hp, rfl⟩
    have hp0 : p = 0 := hp
    rw [hp0, tr_zero2]
    apply h10
    dsimp only [Dec2.glide, at2]
    ext <;> simp
  · rintro _ ⟨p, hp, rfl⟩
    have hp0 : p = 0 := hp
    rw [hp0, tr_zero2]
    apply h10
    dsimp only [Dec2.glide, at2]
    ext <;> simp
    norm_num

/-- The contact point that is reported, in any dimension: the placement of the right shape at the time of impact, applied to the relative movement up to then. -/
theorem toi_point {V : Type} [Sub V] [Neg V] [Zero V] [Add V] [HMul V ℝ V] [Inner V ℝ] (h0 : ∀ v : V, v * (0:ℝ) = 0)
    (hr : ∀ (v w : V) (t : ℝ), Inner.dot v (w * t) = t * (Inner.dot v w : ℝ))
    {closest : List (SP V) → Res (Option V × List (SP V))} {normalize : V → V} {tolerance : ℝ} (htol : 0 ≤ tolerance) {fuel : Nat} {left right : V → Res V}
    {lStart lEnd rStart rEnd : V} {place : ℝ → V → V} {c : Contact V ℝ}
    (h : gjkToi closest normalize tolerance fuel left right lStart lEnd rStart rEnd place = .ok (some c)) :
    c.point = place c.toi (((rEnd - rStart) - (lEnd - lStart)) * c.toi) := by
  unfold gjkToi at h
  dsimp only at h
  rw [Res.bind_eq_ok] at h
  obtain ⟨p, hp, h⟩ := h
  rw [Res.bind_eq_ok] at h
  obtain ⟨o, ho, h⟩ := h
  have key := toiLoop_spec htol (M := fun _ => False) (fun _ _ _ _ _ hm => hm.elim) (fun v t => hr v _ t) (Inv := fun _ _ _ => True)
    (fun _ _ _ _ _ _ _ _ => trivial) (fun _ _ _ _ _ _ _ _ _ _ _ => trivial) fuel [] ⟨0, 0, 0, p.v⟩ o
    ⟨(h0 _).symm, le_refl _, zero_le_one, fun _ _ _ hm => hm.elim, fun h => absurd h (lt_irrefl _)⟩ trivial ho
  cases o with
  | none => cases h
  | some st =>
    have e := (key.2 st rfl).1.origin
    cases h
    dsimp only [Contact.newWithPoint]
    rw [e]

/-- **C69, 2D, partial:** the contact point reported for two moving shapes is the relative movement up to the time of impact, turned and scaled as the right shape
is at its end, and moved to where the right shape is then; so for shapes in contact at the start it is the position of the right shape. (Missing: that
it is a point of the shapes, which is false in general, see `c69_toi_point_false`.) -/
theorem c69_point2_partial (s q : Prim2) (D D' E E' : Dec2 ℝ) {tolerance : ℝ} (htol : 0 ≤ tolerance) (fuel : Nat) {c : Contact (V2 ℝ) ℝ}
    (h : gjkToi closest2 V2.normalize tolerance fuel (s.supportPoint D.tr) (q.supportPoint E.tr) (D.tr.point 0) (D'.tr.point 0) (E.tr.point 0) (E'.tr.point 0)
      (fun t => (Dec2.translationInterpolate E E' t).tr.point) = .ok (some c)) :
    c.point = E'.rot.apply ((((E'.disp - E.disp) - (D'.disp - D.disp)) * c.toi) * E'.scale) + (E.disp * (1 - c.toi) + E'.disp * c.toi) ∧
    (c.toi = 0 → c.point = E.disp) := by
  simp only [tr_zero2] at h
  have key := toi_point (fun v => by ext <;> simp) (fun v w t => by simp only [Inner.dot, V2.dot, V2.mul_x, V2.mul_y]; ring) htol h
  have e : c.point = E'.rot.apply ((((E'.disp - E.disp) - (D'.disp - D.disp)) * c.toi) * E'.scale) + (E.disp * (1 - c.toi) + E'.disp * c.toi) := by
    rw [key]
    simp only [Dec2.tr, Dec2.translationInterpolate]
    ext <;> simp <;> ring
  refine ⟨e, fun h0 => ?_⟩
  rw [e, h0]
  ext <;> simp [M2.apply]

/-- **C69, 3D, partial,** as in 2D. -/
theorem c69_point3_partial (s q : Prim3) (nz nz' : V3 ℝ → Bool) (D D' E E' : Dec3 ℝ) {tolerance : ℝ} (htol : 0 ≤ tolerance) (fuel : Nat) {c : Contact (V3 ℝ) ℝ}
    (h : gjkToi closest3 V3.normalize tolerance fuel (s.supportPoint nz D.tr) (q.supportPoint nz' E.tr) (D.tr.point 0) (D'.tr.point 0) (E.tr.point 0) (E'.tr.point 0)
      (fun t => (Dec3.translationInterpolate E E' t).tr.point) = .ok (some c)) :
    c.point = E'.rot.apply ((((E'.disp - E.disp) - (D'.disp - D.disp)) * c.toi) * E'.scale) + (E.disp * (1 - c.toi) + E'.disp * c.toi) ∧
    (c.toi = 0 → c.point = E.disp) := by
  simp only [tr_zero3] at h
  have key := toi_point (fun v => by ext <;> simp) (fun v w t => by simp only [Inner.dot, V3.dot, V3.mul_x, V3.mul_y, V3.mul_z]; ring) htol h
  have e : c.point = E'.rot.apply ((((E'.disp - E.disp) - (D'.disp - D.disp)) * c.toi) * E'.scale) + (E.disp * (1 - c.toi) + E'.disp * c.toi) := by
    rw [key]
    simp only [Dec3.tr, Dec3.translationInterpolate]
    ext <;> simp <;> ring
  refine ⟨e, fun h0 => ?_⟩
  rw [e, h0]
  ext <;> simp [M3.apply]

/-- Both theorems apply to the two particles of `c69_toi_point_false`, and give the point `(-10, 0)` reported there. -/
example : (⟨-10, 0⟩ : V2 ℝ) = (at2 ⟨-10, 0⟩).rot.apply (((((⟨-10, 0⟩ : V2 ℝ) - ⟨10, 0⟩) - (0 - 0)) * (1 / 2 : ℝ)) * (1 : ℝ)) +
    ((⟨10, 0⟩ : V2 ℝ) * (1 - 1 / 2 : ℝ) + (⟨-10, 0⟩ : V2 ℝ) * (1 / 2 : ℝ)) := by
  ext <;> simp [at2, M2.apply] <;> norm_num
end
end Verif.Minkowski
