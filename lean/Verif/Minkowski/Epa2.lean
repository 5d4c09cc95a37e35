import Verif.Minkowski.Complex
/-!
# EPA in 2D (C55)
-/
namespace Verif.Minkowski
open Verif Geom Primitive
set_option linter.unusedSectionVars false

/-! ## Edges of a closed polygon given by the list of its vertices -/
section cyc
variable {α : Type}

/-- The index after `i` in a closed list of length `n`. -/
def nextIdx (n i : Nat) : Nat := if i + 1 = n then 0 else i + 1
/-- `(a, b)` is the edge number `i`. -/
def CEdgeAt (vs : List α) (i : Nat) (a b : α) : Prop := vs[i]? = some a ∧ vs[nextIdx vs.length i]? = some b
/-- `(a, b)` is an edge. -/
def CEdge (vs : List α) (a b : α) : Prop := ∃ i, CEdgeAt vs i a b

theorem insert_get (vs : List α) (p : α) {j : Nat} (hj : j ≤ vs.length) (k : Nat) :
    (vs.take j ++ p :: vs.drop j)[k]? = if k < j then vs[k]? else if k = j then some p else vs[k - 1]? := by
  have hl : (vs.take j).length = j := by simp [hj]
  by_cases h : k < j
  · rw [List.getElem?_append_left (by omega), if_pos h, List.getElem?_take, if_pos h]
  · rw [List.getElem?_append_right (by omega), if_neg h, hl]
    by_cases h2 : k = j
    · simp [h2]
    · rw [if_neg h2]
      obtain ⟨m, hm⟩ : ∃ m, k - j = m + 1 := ⟨k - j - 1, by omega⟩
      rw [hm, List.getElem?_cons_succ, List.getElem?_drop]
      congr 1
      omega

theorem insert_edges {vs : List α} {p a b : α} {i : Nat} (h : CEdgeAt vs i a b) :
    let vs' := vs.take (nextIdx vs.length i) ++ p :: vs.drop (nextIdx vs.length i)
    (∀ k c d, CEdgeAt vs k c d → k = i ∨ CEdge vs' c d) ∧ CEdge vs' a p ∧ CEdge vs' p b ∧
      ∀ c d, CEdge vs' c d → CEdge vs c d ∨ (c = a ∧ d = p) ∨ (c = p ∧ d = b) := by
  obtain ⟨ha, hb⟩ := h
  have hi : i < vs.length := by
    by_contra hc
    rw [List.getElem?_eq_none (by omega)] at ha
    cases ha
  set n := vs.length with hn
  have hj : nextIdx n i < n := by unfold nextIdx; split <;> omega
  set j := nextIdx n i with hjd
  have hget := insert_get vs p (j := j) (by omega)
  intro vs'
  have hlen : vs'.length = n + 1 := by
    simp only [vs', List.length_append, List.length_take, List.length_cons, List.length_drop]
    omega
  have hj2 : (i + 1 = n ∧ j = 0) ∨ (i + 1 < n ∧ j = i + 1) := by
    rw [hjd]; unfold nextIdx
    split
    · left; omega
    · right; omega
  clear_value j
  have mk : ∀ k c d, vs'[k]? = some c → vs'[nextIdx (n + 1) k]? = some d → CEdge vs' c d := by
    intro k c d h1 h2
    exact ⟨k, h1, by rw [hlen]; exact h2⟩
  have get' : ∀ k, vs'[k]? = if k < j then vs[k]? else if k = j then some p else vs[k - 1]? := hget
  refine ⟨?_, ?_, ?_, ?_⟩
  · rintro k c d ⟨h1, h2⟩
    have hk : k < n := by
      by_contra hc
      rw [List.getElem?_eq_none (by omega)] at h1
      cases h1
    by_cases hki : k = i
    · exact Or.inl hki
    right
    rw [← hn] at h2
    by_cases hkj : k < j
    · apply mk k c d
      · rw [get', if_pos hkj]; exact h1
      · have e1 : nextIdx n k = k + 1 := by unfold nextIdx; rw [if_neg (by omega)]
        have e2 : nextIdx (n + 1) k = k + 1 := by unfold nextIdx; rw [if_neg (by omega)]
        rw [e1] at h2
        rw [e2, get', if_pos (by omega)]; exact h2
    · apply mk (k + 1) c d
      · rw [get', if_neg (by omega), if_neg (by omega)]; exact h1
      · by_cases hkl : k + 1 = n
        · have e1 : nextIdx n k = 0 := by unfold nextIdx; rw [if_pos hkl]
          have e2 : nextIdx (n + 1) (k + 1) = 0 := by unfold nextIdx; rw [if_pos (by omega)]
          rw [e1] at h2
          rw [e2, get', if_pos (by omega)]; exact h2
        · have e1 : nextIdx n k = k + 1 := by unfold nextIdx; rw [if_neg hkl]
          have e2 : nextIdx (n + 1) (k + 1) = k + 2 := by unfold nextIdx; rw [if_neg (by omega)]
          rw [e1] at h2
          rw [e2, get', if_neg (by omega), if_neg (by omega)]; exact h2
  · rcases hj2 with ⟨h1, h2⟩ | ⟨h1, h2⟩
    · apply mk (i + 1)
      · rw [get', if_neg (by omega), if_neg (by omega)]; exact ha
      · have e2 : nextIdx (n + 1) (i + 1) = 0 := by unfold nextIdx; rw [if_pos (by omega)]
        rw [e2, get', if_neg (by omega), if_pos (by omega)]
    · apply mk i
      · rw [get', if_pos (by omega)]; exact ha
      · have e2 : nextIdx (n + 1) i = i + 1 := by unfold nextIdx; rw [if_neg (by omega)]
        rw [e2, get', if_neg (by omega), if_pos (by omega)]
  · apply mk j
    · rw [get', if_neg (by omega), if_pos rfl]
    · have e2 : nextIdx (n + 1) j = j + 1 := by unfold nextIdx; rw [if_neg (by omega)]
      rw [e2, get', if_neg (by omega), if_neg (by omega)]; exact hb
  · rintro c d ⟨k, h1, h2⟩
    rw [hlen] at h2
    have hk : k < n + 1 := by
      by_contra hc
      rw [List.getElem?_eq_none (by omega)] at h1
      cases h1
    rw [get'] at h1 h2
    by_cases hkj : k = j
    · right; right
      have e2 : nextIdx (n + 1) k = k + 1 := by unfold nextIdx; rw [if_neg (by omega)]
      rw [if_neg (by omega), if_pos hkj] at h1
      rw [e2, if_neg (by omega), if_neg (by omega), hkj] at h2
      exact ⟨(Option.some.inj h1).symm, Option.some.inj (h2.symm.trans hb)⟩
    by_cases hnj : nextIdx (n + 1) k = j
    · right; left
      rw [if_neg (by omega), if_pos hnj] at h2
      refine ⟨?_, (Option.some.inj h2).symm⟩
      have : (if k < j then vs[k]? else if k = j then some p else vs[k - 1]?) = vs[i]? := by
        unfold nextIdx at hnj
        rcases hj2 with ⟨g1, g2⟩ | ⟨g1, g2⟩
        · rw [if_neg (by omega), if_neg hkj]
          congr 1
          split at hnj <;> omega
        · have : k = i := by split at hnj <;> omega
          rw [if_pos (by omega), this]
      rw [this] at h1
      exact Option.some.inj (h1.symm.trans ha)
    left
    by_cases hk1 : k < j
    · have e2 : nextIdx (n + 1) k = k + 1 := by unfold nextIdx; rw [if_neg (by omega)]
      rw [e2] at h2 hnj
      rw [if_pos hk1] at h1
      rw [if_pos (by omega)] at h2
      refine ⟨k, h1, ?_⟩
      rw [← hn]
      have e3 : nextIdx n k = k + 1 := by unfold nextIdx; rw [if_neg (by omega)]
      rw [e3]; exact h2
    · rw [if_neg hk1, if_neg hkj] at h1
      refine ⟨k - 1, h1, ?_⟩
      rw [← hn]
      by_cases hkn : k = n
      · have e2 : nextIdx (n + 1) k = 0 := by unfold nextIdx; rw [if_pos (by omega)]
        have e3 : nextIdx n (k - 1) = 0 := by unfold nextIdx; rw [if_pos (by omega)]
        rw [e2] at h2 hnj
        rw [e3]
        rw [if_pos (by omega)] at h2
        exact h2
      · have e2 : nextIdx (n + 1) k = k + 1 := by unfold nextIdx; rw [if_neg (by omega)]
        have e3 : nextIdx n (k - 1) = k := by unfold nextIdx; rw [if_neg (by omega)]; omega
        rw [e2] at h2 hnj
        rw [e3]
        rw [if_neg (by omega), if_neg (by omega)] at h2
        exact h2
end cyc

noncomputable section
open Classical

/-! ## The closest edge -/

/-- `e` describes the edge number `i` of the polygon `vs`, whose line does not pass through the origin. -/
def EdgeOf (vs : List (V2 ℝ)) (i : Nat) (e : EEdge) : Prop :=
  ∃ a b, CEdgeAt vs i a b ∧ tripleProduct (b - a) a (b - a) ≠ 0 ∧ e.normal = (tripleProduct (b - a) a (b - a)).normalize ∧
    e.distance = e.normal.dot a ∧ e.index = nextIdx vs.length i

theorem triple_dot (a b w : V2 ℝ) : (tripleProduct (b - a) a (b - a)).dot w = a.perpDot b * (w.perpDot b - w.perpDot a) := by
  simp only [tripleProduct, V2.dot, V2.perpDot, V2.sub_x, V2.sub_y]; ring

theorem triple_ne {a b : V2 ℝ} : tripleProduct (b - a) a (b - a) ≠ 0 ↔ a.perpDot b ≠ 0 := by
  constructor
  · intro h h0
    have := dot_self_pos2 h
    rw [triple_dot, h0] at this
    simp at this
  · intro h h0
    have h1 := triple_dot a b a
    rw [h0] at h1
    have h2 : a.perpDot b * a.perpDot b = 0 := by
      have : a.perpDot a = 0 := by simp only [V2.perpDot]; ring
      rw [this] at h1
      simp only [V2.dot, V2.zero_x, V2.zero_y] at h1
      linarith
    exact h (mul_self_eq_zero.mp h2)

theorem edgeOf_iff {vs : List (V2 ℝ)} {i : Nat} {e : EEdge} (h : EdgeOf vs i e) : ∃ a b, CEdgeAt vs i a b ∧ a.perpDot b ≠ 0 ∧ e.normal.norm = 1 ∧ 0 < e.distance ∧
    a.dot e.normal = e.distance ∧ b.dot e.normal = e.distance ∧ e.index = nextIdx vs.length i := by
  obtain ⟨a, b, h1, h2, h3, h4, h5⟩ := h
  have hn := V2.norm_pos h2
  have hd : ∀ w : V2 ℝ, e.normal.dot w = a.perpDot b * (w.perpDot b - w.perpDot a) * (1 / (tripleProduct (b - a) a (b - a)).norm) := by
    intro w
    rw [← triple_dot, h3]
    simp only [V2.normalize, V2.dot, V2.mul_x, V2.mul_y]; ring
  have hp := triple_ne.mp h2
  have comm : ∀ w : V2 ℝ, w.dot e.normal = e.normal.dot w := by intro w; simp only [V2.dot]; ring
  refine ⟨a, b, h1, hp, by rw [h3]; exact V2.norm_normalize h2, ?_, ?_, ?_, h5⟩
  · rw [h4, hd]
    have : a.perpDot b * (a.perpDot b - a.perpDot a) = a.perpDot b * a.perpDot b := by simp only [V2.perpDot]; ring
    rw [this]
    have h6 : 0 < a.perpDot b * a.perpDot b := lt_of_le_of_ne (mul_self_nonneg _) (Ne.symm (mul_self_ne_zero.mpr hp))
    positivity
  · rw [comm, h4]
  · rw [comm, h4, hd, hd]
    congr 1
    simp only [V2.perpDot]; ring

theorem closestEdgeLoop_spec (vs : List (V2 ℝ)) : ∀ is best r, closestEdgeLoop vs is best = .ok r →
    (∀ e, r = some e → best = some e ∨ ∃ i ∈ is, EdgeOf vs i e) ∧
    (∀ e', best = some e' → ∃ e, r = some e ∧ e.distance ≤ e'.distance) ∧
    (∀ i ∈ is, ∀ e', EdgeOf vs i e' → ∃ e, r = some e ∧ e.distance ≤ e'.distance) := by
  intro is
  induction is with
  | nil =>
    intro best r h
    cases h
    exact ⟨fun e he => Or.inl he, fun e' he => ⟨e', he, le_refl _⟩, by simp⟩
  | cons i is ih =>
    intro best r h
    unfold closestEdgeLoop at h
    dsimp only at h
    rw [Res.bind_eq_ok] at h
    obtain ⟨a, ha, h⟩ := h
    rw [Res.bind_eq_ok] at h
    obtain ⟨b, hb, h⟩ := h
    have ha' : vs[i]? = some a := by
      revert ha; cases vs[i]? <;> simp
    have hb' : vs[nextIdx vs.length i]? = some b := by
      unfold nextIdx
      revert hb; cases vs[if i + 1 = vs.length then 0 else i + 1]? <;> simp
    have hfun : ∀ e', EdgeOf vs i e' → tripleProduct (b - a) a (b - a) ≠ 0 ∧
        e' = ⟨(tripleProduct (b - a) a (b - a)).normalize, (tripleProduct (b - a) a (b - a)).normalize.dot a, nextIdx vs.length i⟩ := by
      rintro ⟨n, d, j⟩ ⟨a', b', ⟨h1, h2⟩, h3, h4, h5, h6⟩
      rw [ha'] at h1
      rw [hb'] at h2
      cases h1
      cases h2
      dsimp only at h4 h5 h6
      rw [h4] at h5
      exact ⟨h3, by rw [h4, h5, h6]⟩
    split at h
    · rename_i h0
      obtain ⟨k1, k2, k3⟩ := ih _ _ h
      refine ⟨fun e he => ?_, k2, ?_⟩
      · rcases k1 e he with k | ⟨j, hj, k⟩
        · exact Or.inl k
        · exact Or.inr ⟨j, List.mem_cons_of_mem _ hj, k⟩
      · intro j hj e' he'
        rcases List.mem_cons.mp hj with rfl | hj
        · exact absurd h0 (hfun e' he').1
        · exact k3 j hj e' he'
    · rename_i h0
      have hthis : EdgeOf vs i ⟨(tripleProduct (b - a) a (b - a)).normalize, (tripleProduct (b - a) a (b - a)).normalize.dot a, nextIdx vs.length i⟩ :=
        ⟨a, b, ⟨ha', hb'⟩, h0, rfl, rfl, rfl⟩
      cases best with
      | none =>
        dsimp only at h
        obtain ⟨k1, k2, k3⟩ := ih _ _ h
        refine ⟨fun e he => ?_, nofun, ?_⟩
        · rcases k1 e he with k | ⟨j, hj, k⟩
          · cases k
            exact Or.inr ⟨i, List.mem_cons_self, hthis⟩
          · exact Or.inr ⟨j, List.mem_cons_of_mem _ hj, k⟩
        · intro j hj e' he'
          rcases List.mem_cons.mp hj with rfl | hj
          · rw [(hfun e' he').2]
            exact k2 _ rfl
          · exact k3 j hj e' he'
      | some b0 =>
        dsimp only at h
        split at h
        · rename_i hlt
          obtain ⟨k1, k2, k3⟩ := ih _ _ h
          obtain ⟨e1, he1, hle⟩ := k2 _ rfl
          refine ⟨fun e he => ?_, ?_, ?_⟩
          · rcases k1 e he with k | ⟨j, hj, k⟩
            · cases k
              exact Or.inr ⟨i, List.mem_cons_self, hthis⟩
            · exact Or.inr ⟨j, List.mem_cons_of_mem _ hj, k⟩
          · rintro e' ⟨⟩
            exact ⟨e1, he1, le_trans hle hlt.le⟩
          · intro j hj e' he'
            rcases List.mem_cons.mp hj with rfl | hj
            · rw [(hfun e' he').2]
              exact ⟨e1, he1, hle⟩
            · exact k3 j hj e' he'
        · rename_i hlt
          obtain ⟨k1, k2, k3⟩ := ih _ _ h
          obtain ⟨e1, he1, hle⟩ := k2 _ rfl
          refine ⟨fun e he => ?_, k2, ?_⟩
          · rcases k1 e he with k | ⟨j, hj, k⟩
            · exact Or.inl k
            · exact Or.inr ⟨j, List.mem_cons_of_mem _ hj, k⟩
          · intro j hj e' he'
            rcases List.mem_cons.mp hj with rfl | hj
            · rw [(hfun e' he').2]
              exact ⟨e1, he1, le_trans hle (not_lt.mp hlt)⟩
            · exact k3 j hj e' he'

theorem closestEdge_spec {s : List (SP (V2 ℝ))} {o : Option EEdge} (h : closestEdge s = .ok o) (hs : 3 ≤ s.length) :
    ∃ e, o = some e ∧ (∃ i, EdgeOf (s.map SP.v) i e) ∧ ∀ i e', EdgeOf (s.map SP.v) i e' → e.distance ≤ e'.distance := by
  unfold closestEdge at h
  rw [if_neg (by omega), Res.bind_eq_ok] at h
  obtain ⟨r, hr, h⟩ := h
  obtain ⟨k1, _, k3⟩ := closestEdgeLoop_spec _ _ _ _ hr
  cases r with
  | none => cases h
  | some e =>
    cases h
    refine ⟨e, rfl, ?_, ?_⟩
    · rcases k1 e rfl with h | ⟨i, _, h⟩
      · cases h
      · exact ⟨i, h⟩
    · intro i e' he'
      have hi : i ∈ List.range s.length := by
        obtain ⟨a, _, ⟨h1, _⟩, _⟩ := he'
        rw [List.mem_range]
        by_contra hc
        rw [List.getElem?_eq_none (by simp; omega)] at h1
        cases h1
      obtain ⟨e0, h0, hle⟩ := k3 i hi e' he'
      cases h0
      exact hle

/-- If some edge does not pass through the origin, `closest_edge` finds one. -/
theorem closestEdge_total {s : List (SP (V2 ℝ))} (hs : 3 ≤ s.length) {a b : V2 ℝ} (h : CEdge (s.map SP.v) a b) (hp : a.perpDot b ≠ 0) :
    ∃ e, closestEdge s = .ok (some e) := by
  have htot : ∀ is best, (∀ i ∈ is, i < s.length) → ∃ r, closestEdgeLoop (s.map SP.v) is best = .ok r := by
    intro is
    induction is with
    | nil => intro best _; exact ⟨_, rfl⟩
    | cons i is ih =>
      intro best hi
      have ih' := fun b => ih b (fun k hk => hi k (List.mem_cons_of_mem _ hk))
      have h1 := hi i List.mem_cons_self
      have h2 : (if i + 1 = (s.map SP.v).length then 0 else i + 1) < (s.map SP.v).length := by
        simp only [List.length_map]; split <;> omega
      unfold closestEdgeLoop
      dsimp only
      rw [List.getElem?_eq_getElem (by simpa using h1), List.getElem?_eq_getElem h2]
      simp only [Res.ofOption_some, Res.bind_ok]
      generalize (s.map SP.v)[if i + 1 = (s.map SP.v).length then 0 else i + 1]'h2 = y
      generalize tripleProduct (y - _) _ _ = t
      by_cases ht : t = 0
      · rw [if_pos ht]; exact ih' _
      rw [if_neg ht]
      cases best with
      | none => exact ih' _
      | some b => exact ih' _
  obtain ⟨r, hr⟩ := htot (List.range s.length) none (fun i hi => List.mem_range.mp hi)
  obtain ⟨i, hi⟩ := h
  obtain ⟨_, _, k3⟩ := closestEdgeLoop_spec _ _ _ _ hr
  have hmem : i ∈ List.range s.length := by
    rw [List.mem_range]
    by_contra hc
    have h1 := hi.1
    rw [List.getElem?_eq_none (by simp; omega)] at h1
    cases h1
  obtain ⟨e, he, _⟩ := k3 i hmem ⟨(tripleProduct (b - a) a (b - a)).normalize, (tripleProduct (b - a) a (b - a)).normalize.dot a, nextIdx (s.map SP.v).length i⟩ ⟨a, b, hi, triple_ne.mpr hp, rfl, rfl, rfl⟩
  refine ⟨e, ?_⟩
  unfold closestEdge
  rw [if_neg (by omega), hr, he]
  rfl

/-! ## The loop -/

/-- What holds of the result of the loop, for any starting simplex: the simplex still consists of points of the shapes, the edge is a closest edge of it, and if the tolerance test ended the loop
the shapes do not reach beyond the edge by more than the tolerance. -/
theorem epa2Loop_spec {L R : V2 ℝ → Prop} {left right : V2 ℝ → Res (V2 ℝ)} (hl : SupportFn2 left L) (hr : SupportFn2 right R) {tolerance : ℝ}
    (Inv : List (SP (V2 ℝ)) → Prop)
    (step : ∀ s i e p, Inv s → (∀ q ∈ s, FromShapes2 L R q) → EdgeOf (s.map SP.v) i e → (∀ k e', EdgeOf (s.map SP.v) k e' → e.distance ≤ e'.distance) → FromShapes2 L R p →
      (∀ x, Mink2 L R x → x.dot e.normal ≤ p.v.dot e.normal) → ¬ p.v.dot e.normal - e.distance < tolerance → Inv (s.take e.index ++ p :: s.drop e.index)) :
    ∀ n s e r, 3 ≤ s.length → Inv s → (∀ p ∈ s, FromShapes2 L R p) → (∃ i, EdgeOf (s.map SP.v) i e) → (∀ i e', EdgeOf (s.map SP.v) i e' → e.distance ≤ e'.distance) →
      epa2Loop tolerance left right n s e = .ok r →
      3 ≤ r.1.length ∧ Inv r.1 ∧ (∀ p ∈ r.1, FromShapes2 L R p) ∧ (∃ i, EdgeOf (r.1.map SP.v) i r.2.1) ∧ (∀ i e', EdgeOf (r.1.map SP.v) i e' → r.2.1.distance ≤ e'.distance) ∧
      (r.2.2 = true → ∀ x, Mink2 L R x → x.dot r.2.1.normal < r.2.1.distance + tolerance) := by
  intro n
  induction n with
  | zero =>
    intro s e r h3 hi hf he hmin h
    cases h
    exact ⟨h3, hi, hf, he, hmin, nofun⟩
  | succ n ih =>
    intro s e r h3 hi hf he hmin h
    unfold epa2Loop at h
    rw [Res.bind_eq_ok] at h
    obtain ⟨p, hp, h⟩ := h
    obtain ⟨i, hei⟩ := he
    obtain ⟨a, b, hab, hc, hn, hd, hda, hdb, hidx⟩ := edgeOf_iff hei
    have hne : e.normal ≠ 0 := by
      intro h0
      rw [h0] at hn
      simp [V2.norm, V2.dot] at hn
    obtain ⟨q, hq, hqf, hqs⟩ := minkowski2 hl hr hne
    rw [hp] at hq
    cases hq
    dsimp only at h
    split at h
    · rename_i hlt
      cases h
      refine ⟨h3, hi, hf, ⟨i, hei⟩, hmin, fun _ x hx => ?_⟩
      have := hqs x hx
      dsimp only
      linarith
    · rename_i hlt
      rw [Res.bind_eq_ok] at h
      obtain ⟨o, ho, h⟩ := h
      have hf' : ∀ q ∈ s.take e.index ++ p :: s.drop e.index, FromShapes2 L R q := by
        intro q hq
        rcases List.mem_append.mp hq with hq | hq
        · exact hf q (List.mem_of_mem_take hq)
        · rcases List.mem_cons.mp hq with rfl | hq
          · exact hqf
          · exact hf q (List.mem_of_mem_drop hq)
      have hlen : 3 ≤ (s.take e.index ++ p :: s.drop e.index).length := by
        simp only [List.length_append, List.length_take, List.length_cons, List.length_drop]
        omega
      obtain ⟨e', rfl, hei', hmin'⟩ := closestEdge_spec ho hlen
      exact ih _ _ _ hlen (step s i e p hi hf hei hmin hqf hqs hlt) hf' hei' hmin' h

/-- The contact point computed from an edge lies in the left shape. -/
theorem epaPoint2_mem {L R : V2 ℝ → Prop} (hL : Convex2 L) {s : List (SP (V2 ℝ))} {e : EEdge} {x : V2 ℝ} (hf : ∀ p ∈ s, FromShapes2 L R p)
    (h : epaPoint2 s e = .ok x) : L x := by
  unfold epaPoint2 at h
  rw [Res.bind_eq_ok] at h
  obtain ⟨b, hb, h⟩ := h
  have get : ∀ {k : Nat} {y : SP (V2 ℝ)}, Res.ofOption s[k]? = .ok y → y ∈ s := by
    intro k y hy
    have : s[k]? = some y := by revert hy; cases s[k]? <;> simp
    exact List.mem_of_getElem? this
  have hbm := hf b (get hb)
  have main : ∀ a : SP (V2 ℝ), FromShapes2 L R a →
      (if (-a.v).dot (b.v - a.v) / (b.v - a.v).dot (b.v - a.v) < 0 then (pure a.supA : Res (V2 ℝ)) else if (-a.v).dot (b.v - a.v) / (b.v - a.v).dot (b.v - a.v) > 1 then pure b.supA
        else pure (a.supA + (b.supA - a.supA) * ((-a.v).dot (b.v - a.v) / (b.v - a.v).dot (b.v - a.v)))) = .ok x → L x := by
    intro a ham h
    split at h
    · cases h; exact ham.1
    · split at h
      · cases h; exact hbm.1
      · cases h
        rename_i h1 h2
        exact hL _ _ _ ham.1 hbm.1 (not_lt.mp h1) (not_lt.mp h2)
  dsimp only at h
  split at h
  · rw [Res.bind_eq_ok] at h
    obtain ⟨a, ha, h⟩ := h
    exact main a (hf a (get ha)) h
  · rw [Res.bind_eq_ok] at h
    obtain ⟨a, ha, h⟩ := h
    exact main a (hf a (get ha)) h

/-- C55, 2D, for every starting simplex made of points of the shapes: the normal is a unit vector, the depth is positive, the contact point belongs to the left shape, and if the tolerance test ended the
iteration, moving the right shape by depth plus tolerance along the normal separates the shapes. -/
theorem c55_2d (L R : V2 ℝ → Prop) (hL : Convex2 L) {left right : V2 ℝ → Res (V2 ℝ)} (hl : SupportFn2 left L) (hr : SupportFn2 right R)
    (tolerance : ℝ) (maxIterations : Nat) {simplex : List (SP (V2 ℝ))} (hs : ∀ p ∈ simplex, FromShapes2 L R p) {c : Contact (V2 ℝ) ℝ} {converged : Bool}
    (h : epa2Run tolerance maxIterations left right simplex = .ok (some (c, converged))) :
    c.normal.norm = 1 ∧ 0 < c.depth ∧ L c.point ∧
      (converged = true → ∀ x y, L x → R y → x.dot c.normal < (y + c.normal * (c.depth + tolerance)).dot c.normal) := by
  unfold epa2Run at h
  rw [Res.bind_eq_ok] at h
  obtain ⟨o, ho, h⟩ := h
  cases o with
  | none => cases h
  | some e =>
    dsimp only at h
    rw [Res.bind_eq_ok] at h
    obtain ⟨r, hr', h⟩ := h
    rw [Res.bind_eq_ok] at h
    obtain ⟨pt, hpt, h⟩ := h
    cases h
    have h3 : 3 ≤ simplex.length := by
      by_contra hc
      unfold closestEdge at ho
      rw [if_pos (by omega)] at ho
      cases ho
    obtain ⟨e', h1, h2, h4⟩ := closestEdge_spec ho h3
    cases h1
    obtain ⟨k1, _, k2, ⟨i, k3⟩, _, k4⟩ := epa2Loop_spec hl hr (fun _ => True) (fun _ _ _ _ _ _ _ _ _ _ _ => trivial) maxIterations simplex e r h3 trivial hs h2 h4 hr'
    obtain ⟨a, b, _, _, g1, g2, _⟩ := edgeOf_iff k3
    refine ⟨g1, g2, epaPoint2_mem hL k2 hpt, fun hc x y hx hy => ?_⟩
    have := k4 hc _ ⟨x, y, hx, hy, rfl⟩
    have hnn : r.2.1.normal.dot r.2.1.normal = 1 := by rw [← V2.norm_sq, g1]; norm_num
    dsimp only [Contact.newWithPoint]
    rw [sub_dot2] at this
    have e2 : (y + r.2.1.normal * (r.2.1.distance + tolerance)).dot r.2.1.normal = y.dot r.2.1.normal + (r.2.1.distance + tolerance) * r.2.1.normal.dot r.2.1.normal := by
      simp only [V2.dot, V2.add_x, V2.add_y, V2.mul_x, V2.mul_y]; ring
    rw [e2, hnn]
    linarith

/-! ## The depth is not too large when the origin is strictly inside -/

/-- The polygon surrounds the origin: no edge is in line with it, and the sectors of the edges cover the plane; the vertices are boundary points of the Minkowski difference. -/
structure Around (L R : V2 ℝ → Prop) (vs : List (V2 ℝ)) : Prop where
  ne : ∀ a b, CEdge vs a b → a.perpDot b ≠ 0
  cover : ∀ x, ∃ a b, CEdge vs a b ∧ ∃ α β : ℝ, 0 ≤ α ∧ 0 ≤ β ∧ x = a * α + b * β
  mem : ∀ a ∈ vs, Mink2 L R a
  ext : ∀ a ∈ vs, Ext2 L R a

theorem cedge_mem {α : Type} {vs : List α} {a b : α} (h : CEdge vs a b) : a ∈ vs ∧ b ∈ vs := by
  obtain ⟨i, h1, h2⟩ := h
  exact ⟨List.mem_of_getElem? h1, List.mem_of_getElem? h2⟩

theorem basis2 {a b : V2 ℝ} (h : a.perpDot b ≠ 0) (x : V2 ℝ) : ∃ α β : ℝ, x = a * α + b * β := by
  refine ⟨x.perpDot b / a.perpDot b, a.perpDot x / a.perpDot b, ?_⟩
  ext
  · simp only [V2.add_x, V2.mul_x]
    field_simp
    simp only [V2.perpDot]; ring
  · simp only [V2.add_y, V2.mul_y]
    field_simp
    simp only [V2.perpDot]; ring

/-- In every direction there is a vertex. -/
theorem around_pos {L R : V2 ℝ → Prop} {vs : List (V2 ℝ)} (h : Around L R vs) {d : V2 ℝ} (hd : d ≠ 0) : ∃ a ∈ vs, 0 < a.dot d := by
  obtain ⟨a, b, hab, α, β, hα, hβ, e⟩ := h.cover d
  have h1 := dot_self_pos2 hd
  have h2 : d.dot d = α * a.dot d + β * b.dot d := by
    conv_lhs => rw [e]
    simp only [V2.dot, V2.add_x, V2.add_y, V2.mul_x, V2.mul_y]
    ring_nf
    rw [e]
    simp only [V2.add_x, V2.add_y, V2.mul_x, V2.mul_y]
    ring
  by_contra hc
  push Not at hc
  have h3 := hc a (cedge_mem hab).1
  have h4 := hc b (cedge_mem hab).2
  nlinarith

theorem around_ext {L R : V2 ℝ → Prop} {vs : List (V2 ℝ)} (h : Around L R vs) {a : V2 ℝ} (ha : a ∈ vs) {p b : V2 ℝ} (hp : Mink2 L R p) (hb : Mink2 L R b) {α β : ℝ}
    (e : p = a * α + b * β) (hs : 1 < α + β) : 0 < β := by
  by_contra hc
  have hc := not_lt.mp hc
  have hα : 1 < α := by linarith
  obtain ⟨d, hd, hmax⟩ := h.ext a ha
  obtain ⟨v, hv, hvd⟩ := around_pos h hd
  have had : 0 < a.dot d := lt_of_lt_of_le hvd (hmax v (h.mem v hv))
  have h1 := hmax p hp
  have h2 := hmax b hb
  have h3 : p.dot d = α * a.dot d + β * b.dot d := by rw [e]; simp only [V2.dot, V2.add_x, V2.add_y, V2.mul_x, V2.mul_y]; ring
  rw [h3] at h1
  nlinarith

theorem around_insert {L R : V2 ℝ → Prop} {vs : List (V2 ℝ)} (h : Around L R vs) {i : Nat} {e : EEdge} {p : V2 ℝ} (he : EdgeOf vs i e) (hp : Mink2 L R p)
    (hs : ∀ x, Mink2 L R x → x.dot e.normal ≤ p.dot e.normal) (hlt : e.distance < p.dot e.normal) :
    Around L R (vs.take e.index ++ p :: vs.drop e.index) := by
  obtain ⟨a, b, hab, hc, hn, hd, hda, hdb, hidx⟩ := edgeOf_iff he
  obtain ⟨ham, hbm⟩ := cedge_mem ⟨i, hab⟩
  obtain ⟨α, β, hp'⟩ := basis2 hc p
  have hsum : 1 < α + β := by
    have h1 : p.dot e.normal = (α + β) * e.distance := by
      have : p.dot e.normal = α * a.dot e.normal + β * b.dot e.normal := by
        conv_lhs => rw [hp']
        simp only [V2.dot, V2.add_x, V2.add_y, V2.mul_x, V2.mul_y]; ring
      rw [this, hda, hdb]; ring
    rw [h1] at hlt
    by_contra hcon
    nlinarith
  have hβ := around_ext h ham hp (h.mem b hbm) hp' hsum
  have hα := around_ext h hbm hp (h.mem a ham) (α := β) (β := α) (by rw [hp']; ext <;> simp <;> ring) (by linarith)
  have hmem : ∀ q ∈ vs.take e.index ++ p :: vs.drop e.index, q = p ∨ q ∈ vs := by
    intro q hq
    rcases List.mem_append.mp hq with hq | hq
    · exact Or.inr (List.mem_of_mem_take hq)
    · rcases List.mem_cons.mp hq with rfl | hq
      · exact Or.inl rfl
      · exact Or.inr (List.mem_of_mem_drop hq)
  rw [hidx] at hmem ⊢
  obtain ⟨k1, k2, k3, k4⟩ := insert_edges (p := p) hab
  refine ⟨?_, ?_, ?_, ?_⟩
  · intro c d hcd
    rcases k4 c d hcd with k | ⟨rfl, rfl⟩ | ⟨rfl, rfl⟩
    · exact h.ne c d k
    · have : c.perpDot d = β * c.perpDot b := by rw [hp']; simp only [V2.perpDot, V2.add_x, V2.add_y, V2.mul_x, V2.mul_y]; ring
      rw [this]
      exact mul_ne_zero hβ.ne' hc
    · have : c.perpDot d = α * a.perpDot d := by rw [hp']; simp only [V2.perpDot, V2.add_x, V2.add_y, V2.mul_x, V2.mul_y]; ring
      rw [this]
      exact mul_ne_zero hα.ne' hc
  · intro x
    obtain ⟨c, d, ⟨k, hk⟩, γ, δ, hγ, hδ, e1⟩ := h.cover x
    rcases k1 k c d hk with rfl | hcd
    · -- the sector of the edge is divided in two
      have hca : c = a := Option.some.inj (hk.1.symm.trans hab.1)
      have hdb' : d = b := Option.some.inj (hk.2.symm.trans hab.2)
      subst hca hdb'
      by_cases hcase : γ * β ≤ δ * α
      · refine ⟨p, d, k3, γ / α, δ - γ / α * β, by positivity, ?_, ?_⟩
        · have : γ / α * β = γ * β / α := by ring
          rw [this, sub_nonneg, div_le_iff₀ hα]
          exact hcase
        · rw [e1, hp']
          ext
          · simp only [V2.add_x, V2.mul_x]; field_simp; ring
          · simp only [V2.add_y, V2.mul_y]; field_simp; ring
      · refine ⟨c, p, k2, γ - δ / β * α, δ / β, ?_, by positivity, ?_⟩
        · have : δ / β * α = δ * α / β := by ring
          rw [this, sub_nonneg, div_le_iff₀ hβ]
          linarith
        · rw [e1, hp']
          ext
          · simp only [V2.add_x, V2.mul_x]; field_simp; ring
          · simp only [V2.add_y, V2.mul_y]; field_simp; ring
    · exact ⟨c, d, hcd, γ, δ, hγ, hδ, e1⟩
  · intro q hq
    rcases hmem q hq with rfl | hq
    · exact hp
    · exact h.mem q hq
  · intro q hq
    rcases hmem q hq with rfl | hq
    · have hne : e.normal ≠ 0 := by
        intro h0
        rw [h0] at hn
        simp [V2.norm, V2.dot] at hn
      exact ⟨e.normal, hne, hs⟩
    · exact h.ext q hq

/-- Points nearer to the origin than the closest edge of a polygon around it belong to the Minkowski difference. -/
theorem around_ball {L R : V2 ℝ → Prop} (hM : Convex2 (Mink2 L R)) {vs : List (V2 ℝ)} (h : Around L R vs) {δ : ℝ}
    (hmin : ∀ i e', EdgeOf vs i e' → δ ≤ e'.distance) {z : V2 ℝ} (hz : z.norm ≤ δ) : Mink2 L R z := by
  obtain ⟨a, b, ⟨i, hab⟩, α, β, hα, hβ, e⟩ := h.cover z
  have hc := h.ne a b ⟨i, hab⟩
  have heo : EdgeOf vs i ⟨(tripleProduct (b - a) a (b - a)).normalize, (tripleProduct (b - a) a (b - a)).normalize.dot a, nextIdx vs.length i⟩ :=
    ⟨a, b, hab, triple_ne.mpr hc, rfl, rfl, rfl⟩
  have hle := hmin _ _ heo
  obtain ⟨a', b', hab', _, hn, hd, hda, hdb, _⟩ := edgeOf_iff heo
  have ea : a' = a := Option.some.inj (hab'.1.symm.trans hab.1)
  have eb : b' = b := Option.some.inj (hab'.2.symm.trans hab.2)
  subst ea eb
  generalize (⟨(tripleProduct (b' - a') a' (b' - a')).normalize, (tripleProduct (b' - a') a' (b' - a')).normalize.dot a', nextIdx vs.length i⟩ : EEdge) = E at hle hn hd hda hdb
  have hsum : α + β ≤ 1 := by
    have h1 : z.dot E.normal = (α + β) * E.distance := by
      have : z.dot E.normal = α * a'.dot E.normal + β * b'.dot E.normal := by
        rw [e]; simp only [V2.dot, V2.add_x, V2.add_y, V2.mul_x, V2.mul_y]; ring
      rw [this, hda, hdb]; ring
    have h2 := V2.cauchy z E.normal
    rw [hn, mul_one, h1] at h2
    by_contra hcon
    nlinarith
  obtain ⟨hma, hmb⟩ := cedge_mem ⟨i, hab⟩
  -- the origin is in the Minkowski difference
  have h0 : Mink2 L R 0 := by
    obtain ⟨c, d, hcd, γ, δ', hγ, hδ, e'⟩ := h.cover (-(a' + b'))
    have hcm := h.mem c (cedge_mem hcd).1
    have hdm := h.mem d (cedge_mem hcd).2
    have hx := congrArg V2.x e'
    have hy := congrArg V2.y e'
    simp only [V2.neg_x, V2.neg_y, V2.add_x, V2.add_y, V2.mul_x, V2.mul_y] at hx hy
    -- 0 = (a + b + γ c + δ d) / (2 + γ + δ)
    have m1 := hM a' b' (1 / 2) (h.mem a' hma) (h.mem b' hmb) (by norm_num) (by norm_num)
    by_cases hgd : γ + δ' = 0
    · have g0 : γ = 0 := by linarith
      have d0 : δ' = 0 := by linarith
      rw [g0, d0] at hx hy
      convert m1 using 1
      ext
      · simp; linarith
      · simp; linarith
    · have hpos : 0 < γ + δ' := lt_of_le_of_ne (by linarith) (Ne.symm hgd)
      have m2 := hM c d (δ' / (γ + δ')) hcm hdm (by positivity) (by rw [div_le_one hpos]; linarith)
      have m3 := hM _ _ ((γ + δ') / (2 + (γ + δ'))) m1 m2 (by positivity) (by rw [div_le_one (by linarith)]; linarith)
      convert m3 using 1
      have hne : (2 : ℝ) + (γ + δ') ≠ 0 := by linarith
      ext
      · simp only [V2.zero_x, V2.add_x, V2.sub_x, V2.mul_x]
        field_simp
        linear_combination (2 : ℝ) * hx
      · simp only [V2.zero_y, V2.add_y, V2.sub_y, V2.mul_y]
        field_simp
        linear_combination (2 : ℝ) * hy
  by_cases hab0 : α + β = 0
  · have a0 : α = 0 := by linarith
    have b0 : β = 0 := by linarith
    rw [e, a0, b0]
    convert h0 using 1
    ext <;> simp
  · have hpos : 0 < α + β := lt_of_le_of_ne (by linarith) (Ne.symm hab0)
    have m1 := hM a' b' (β / (α + β)) (h.mem a' hma) (h.mem b' hmb) (by positivity) (by rw [div_le_one hpos]; linarith)
    have m2 := hM _ _ (α + β) h0 m1 hpos.le hsum
    convert m2 using 1
    rw [e]
    ext
    · simp only [V2.zero_x, V2.add_x, V2.sub_x, V2.mul_x]
      field_simp
      ring
    · simp only [V2.zero_y, V2.add_y, V2.sub_y, V2.mul_y]
      field_simp
      ring

theorem cedge_three {α : Type} {a b c x y : α} : CEdge [a, b, c] x y ↔ (x = a ∧ y = b) ∨ (x = b ∧ y = c) ∨ (x = c ∧ y = a) := by
  constructor
  · rintro ⟨i, h1, h2⟩
    rcases i with _ | _ | _ | i
    · simp [nextIdx] at h1 h2; exact Or.inl ⟨h1.symm, h2.symm⟩
    · simp [nextIdx] at h1 h2; exact Or.inr (Or.inl ⟨h1.symm, h2.symm⟩)
    · simp [nextIdx] at h1 h2; exact Or.inr (Or.inr ⟨h1.symm, h2.symm⟩)
    · simp at h1
  · rintro (⟨rfl, rfl⟩ | ⟨rfl, rfl⟩ | ⟨rfl, rfl⟩)
    · exact ⟨0, rfl, rfl⟩
    · exact ⟨1, rfl, rfl⟩
    · exact ⟨2, rfl, rfl⟩

/-- A triangle with the origin inside, none of whose sides is in line with the origin. -/
theorem around_triangle {L R : V2 ℝ → Prop} {a b c : V2 ℝ} (h : InTriangle a b c) (h1 : a.perpDot b ≠ 0) (h2 : b.perpDot c ≠ 0) (h3 : c.perpDot a ≠ 0)
    (hm : ∀ x ∈ [a, b, c], Mink2 L R x) (he : ∀ x ∈ [a, b, c], Ext2 L R x) : Around L R [a, b, c] := by
  refine ⟨?_, ?_, hm, he⟩
  · intro x y hxy
    rcases cedge_three.mp hxy with ⟨rfl, rfl⟩ | ⟨rfl, rfl⟩ | ⟨rfl, rfl⟩ <;> assumption
  · obtain ⟨u, v, w, hu, hv, hw, hs, e⟩ := h
    have ex := congrArg V2.x e
    have ey := congrArg V2.y e
    simp only [V2.add_x, V2.add_y, V2.mul_x, V2.mul_y, V2.zero_x, V2.zero_y] at ex ey
    -- the three weights are in the ratio of the cross products
    have r1 : u * a.perpDot b = w * b.perpDot c := by simp only [V2.perpDot]; linear_combination b.y * ex - b.x * ey
    have r2 : v * b.perpDot c = u * c.perpDot a := by simp only [V2.perpDot]; linear_combination c.y * ex - c.x * ey
    have r3 : w * c.perpDot a = v * a.perpDot b := by simp only [V2.perpDot]; linear_combination a.y * ex - a.x * ey
    have z1 : u = 0 → w = 0 := fun hz => by
      rw [hz, zero_mul] at r1
      rcases mul_eq_zero.mp r1.symm with h | h
      · exact h
      · exact absurd h h2
    have z2 : v = 0 → u = 0 := fun hz => by
      rw [hz, zero_mul] at r2
      rcases mul_eq_zero.mp r2.symm with h | h
      · exact h
      · exact absurd h h3
    have z3 : w = 0 → v = 0 := fun hz => by
      rw [hz, zero_mul] at r3
      rcases mul_eq_zero.mp r3.symm with h | h
      · exact h
      · exact absurd h h1
    have hu' : 0 < u := lt_of_le_of_ne hu (fun hz => by
      have a1 := z1 hz.symm
      have a2 := z3 a1
      rw [← hz, a1, a2] at hs; norm_num at hs)
    have hv' : 0 < v := lt_of_le_of_ne hv (fun hz => by
      have a1 := z2 hz.symm
      exact hu'.ne' a1)
    have hw' : 0 < w := lt_of_le_of_ne hw (fun hz => by
      have a1 := z3 hz.symm
      exact hv'.ne' a1)
    intro x
    obtain ⟨α, β, hx⟩ := basis2 h1 x
    by_cases hab : 0 ≤ α ∧ 0 ≤ β
    · exact ⟨a, b, cedge_three.mpr (Or.inl ⟨rfl, rfl⟩), α, β, hab.1, hab.2, hx⟩
    by_cases hcase : α * v ≤ β * u
    · -- the weight of `a` is the most negative: use `b` and `c`
      have hα : α ≤ 0 := by
        by_contra hc
        have : 0 ≤ β := by
          by_contra hb
          have e1 := mul_pos (not_le.mp hc) hv'
          have e2 := mul_neg_of_neg_of_pos (not_le.mp hb) hu'
          linarith
        exact hab ⟨(not_le.mp hc).le, this⟩
      refine ⟨b, c, cedge_three.mpr (Or.inr (Or.inl ⟨rfl, rfl⟩)), β - α / u * v, -(α / u) * w, ?_, ?_, ?_⟩
      · have : α / u * v = α * v / u := by ring
        rw [this, sub_nonneg, div_le_iff₀ hu']; exact hcase
      · have : 0 ≤ -(α / u) := by rw [neg_nonneg]; exact div_nonpos_of_nonpos_of_nonneg hα hu
        positivity
      · rw [hx]
        ext
        · simp only [V2.add_x, V2.mul_x]; field_simp; linear_combination α * ex
        · simp only [V2.add_y, V2.mul_y]; field_simp; linear_combination α * ey
    · have hcase := not_le.mp hcase
      have hβ : β ≤ 0 := by
        by_contra hc
        have : 0 ≤ α := by
          by_contra hb
          have e1 := mul_pos (not_le.mp hc) hu'
          have e2 := mul_neg_of_neg_of_pos (not_le.mp hb) hv'
          linarith
        exact hab ⟨this, (not_le.mp hc).le⟩
      refine ⟨c, a, cedge_three.mpr (Or.inr (Or.inr ⟨rfl, rfl⟩)), -(β / v) * w, α - β / v * u, ?_, ?_, ?_⟩
      · have : 0 ≤ -(β / v) := by rw [neg_nonneg]; exact div_nonpos_of_nonpos_of_nonneg hβ hv
        positivity
      · have : β / v * u = β * u / v := by ring
        rw [this, sub_nonneg, div_le_iff₀ hv']; exact hcase.le
      · rw [hx]
        ext
        · simp only [V2.add_x, V2.mul_x]; field_simp; linear_combination β * ex
        · simp only [V2.add_y, V2.mul_y]; field_simp; linear_combination β * ey

theorem map_insert (s : List (SP (V2 ℝ))) (p : SP (V2 ℝ)) (j : Nat) :
    (s.take j ++ p :: s.drop j).map SP.v = (s.map SP.v).take j ++ p.v :: (s.map SP.v).drop j := by
  simp [List.map_take, List.map_drop]

theorem epa2Loop_total {L R : V2 ℝ → Prop} {left right : V2 ℝ → Res (V2 ℝ)} (hl : SupportFn2 left L) (hr : SupportFn2 right R) {tolerance : ℝ} (htol : 0 < tolerance) :
    ∀ n s e, 3 ≤ s.length → Around L R (s.map SP.v) → (∃ i, EdgeOf (s.map SP.v) i e) → ∃ r, epa2Loop tolerance left right n s e = .ok r := by
  intro n
  induction n with
  | zero => intro s e _ _ _; exact ⟨_, rfl⟩
  | succ n ih =>
    rintro s e h3 hA ⟨i, hei⟩
    obtain ⟨a, b, hab, hc, hn, hd, hda, hdb, hidx⟩ := edgeOf_iff hei
    have hne : e.normal ≠ 0 := by
      intro h0
      rw [h0] at hn
      simp [V2.norm, V2.dot] at hn
    obtain ⟨q, hq, hqf, hqs⟩ := minkowski2 hl hr hne
    unfold epa2Loop
    rw [hq, Res.bind_ok]
    dsimp only
    split
    · exact ⟨_, rfl⟩
    · rename_i hlt
      have hA' : Around L R ((s.take e.index ++ q :: s.drop e.index).map SP.v) := by
        rw [map_insert]
        exact around_insert hA hei hqf.mink hqs (by linarith [not_lt.mp hlt])
      have hlen : 3 ≤ (s.take e.index ++ q :: s.drop e.index).length := by
        simp only [List.length_append, List.length_take, List.length_cons, List.length_drop]
        omega
      obtain ⟨x, y, hxy, _⟩ := hA'.cover 0
      obtain ⟨e', he'⟩ := closestEdge_total hlen hxy (hA'.ne x y hxy)
      obtain ⟨e'', h1, h2, _⟩ := closestEdge_spec he' hlen
      cases h1
      rw [he', Res.bind_ok]
      simp only [Res.ofOption_some, Res.bind_ok]
      exact ih _ _ hlen hA' h2

theorem epaPoint2_total {s : List (SP (V2 ℝ))} {e : EEdge} {i : Nat} (h : EdgeOf (s.map SP.v) i e) : ∃ x, epaPoint2 s e = .ok x := by
  obtain ⟨a, b, ⟨h1, h2⟩, _, _, _, h3⟩ := h
  have hlt : e.index < s.length := by
    by_contra hc
    rw [← h3, List.getElem?_eq_none (by simp; omega)] at h2
    cases h2
  unfold epaPoint2
  rw [List.getElem?_eq_getElem hlt]
  simp only [Res.ofOption_some, Res.bind_ok]
  have main : ∀ (k : Nat), k < s.length → ∃ x, (do
      let a ← Res.ofOption s[k]?
      if (-a.v).dot ((s[e.index]'hlt).v - a.v) / ((s[e.index]'hlt).v - a.v).dot ((s[e.index]'hlt).v - a.v) < 0 then (pure a.supA : Res (V2 ℝ))
      else if (-a.v).dot ((s[e.index]'hlt).v - a.v) / ((s[e.index]'hlt).v - a.v).dot ((s[e.index]'hlt).v - a.v) > 1 then pure (s[e.index]'hlt).supA
      else pure (a.supA + ((s[e.index]'hlt).supA - a.supA) * ((-a.v).dot ((s[e.index]'hlt).v - a.v) / ((s[e.index]'hlt).v - a.v).dot ((s[e.index]'hlt).v - a.v)))) = .ok x := by
    intro k hk
    rw [List.getElem?_eq_getElem hk]
    simp only [Res.ofOption_some, Res.bind_ok]
    split
    · exact ⟨_, rfl⟩
    · split <;> exact ⟨_, rfl⟩
  by_cases h0 : e.index = 0
  · obtain ⟨x, hx⟩ := main (s.length - 1) (by omega)
    exact ⟨x, by rw [if_pos h0]; exact hx⟩
  · obtain ⟨x, hx⟩ := main (e.index - 1) (by omega)
    exact ⟨x, by rw [if_neg h0]; exact hx⟩

/-- C55, 2D, with the origin strictly inside the starting triangle (as GJK returns it: corners extreme in some direction, enclosing the origin; here also no side in line with
the origin): EPA returns a contact; the normal is a unit vector, the contact point is in the left shape, and no translation of the right shape of length at most the depth
separates the shapes. With the tolerance test met, a translation by depth + tolerance along the normal does: the depth is the true penetration depth up to the tolerance. -/
theorem c55_exact_2d (L R : V2 ℝ → Prop) (hL : Convex2 L) (hR : Convex2 R) {left right : V2 ℝ → Res (V2 ℝ)} (hl : SupportFn2 left L) (hr : SupportFn2 right R)
    {tolerance : ℝ} (htol : 0 < tolerance) (maxIterations : Nat) {s0 s1 s2 : SP (V2 ℝ)} (hs : ∀ p ∈ [s0, s1, s2], FromShapes2 L R p ∧ Ext2 L R p.v)
    (hin : InTriangle s0.v s1.v s2.v) (h01 : s0.v.perpDot s1.v ≠ 0) (h12 : s1.v.perpDot s2.v ≠ 0) (h20 : s2.v.perpDot s0.v ≠ 0) :
    ∃ c converged, epa2Run tolerance maxIterations left right [s0, s1, s2] = .ok (some (c, converged)) ∧ c.normal.norm = 1 ∧ 0 < c.depth ∧ L c.point ∧
      (∀ z : V2 ℝ, z.norm ≤ c.depth → ∃ x y, L x ∧ R y ∧ x = y + z) ∧
      (converged = true → ∀ x y, L x → R y → x.dot c.normal < (y + c.normal * (c.depth + tolerance)).dot c.normal) := by
  have hA : Around L R ([s0, s1, s2].map SP.v) := by
    refine around_triangle hin h01 h12 h20 ?_ ?_
    · intro x hx
      have : x ∈ [s0, s1, s2].map SP.v := hx
      obtain ⟨p, hp, rfl⟩ := List.mem_map.mp this
      exact (hs p hp).1.mink
    · intro x hx
      have : x ∈ [s0, s1, s2].map SP.v := hx
      obtain ⟨p, hp, rfl⟩ := List.mem_map.mp this
      exact (hs p hp).2
  have h3 : 3 ≤ [s0, s1, s2].length := le_refl _
  obtain ⟨e, he⟩ := closestEdge_total (s := [s0, s1, s2]) h3 (a := s0.v) (b := s1.v) (cedge_three.mpr (Or.inl ⟨rfl, rfl⟩)) h01
  obtain ⟨e', h1, h2, h4⟩ := closestEdge_spec he h3
  cases h1
  obtain ⟨r, hr'⟩ := epa2Loop_total hl hr htol maxIterations _ _ h3 hA h2
  obtain ⟨k1, kA, k2, ⟨i, k3⟩, k5, k4⟩ := epa2Loop_spec hl hr (fun s => Around L R (s.map SP.v)) (by
    intro s i e p hi _ hei _ hpf hps hlt
    rw [map_insert]
    exact around_insert hi hei hpf.mink hps (by linarith [not_lt.mp hlt])) maxIterations _ e r h3 hA (fun p hp => (hs p hp).1) h2 h4 hr'
  obtain ⟨pt, hpt⟩ := epaPoint2_total k3
  have hrun : epa2Run tolerance maxIterations left right [s0, s1, s2] = .ok (some (Contact.newWithPoint .fullResolution r.2.1.normal r.2.1.distance pt, r.2.2)) := by
    unfold epa2Run
    rw [he, Res.bind_ok]
    dsimp only
    rw [hr', Res.bind_ok, hpt, Res.bind_ok]
    rfl
  refine ⟨_, _, hrun, ?_⟩
  obtain ⟨g1, g2, g3, g4⟩ := c55_2d L R hL hl hr tolerance maxIterations (fun p hp => (hs p hp).1) hrun
  refine ⟨g1, g2, g3, fun z hz => ?_, g4⟩
  obtain ⟨x, y, hx, hy, e⟩ := around_ball (mink2_convex hL hR) kA k5 hz
  refine ⟨x, y, hx, hy, ?_⟩
  have ex := congrArg V2.x e
  have ey := congrArg V2.y e
  simp at ex ey
  ext <;> simp <;> linarith
end
end Verif.Minkowski
