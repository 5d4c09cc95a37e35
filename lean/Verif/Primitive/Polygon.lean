import Verif.Primitive.PolygonModel
import Verif.Primitive.Props
import Mathlib.Algebra.Order.Ring.Rat
/-!
# Convex polygons against rays: C49; support points of small polygons: C46
-/
namespace Verif.Primitive
open Verif Verif.Geom
set_option linter.unusedSectionVars false
variable {K : Type} [Field K] [LinearOrder K]

/-! ## Specification -/

/-- Twice the signed area of the triangle `a b c` (positive: counter-clockwise). -/
def orient (a b c : V2 K) : K := (b.x - a.x) * (c.y - a.y) - (b.y - a.y) * (c.x - a.x)

/-- Specification: at least three vertices, in counter-clockwise order, strictly convex (every three of them turn left). -/
def ConvexCcw (vs : List (V2 K)) : Prop :=
  3 ≤ vs.length ∧ ∀ (i j k : Nat) (a b c : V2 K), i < j → j < k → vs[i]? = some a → vs[j]? = some b → vs[k]? = some c → 0 < orient a b c

/-- Specification: the closed segment. -/
def OnSeg (a b p : V2 K) : Prop := ∃ u : K, 0 ≤ u ∧ u ≤ 1 ∧ p = a + (b - a) * u

/-- index of the predecessor on the cycle -/
def prv (n j : Nat) : Nat := if j = 0 then n - 1 else j - 1

variable [IsStrictOrderedRing K]

theorem orient_rot (a b c : V2 K) : orient a b c = orient b c a := by simp only [orient]; ring

theorem orient_seg (a b p q : V2 K) (t : K) : orient a b (p + (q - p) * t) = (1 - t) * orient a b p + t * orient a b q := by
  simp only [orient, V2.add_x, V2.add_y, V2.mul_x, V2.mul_y, V2.sub_x, V2.sub_y]; ring

theorem orient_self_left (a b : V2 K) : orient a b a = 0 := by simp only [orient]; ring
theorem orient_self_right (a b : V2 K) : orient a b b = 0 := by simp only [orient]; ring

theorem onSeg_orient {a b p : V2 K} (h : OnSeg a b p) : orient a b p = 0 := by
  obtain ⟨u, -, -, rfl⟩ := h
  rw [orient_seg, orient_self_left, orient_self_right]; ring

theorem hull2_orient {vs : List (V2 K)} {a b : V2 K} (h : ∀ v ∈ vs, 0 ≤ orient a b v) {q : V2 K} (hq : Hull2 vs q) : 0 ≤ orient a b q := by
  induction hq with
  | vertex hv => exact h _ hv
  | @seg p q t _ _ t0 t1 ih1 ih2 =>
    rw [orient_seg]
    have := mul_nonneg (sub_nonneg.2 t1) ih1
    have := mul_nonneg t0 ih2
    linarith

/-- cyclic form of strict convexity: an edge sees every other vertex strictly on its left -/
theorem ConvexCcw.edge {vs : List (V2 K)} (h : ConvexCcw vs) {j k : Nat} {a b c : V2 K} (hj : j < vs.length)
    (hk1 : k ≠ j) (hk2 : k ≠ prv vs.length j)
    (ha : vs[prv vs.length j]? = some a) (hb : vs[j]? = some b) (hc : vs[k]? = some c) : 0 < orient a b c := by
  have hk : k < vs.length := (List.getElem?_eq_some_iff.1 hc).1
  obtain ⟨h3, hconv⟩ := h
  unfold prv at hk2 ha
  by_cases h0 : j = 0
  · simp only [h0, if_true] at hk2 ha hb
    rw [orient_rot]
    exact hconv 0 k _ b c a (by omega) (by omega) hb hc ha
  · simp only [h0, if_false] at hk2 ha
    rcases lt_or_gt_of_ne hk1 with h1 | h1
    · rw [orient_rot, orient_rot]
      exact hconv k (j - 1) j c a b (by omega) (by omega) hc ha hb
    · exact hconv (j - 1) j k a b c (by omega) h1 ha hb hc

theorem ConvexCcw.edge_nonneg {vs : List (V2 K)} (h : ConvexCcw vs) {j : Nat} {a b c : V2 K} (hj : j < vs.length)
    (ha : vs[prv vs.length j]? = some a) (hb : vs[j]? = some b) (hc : c ∈ vs) : 0 ≤ orient a b c := by
  obtain ⟨k, hk, rfl⟩ := List.getElem_of_mem hc
  have hkk : vs[k]? = some vs[k] := List.getElem?_eq_getElem hk
  by_cases h1 : k = j
  · subst h1; rw [hkk] at hb; cases hb; rw [orient_self_right]
  · by_cases h2 : k = prv vs.length j
    · rw [← h2, hkk] at ha; cases ha; rw [orient_self_left]
    · exact (h.edge hj h1 h2 ha hb hkk).le

/-- in every edge's closed left half-plane -/
def InHalfPlanes (vs : List (V2 K)) (p : V2 K) : Prop :=
  ∀ (j : Nat) (a b : V2 K), j < vs.length → vs[prv vs.length j]? = some a → vs[j]? = some b → 0 ≤ orient a b p

theorem prv_lt {n j : Nat} (h : j < n) : prv n j < n := by unfold prv; split <;> omega

theorem triangle_hull {vs : List (V2 K)} {a b c p : V2 K} (ha : a ∈ vs) (hb : b ∈ vs) (hc : c ∈ vs) (h : 0 < orient a b c)
    (h1 : 0 ≤ orient a b p) (h2 : 0 ≤ orient b c p) (h3 : 0 ≤ orient c a p) : Hull2 vs p := by
  have hsum : orient a b p + orient b c p + orient c a p = orient a b c := by simp only [orient]; ring
  by_cases h0 : orient b c p + orient c a p = 0
  · -- p is c
    have e1 : orient b c p = 0 := by linarith
    have e2 : orient c a p = 0 := by linarith
    have e3 : orient a b p = orient a b c := by linarith
    have : p = c := by
      simp only [orient] at *
      have hA := h.ne'
      ext
      · apply mul_left_cancel₀ hA
        linear_combination (b.x - c.x) * e2 + (-c.x + a.x) * e1
      · apply mul_left_cancel₀ hA
        linear_combination (b.y - c.y) * e2 + (-c.y + a.y) * e1
    rw [this]; exact .vertex hc
  · -- p on the segment from the point of ab towards c
    have hs : 0 < orient b c p + orient c a p := lt_of_le_of_ne (add_nonneg h2 h3) (Ne.symm h0)
    set s := orient b c p + orient c a p with hsdef
    have hq : Hull2 vs (a + (b - a) * (orient c a p / s)) :=
      .seg (.vertex ha) (.vertex hb) (div_nonneg h3 hs.le) (by rw [div_le_one hs]; linarith)
    have hp : p = (a + (b - a) * (orient c a p / s)) + (c - (a + (b - a) * (orient c a p / s))) * (orient a b p / orient a b c) := by
      have hne := hs.ne'
      have hA := h.ne'
      have hab : orient a b c = orient a b p + s := by linarith
      ext
      · simp only [V2.add_x, V2.mul_x, V2.sub_x]
        field_simp
        rw [hab, hsdef]; simp only [orient]; ring
      · simp only [V2.add_y, V2.mul_y, V2.sub_y]
        field_simp
        rw [hab, hsdef]; simp only [orient]; ring
    rw [hp]
    exact .seg hq (.vertex hc) (div_nonneg h1 h.le) (by rw [div_le_one h]; linarith)

theorem discrete_ivt (f : Nat → K) (a n : Nat) (hn : a < n) (h1 : 0 ≤ f a) (h2 : f n ≤ 0) : ∃ k, a ≤ k ∧ k < n ∧ 0 ≤ f k ∧ f (k + 1) ≤ 0 := by
  induction n with
  | zero => omega
  | succ n ih =>
    by_cases h : 0 ≤ f n
    · exact ⟨n, by omega, by omega, h, h2⟩
    · push Not at h
      have : a ≠ n := by rintro rfl; exact absurd h1 (not_le.2 h)
      obtain ⟨k, hk⟩ := ih (by omega) h.le
      exact ⟨k, hk.1, by omega, hk.2.2⟩

theorem halfPlanes_hull {vs : List (V2 K)} (h : ConvexCcw vs) {p : V2 K} (hp : InHalfPlanes vs p) : Hull2 vs p := by
  have h3 := h.1
  have get : ∀ k, k < vs.length → vs[k]? = some (vs.getD k 0) := by
    intro k hk; rw [List.getElem?_eq_getElem hk, List.getD_eq_getElem?_getD, List.getElem?_eq_getElem hk]; rfl
  obtain ⟨k, k1, kn, f1, f2⟩ := discrete_ivt (fun k => orient (vs.getD 0 0) (vs.getD k 0) p) 1 (vs.length - 1) (by omega)
    (hp 1 _ _ (by omega) (by simpa [prv] using get 0 (by omega)) (get 1 (by omega)))
    (by
      have := hp 0 (vs.getD (vs.length - 1) 0) _ (by omega) (by simpa [prv] using get (vs.length - 1) (by omega)) (get 0 (by omega))
      have e : orient (vs.getD 0 0) (vs.getD (vs.length - 1) 0) p = - orient (vs.getD (vs.length - 1) 0) (vs.getD 0 0) p := by simp only [orient]; ring
      show orient (vs.getD 0 0) (vs.getD (vs.length - 1) 0) p ≤ 0
      rw [e]; linarith)
  have mem : ∀ k, k < vs.length → vs.getD k 0 ∈ vs := fun k hk => List.mem_of_getElem? (get k hk)
  refine triangle_hull (mem 0 (by omega)) (mem k (by omega)) (mem (k + 1) (by omega))
    (h.2 0 k (k + 1) _ _ _ (by omega) (by omega) (get 0 (by omega)) (get k (by omega)) (get (k + 1) (by omega))) f1
    (hp (k + 1) _ _ (by omega) (by simpa [prv] using get k (by omega)) (get (k + 1) (by omega))) ?_
  have e : orient (vs.getD (k + 1) 0) (vs.getD 0 0) p = - orient (vs.getD 0 0) (vs.getD (k + 1) 0) p := by simp only [orient]; ring
  rw [e]; simpa using f2

theorem hull_halfPlanes {vs : List (V2 K)} (h : ConvexCcw vs) {p : V2 K} (hp : Hull2 vs p) : InHalfPlanes vs p :=
  fun _ _ _ hj ha hb => hull2_orient (fun _ hv => h.edge_nonneg hj ha hb hv) hp

/-- a point of the polygon on the line through an edge is on the edge -/
theorem on_edge {vs : List (V2 K)} (h : ConvexCcw vs) {p : V2 K} (hp : InHalfPlanes vs p) {j : Nat} {a b : V2 K} (hj : j < vs.length)
    (ha : vs[prv vs.length j]? = some a) (hb : vs[j]? = some b) (h0 : orient a b p = 0) : OnSeg a b p := by
  have h3 := h.1
  have hi : prv vs.length j < vs.length := prv_lt hj
  -- successor of b and predecessor of a
  obtain ⟨s, hs, hsj⟩ : ∃ s, s < vs.length ∧ prv vs.length s = j := by
    by_cases hl : j = vs.length - 1
    · exact ⟨0, by omega, by simp [prv, hl]⟩
    · exact ⟨j + 1, by omega, by simp [prv]⟩
  have hsne : s ≠ prv vs.length j := by unfold prv at *; split at hsj <;> split <;> omega
  have hsj' : s ≠ j := by unfold prv at hsj; split at hsj <;> omega
  obtain ⟨c, hc⟩ : ∃ c, vs[s]? = some c := ⟨_, List.getElem?_eq_getElem hs⟩
  obtain ⟨d, hd⟩ : ∃ d, vs[prv vs.length (prv vs.length j)]? = some d := ⟨_, List.getElem?_eq_getElem (prv_lt hi)⟩
  have hdne : prv vs.length (prv vs.length j) ≠ j := by unfold prv; split <;> split <;> omega
  have hij : prv vs.length j ≠ j := by unfold prv; split <;> omega
  have p1 : 0 ≤ orient b c p := hp s b c hs (by rw [hsj]; exact hb) hc
  have p2 : 0 ≤ orient d a p := hp _ d a hi hd ha
  have q1 : 0 < orient b c a := h.edge hs hsne.symm (by rw [hsj]; exact hij) (by rw [hsj]; exact hb) hc ha
  have q2 : 0 < orient d a b := h.edge hi hij.symm hdne.symm hd ha hb
  -- p = a + (b - a) u
  have hab : a ≠ b := by
    rintro rfl; rw [orient_self_right] at q2; exact absurd q2 (lt_irrefl _)
  have hpos : 0 < (b - a).dot (b - a) := by
    have : (b - a).x ≠ 0 ∨ (b - a).y ≠ 0 := by
      by_contra hcon; push Not at hcon
      apply hab; ext
      · have := hcon.1; simp only [V2.sub_x] at this; linarith
      · have := hcon.2; simp only [V2.sub_y] at this; linarith
    simp only [V2.dot]
    rcases this with h | h
    · have := mul_self_pos.2 h; have := mul_self_nonneg (b - a).y; linarith
    · have := mul_self_pos.2 h; have := mul_self_nonneg (b - a).x; linarith
  have hpar := parallel_eq (a := p - a) (r := b - a) hpos (by
    simp only [V2.perpDot, V2.sub_x, V2.sub_y]; simp only [orient] at h0; linear_combination -h0)
  set u := (p - a).dot (b - a) / (b - a).dot (b - a) with hu
  have hpe : p = a + (b - a) * u := by
    ext
    · have := congrArg V2.x hpar; simp at this ⊢; linarith
    · have := congrArg V2.y hpar; simp at this ⊢; linarith
  clear_value u
  rw [hpe, orient_seg, orient_self_left] at p1
  rw [hpe, orient_seg, orient_self_right] at p2
  refine ⟨u, ?_, ?_, hpe⟩
  · by_contra hn; push Not at hn
    have := mul_neg_of_neg_of_pos hn q2; linarith
  · by_contra hn; push Not at hn
    have := mul_neg_of_neg_of_pos (sub_neg.2 hn) q1; linarith

/-! ## The ray loop -/

theorem edgeHit_eq {vs : List (V2 K)} (r : Ray2 K) {j : Nat} {a b : V2 K} (ha : vs[prv vs.length j]? = some a) (hb : vs[j]? = some b) :
    Polygon.edgeHit vs r j = .ok (if r.direction.dot ⟨b.y - a.y, a.x - b.x⟩ < 0 then r.intersectionLine ⟨a, b⟩ else none) := by
  unfold prv at ha
  simp only [Polygon.edgeHit, hb, ha, Res.ofOption_some, Res.bind_ok, Res.pure_eq]
  split <;> rfl

theorem edgeHit_ok (vs : List (V2 K)) (r : Ray2 K) {j : Nat} (hj : j < vs.length) :
    ∃ a b, vs[prv vs.length j]? = some a ∧ vs[j]? = some b ∧
      Polygon.edgeHit vs r j = .ok (if r.direction.dot ⟨b.y - a.y, a.x - b.x⟩ < 0 then r.intersectionLine ⟨a, b⟩ else none) := by
  have ha : vs[prv vs.length j]? = some _ := List.getElem?_eq_getElem (prv_lt hj)
  have hb : vs[j]? = some _ := List.getElem?_eq_getElem hj
  exact ⟨_, _, ha, hb, edgeHit_eq r ha hb⟩

theorem rayLoop_spec (vs : List (V2 K)) (r : Ray2 K) (js : List Nat) (hjs : ∀ j ∈ js, j < vs.length) :
    ∃ o, Polygon.rayLoop vs r js = .ok o ∧ Polygon.rayLoopB vs r js = .ok o.isSome ∧
      (∀ p, o = some p → ∃ j ∈ js, Polygon.edgeHit vs r j = .ok (some p)) ∧
      (o = none → ∀ j ∈ js, Polygon.edgeHit vs r j = .ok none) := by
  induction js with
  | nil => exact ⟨none, rfl, rfl, by simp, by simp⟩
  | cons j js ih =>
    obtain ⟨a, b, -, -, he⟩ := edgeHit_ok vs r (hjs j (by simp))
    obtain ⟨o, h1, h2, h3, h4⟩ := ih fun k hk => hjs k (by simp [hk])
    simp only [Polygon.rayLoop, Polygon.rayLoopB]
    generalize (if r.direction.dot ⟨b.y - a.y, a.x - b.x⟩ < 0 then r.intersectionLine ⟨a, b⟩ else none) = x at he
    rw [he]
    cases x with
    | some p => exact ⟨some p, rfl, rfl, fun q hq => ⟨j, by simp, by rw [he]; cases hq; rfl⟩, by simp⟩
    | none =>
      refine ⟨o, by simpa using h1, by simpa using h2, ?_, ?_⟩
      · intro p hp; obtain ⟨k, hk, e⟩ := h3 p hp; exact ⟨k, by simp [hk], e⟩
      · intro ho k hk
        rcases List.mem_cons.1 hk with rfl | hk
        · exact he
        · exact h4 ho k hk

theorem orient_ray (a b : V2 K) (r : Ray2 K) (t u : K) :
    orient a b (r.at u) = orient a b (r.at t) - (u - t) * r.direction.dot ⟨b.y - a.y, a.x - b.x⟩ := by
  simp only [orient, Ray2.at, V2.dot, V2.add_x, V2.add_y, V2.mul_x, V2.mul_y]; ring

/-- Specification: `t` is the smallest parameter at which the ray is in the polygon. -/
def FirstIn (S : V2 K → Prop) (r : Ray2 K) (t : K) : Prop := 0 ≤ t ∧ S (r.at t) ∧ ∀ u, 0 ≤ u → S (r.at u) → t ≤ u

theorem hull_of_onSeg {vs : List (V2 K)} {a b p : V2 K} (ha : a ∈ vs) (hb : b ∈ vs) (h : OnSeg a b p) : Hull2 vs p := by
  obtain ⟨u, h0, h1, rfl⟩ := h
  exact .seg (.vertex ha) (.vertex hb) h0 h1

theorem edgeHit_first {vs : List (V2 K)} (h : ConvexCcw vs) (r : Ray2 K) (hd : r.direction ≠ 0) {j : Nat} {a b : V2 K} (hj : j < vs.length)
    (ha : vs[prv vs.length j]? = some a) (hb : vs[j]? = some b) {p : V2 K} (he : Polygon.edgeHit vs r j = .ok (some p)) :
    ∃ t, p = r.at t ∧ FirstIn (Hull2 vs) r t ∧ OnSeg a b p := by
  rw [edgeHit_eq r ha hb] at he
  split at he
  · next hneg =>
    simp only [Res.ok.injEq] at he
    obtain ⟨t, rfl, ⟨t0, u, u0, u1, e⟩, -⟩ := (c44_ray_segment r ⟨a, b⟩ hd).2 p he
    have hseg : OnSeg a b (r.at t) := ⟨u, u0, u1, e⟩
    refine ⟨t, rfl, ⟨t0, hull_of_onSeg (List.mem_of_getElem? ha) (List.mem_of_getElem? hb) hseg, ?_⟩, hseg⟩
    intro w w0 hw
    have h1 := hull_halfPlanes h hw j a b hj ha hb
    rw [orient_ray a b r t w, onSeg_orient hseg] at h1
    by_contra hc; push Not at hc
    have := mul_pos_of_neg_of_neg (sub_neg.2 hc) hneg
    linarith
  · simp at he

/-- a small step back along the ray stays in finitely many half-planes that are either strict or not left by the step -/
theorem step_back (r : Ray2 K) (t : K) (ht : 0 < t) (l : List (V2 K × V2 K))
    (h : ∀ e ∈ l, 0 ≤ orient e.1 e.2 (r.at t) ∧ (orient e.1 e.2 (r.at t) = 0 → 0 ≤ r.direction.dot ⟨e.2.y - e.1.y, e.1.x - e.2.x⟩)) :
    ∃ s, 0 ≤ s ∧ s < t ∧ ∀ e ∈ l, ∀ w, s ≤ w → w ≤ t → 0 ≤ orient e.1 e.2 (r.at w) := by
  induction l with
  | nil => exact ⟨0, le_rfl, ht, by simp⟩
  | cons e l ih =>
    obtain ⟨s, s0, s1, hs⟩ := ih fun e' he' => h e' (by simp [he'])
    obtain ⟨e1, e2⟩ := h e (by simp)
    set D := r.direction.dot ⟨e.2.y - e.1.y, e.1.x - e.2.x⟩ with hD
    by_cases hz : 0 ≤ D
    · refine ⟨s, s0, s1, ?_⟩
      intro e' he' w w0 w1
      rcases List.mem_cons.1 he' with rfl | he'
      · rw [orient_ray _ _ r t w, ← hD]
        have := mul_nonneg (sub_nonneg.2 w1) hz
        linarith
      · exact hs e' he' w w0 w1
    · push Not at hz
      have hpos : 0 < orient e.1 e.2 (r.at t) := lt_of_le_of_ne e1 fun he => absurd (e2 he.symm) (not_le.2 hz)
      set O := orient e.1 e.2 (r.at t) with hO
      refine ⟨max s (t - O / (-D)), le_max_of_le_left s0, max_lt s1 (by have := div_pos hpos (neg_pos.2 hz); linarith), ?_⟩
      intro e' he' w w0 w1
      rcases List.mem_cons.1 he' with rfl | he'
      · rw [orient_ray _ _ r t w, ← hD, ← hO]
        have h2 : t - w ≤ O / (-D) := by have := le_max_right s (t - O / (-D)); linarith
        rw [le_div_iff₀ (neg_pos.2 hz)] at h2
        linarith
      · exact hs e' he' w ((le_max_left _ _).trans w0) w1

/-- the entry point of a ray that starts outside lies on a front-facing edge -/
theorem entry_edge {vs : List (V2 K)} (h : ConvexCcw vs) (r : Ray2 K) {t : K} (hf : FirstIn (Hull2 vs) r t) (ho : ¬ Hull2 vs r.origin) :
    ∃ j a b, j < vs.length ∧ vs[prv vs.length j]? = some a ∧ vs[j]? = some b ∧ OnSeg a b (r.at t) ∧ r.direction.dot ⟨b.y - a.y, a.x - b.x⟩ < 0 := by
  obtain ⟨t0, hin, hmin⟩ := hf
  have htpos : 0 < t := lt_of_le_of_ne t0 fun e => by
    apply ho; rw [← e] at hin
    have : r.at 0 = r.origin := by ext <;> simp [Ray2.at]
    rwa [this] at hin
  have hhp := hull_halfPlanes h hin
  by_contra hcon
  push Not at hcon
  let l := (List.range vs.length).map fun j => (vs.getD (prv vs.length j) 0, vs.getD j 0)
  have get : ∀ k, k < vs.length → vs[k]? = some (vs.getD k 0) := by
    intro k hk; rw [List.getElem?_eq_getElem hk, List.getD_eq_getElem?_getD, List.getElem?_eq_getElem hk]; rfl
  obtain ⟨s, s0, s1, hs⟩ := step_back r t htpos l (by
    intro e he
    obtain ⟨j, hj, rfl⟩ := List.mem_map.1 he
    rw [List.mem_range] at hj
    have ha := get _ (prv_lt hj)
    have hb := get _ hj
    refine ⟨hhp j _ _ hj ha hb, fun hz => ?_⟩
    exact hcon j _ _ hj ha hb (on_edge h hhp hj ha hb hz))
  have : Hull2 vs (r.at s) := by
    apply halfPlanes_hull h
    intro j a b hj ha hb
    have := hs (vs.getD (prv vs.length j) 0, vs.getD j 0) (List.mem_map.2 ⟨j, List.mem_range.2 hj, rfl⟩) s le_rfl s1.le
    rw [get _ (prv_lt hj)] at ha
    rw [get _ hj] at hb
    cases ha; cases hb
    exact this
  exact absurd (hmin s s0 this) (not_le.2 s1)

theorem FirstIn.unique {S : V2 K → Prop} {r : Ray2 K} {t u : K} (h1 : FirstIn S r t) (h2 : FirstIn S r u) : t = u :=
  le_antisymm (h1.2.2 u h2.1 h2.2.1) (h2.2.2 t h1.1 h1.2.1)

/-- C49, the part that holds: the tests do not panic and agree with each other; a reported point is the entry point of the ray into the polygon;
and for a ray that starts outside the polygon the entry point is found unless it lies on the edge between the last two vertices.
Missing: that last edge, which the code never tests (`c49_last_edge_missed`). -/
theorem c49_ray_polygon_partial (vs : List (V2 K)) (h : ConvexCcw vs) (r : Ray2 K) (hd : r.direction ≠ 0) :
    ∃ o, (Polygon.new vs).intersectionRay r = .ok o ∧ (Polygon.new vs).intersectsRay r = .ok o.isSome ∧
      (∀ p, o = some p → ∃ t, p = r.at t ∧ FirstIn (Hull2 vs) r t) ∧
      (∀ t, ¬ Hull2 vs r.origin → FirstIn (Hull2 vs) r t →
        (∀ a b, vs[vs.length - 2]? = some a → vs[vs.length - 1]? = some b → ¬ OnSeg a b (r.at t)) → o = some (r.at t)) := by
  have h3 := h.1
  have hlen : (Polygon.new vs).vertices = vs := rfl
  have hne : ¬ vs.length = 0 := by omega
  simp only [Polygon.intersectionRay, Polygon.intersectsRay, hlen, hne, if_false]
  obtain ⟨o, h1, h2, hsome, hnone⟩ := rayLoop_spec vs r (List.range (vs.length - 1)) (by intro j hj; rw [List.mem_range] at hj; omega)
  have hfirst : ∀ p, o = some p → ∃ t, p = r.at t ∧ FirstIn (Hull2 vs) r t := by
    intro p hp
    obtain ⟨j, hj, he⟩ := hsome p hp
    rw [List.mem_range] at hj
    obtain ⟨a, b, ha, hb, -⟩ := edgeHit_ok vs r (show j < vs.length by omega)
    obtain ⟨t, e, hf, -⟩ := edgeHit_first h r hd (by omega) ha hb he
    exact ⟨t, e, hf⟩
  refine ⟨o, h1, h2, hfirst, ?_⟩
  intro t ho hf hlast
  cases o with
  | some p => obtain ⟨u, rfl, hu⟩ := hfirst p rfl; rw [hu.unique hf]
  | none =>
    exfalso
    obtain ⟨j, a, b, hj, ha, hb, hseg, hneg⟩ := entry_edge h r hf ho
    by_cases hl : j = vs.length - 1
    · refine hlast a b ?_ ?_ hseg
      · rw [← ha]; congr 1; unfold prv; split <;> omega
      · rw [← hb, hl]
    · have := hnone rfl j (List.mem_range.2 (by omega))
      rw [edgeHit_eq r ha hb, if_pos hneg] at this
      simp only [Res.ok.injEq] at this
      obtain ⟨u, u0, u1, e⟩ := hseg
      exact (c44_ray_segment r ⟨a, b⟩ hd).1.1 this ⟨t, hf.1, u, u0, u1, e⟩

/-- C49 fails on every polygon: a ray entering through the inside of the edge between the last two vertices is reported as a miss. -/
theorem c49_last_edge_missed (vs : List (V2 K)) (h : ConvexCcw vs) (r : Ray2 K) (hd : r.direction ≠ 0) (t : K) (hf : FirstIn (Hull2 vs) r t)
    (a b : V2 K) (ha : vs[vs.length - 2]? = some a) (hb : vs[vs.length - 1]? = some b) (u : K) (u0 : 0 < u) (u1 : u < 1)
    (hp : r.at t = a + (b - a) * u) :
    (Polygon.new vs).intersectionRay r = .ok none ∧ (Polygon.new vs).intersectsRay r = .ok false := by
  have h3 := h.1
  obtain ⟨o, h1, h2, -, -⟩ := c49_ray_polygon_partial vs h r hd
  rw [h1, h2]
  cases o with
  | none => exact ⟨rfl, rfl⟩
  | some p =>
    exfalso
    have hlen : (Polygon.new vs).vertices = vs := rfl
    have hne : ¬ vs.length = 0 := by omega
    simp only [Polygon.intersectionRay, hlen, hne, if_false] at h1
    obtain ⟨o', h1', -, hsome, -⟩ := rayLoop_spec vs r (List.range (vs.length - 1)) (by intro j hj; rw [List.mem_range] at hj; omega)
    rw [h1'] at h1
    simp only [Res.ok.injEq] at h1
    obtain ⟨j, hj, he⟩ := hsome p h1
    rw [List.mem_range] at hj
    obtain ⟨c, d, hc, hd', -⟩ := edgeHit_ok vs r (show j < vs.length by omega)
    obtain ⟨w, rfl, hw, hseg⟩ := edgeHit_first h r hd (by omega) hc hd' he
    rw [hw.unique hf, hp] at hseg
    have h0 := onSeg_orient hseg
    rw [orient_seg] at h0
    have n1 := h.edge_nonneg (show j < vs.length by omega) hc hd' (List.mem_of_getElem? ha)
    have n2 := h.edge_nonneg (show j < vs.length by omega) hc hd' (List.mem_of_getElem? hb)
    -- one of them is strictly inside
    have : 0 < orient c d a ∨ 0 < orient c d b := by
      by_cases hj0 : j = 0
      · left
        refine h.edge (show j < vs.length by omega) ?_ ?_ hc hd' ha
        · omega
        · simp only [prv, hj0, if_true]; omega
      · right
        refine h.edge (show j < vs.length by omega) ?_ ?_ hc hd' hb
        · omega
        · simp only [prv, hj0, if_false]; omega
    rcases this with hpos | hpos
    · have := mul_pos (sub_pos.2 u1) hpos
      have := mul_nonneg u0.le n2
      linarith
    · have := mul_nonneg (sub_pos.2 u1).le n1
      have := mul_pos u0 hpos
      linarith

/-- C49 as stated is false: the unit square (counter-clockwise), a ray straight down onto its top edge. -/
theorem c49_false : ∃ (vs : List (V2 ℚ)) (r : Ray2 ℚ) (t : ℚ), ConvexCcw vs ∧ r.direction ≠ 0 ∧ ¬ Hull2 vs r.origin ∧ 0 ≤ t ∧ Hull2 vs (r.at t) ∧
    (Polygon.new vs).intersectionRay r = .ok none ∧ (Polygon.new vs).intersectsRay r = .ok false := by
  refine ⟨[⟨0, 0⟩, ⟨1, 0⟩, ⟨1, 1⟩, ⟨0, 1⟩], ⟨⟨1 / 2, 2⟩, ⟨0, -1⟩⟩, 1, ⟨by decide, ?_⟩, by decide, ?_, by norm_num, ?_, by decide +kernel, by decide +kernel⟩
  · intro i j k a b c hij hjk ha hb hc
    have hk : k < 4 := (List.getElem?_eq_some_iff.1 hc).1
    have : (i = 0 ∧ j = 1 ∧ k = 2) ∨ (i = 0 ∧ j = 1 ∧ k = 3) ∨ (i = 0 ∧ j = 2 ∧ k = 3) ∨ (i = 1 ∧ j = 2 ∧ k = 3) := by omega
    rcases this with ⟨rfl, rfl, rfl⟩ | ⟨rfl, rfl, rfl⟩ | ⟨rfl, rfl, rfl⟩ | ⟨rfl, rfl, rfl⟩ <;>
      (simp at ha hb hc; subst ha hb hc; norm_num [orient])
  · intro hh
    have := hull2_le (e := ⟨0, 1⟩) (m := 1) (by intro v hv; simp at hv; rcases hv with rfl | rfl | rfl | rfl <;> norm_num [V2.dot]) hh
    norm_num [V2.dot] at this
  · have : ((⟨⟨1 / 2, 2⟩, ⟨0, -1⟩⟩ : Ray2 ℚ).at 1) = (⟨1, 1⟩ : V2 ℚ) + ((⟨0, 1⟩ : V2 ℚ) - ⟨1, 1⟩) * (1 / 2 : ℚ) := by
      ext <;> norm_num [Ray2.at]
    rw [this]
    exact .seg (.vertex (by simp)) (.vertex (by simp)) (by norm_num) (by norm_num)

/-- without vertices the ray tests panic (`len() - 1` underflows) -/
theorem c49_empty_panics (r : Ray2 K) : (Polygon.new ([] : List (V2 K))).intersectionRay r = .panic ∧ (Polygon.new ([] : List (V2 K))).intersectsRay r = .panic :=
  ⟨rfl, rfl⟩

/-- a ray that the partial theorem covers: the first three edges of the square are seen -/
example : (Polygon.new [⟨0, 0⟩, ⟨1, 0⟩, ⟨1, 1⟩, ⟨0, 1⟩] : Polygon ℚ).intersectionRay ⟨⟨-2, 1 / 2⟩, ⟨1, 0⟩⟩ = .ok (some ⟨0, 1 / 2⟩) := by decide +kernel

/-- C46, convex polygons with fewer than ten vertices (any order, convex or not): the support point is extreme in the transformed hull. -/
theorem c46_small_polygon (vs : List (V2 K)) (hv : vs ≠ []) (hn : vs.length < 10) {T : Tr (V2 K)} (hT : Similar2 T) (d : V2 K) :
    ∃ p, (Polygon.new vs).supportPoint T d = .ok p ∧ Extreme2 (Image T (Hull2 vs)) d p := by
  have : (Polygon.new vs).supportPoint T d = support (maxPoint2 vs) T d := if_pos hn
  rw [this]
  exact support_extreme2 _ _ hT d fun e _ => hull2_extreme vs hv e

end Verif.Primitive
