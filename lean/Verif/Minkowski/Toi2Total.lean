import Verif.Minkowski.Toi
/-!
# Time of impact in 2D returns (C85)

The loop of `intersection_time_of_impact` has no bound on its iterations. For two shapes with finitely many support points it ends:

* a step that does not clip the ray brings the closest point nearer to the ray origin, and the closest point belongs to one of the finitely many
  pairs of support points;
* a step that clips uses a search direction perpendicular to such a pair, each of which clips at most once, or follows a clip at once, which
  happens at most once in a row (in the plane the second clip turns the search direction against the ray).
-/
namespace Verif.Minkowski
open Verif Geom Primitive
set_option linter.unusedSectionVars false
noncomputable section
open Classical

/-! ## Counting -/

theorem countP_le_of_imp {α : Type} {P Q : α → Prop} (l : List α) (h : ∀ x ∈ l, P x → Q x) : l.countP (fun x => decide (P x)) ≤ l.countP (fun x => decide (Q x)) := by
  apply List.countP_mono_left
  intro x hx hp
  simp only [decide_eq_true_eq] at hp ⊢
  exact h x hx hp

theorem countP_lt_of_imp {α : Type} {P Q : α → Prop} {l : List α} (h : ∀ x ∈ l, P x → Q x) {y : α} (hy : y ∈ l) (hq : Q y) (hp : ¬ P y) :
    l.countP (fun x => decide (P x)) < l.countP (fun x => decide (Q x)) := by
  induction l with
  | nil => cases hy
  | cons z l ih =>
    rw [List.countP_cons, List.countP_cons]
    have hz := h z List.mem_cons_self
    have hl := countP_le_of_imp l fun x hx => h x (List.mem_cons_of_mem _ hx)
    rcases List.mem_cons.1 hy with rfl | hy
    · rw [if_neg (by simpa using hp), if_pos (by simpa using hq)]
      omega
    · have := ih (fun x hx => h x (List.mem_cons_of_mem _ hx)) hy
      split <;> split <;> simp_all <;> omega

/-- The point of the segment between two points of the difference that is closest to the ray origin. -/
def pairClosest (o : V2 ℝ) (q : V2 ℝ × V2 ℝ) : V2 ℝ := (closestOnEdge2 (q.1 - o) (q.2 - o)).getD 0

/-- How many pairs have a closest point that is nearer than `v`. -/
def nearer (F : List (V2 ℝ)) (o v : V2 ℝ) : Nat := (F ×ˢ F).countP fun q => decide ((pairClosest o q).dot (pairClosest o q) < v.dot v)

/-- The normal of a pair. -/
def pairNormal (q : V2 ℝ × V2 ℝ) : V2 ℝ := ⟨-(q.1.y - q.2.y), q.1.x - q.2.x⟩

/-- The normal of the pair still clips the ray at `l`. -/
def Clips (F : List (V2 ℝ)) (ray : V2 ℝ) (l : ℝ) (q : V2 ℝ × V2 ℝ) : Prop := 0 < (pairNormal q).dot ray ∧ ∀ m ∈ F, l * (pairNormal q).dot ray < (pairNormal q).dot m

/-- How many pairs have a normal that can still clip the ray. -/
def clips (F : List (V2 ℝ)) (ray : V2 ℝ) (l : ℝ) : Nat := (F ×ˢ F).countP fun q => decide (Clips F ray l q)

theorem nearer_le (F : List (V2 ℝ)) (o v : V2 ℝ) : nearer F o v ≤ F.length * F.length := by
  have := List.countP_le_length (l := F ×ˢ F) (p := fun q => decide ((pairClosest o q).dot (pairClosest o q) < v.dot v))
  rwa [List.length_product] at this

theorem clips_le (F : List (V2 ℝ)) (ray : V2 ℝ) (l : ℝ) : clips F ray l ≤ F.length * F.length := by
  have := List.countP_le_length (l := F ×ˢ F) (p := fun q => decide (Clips F ray l q))
  rwa [List.length_product] at this

theorem nearer_lt {F : List (V2 ℝ)} {o v c x y : V2 ℝ} (hx : x + o ∈ F) (hy : y + o ∈ F) (hc : closestOnEdge2 x y = some c) (h : c.dot c < v.dot v) :
    nearer F o c < nearer F o v := by
  have e : pairClosest o (x + o, y + o) = c := by
    unfold pairClosest
    have e1 : x + o - o = x := by ext <;> simp
    have e2 : y + o - o = y := by ext <;> simp
    simp only [e1, e2, hc, Option.getD_some]
  refine countP_lt_of_imp (fun q _ hq => lt_trans hq h) (y := (x + o, y + o)) (List.pair_mem_product.2 ⟨hx, hy⟩) ?_ ?_
  · rw [e]; exact h
  · rw [e]; exact lt_irrefl _

theorem clips_mono (F : List (V2 ℝ)) (ray : V2 ℝ) {l l' : ℝ} (h : l ≤ l') : clips F ray l' ≤ clips F ray l := by
  apply countP_le_of_imp
  rintro q - ⟨h1, h2⟩
  exact ⟨h1, fun m hm => lt_of_le_of_lt (mul_le_mul_of_nonneg_right h h1.le) (h2 m hm)⟩

theorem clips_lt {F : List (V2 ℝ)} {ray : V2 ℝ} {l l' : ℝ} (h : l ≤ l') {x y : V2 ℝ} (hx : x ∈ F) (hy : y ∈ F) (h1 : Clips F ray l (x, y)) (h2 : ¬ Clips F ray l' (x, y)) :
    clips F ray l' < clips F ray l := by
  refine countP_lt_of_imp ?_ (y := (x, y)) (List.pair_mem_product.2 ⟨hx, hy⟩) h1 h2
  rintro q - ⟨h1, h2⟩
  exact ⟨h1, fun m hm => lt_of_le_of_lt (mul_le_mul_of_nonneg_right h h1.le) (h2 m hm)⟩

/-! ## One step of the simplex -/

theorem closer {v c p : V2 ℝ} (hv : 0 < v.dot v) (hp : p.dot v ≤ 0) (h1 : c.dot c ≤ v.dot c) (h2 : c.dot c ≤ p.dot c) : c.dot c < v.dot v := by
  by_contra hn
  rw [not_lt] at hn
  have h3 : (v - c).dot (v - c) ≤ 0 := by
    have : (v - c).dot (v - c) = v.dot v - 2 * v.dot c + c.dot c := by simp only [V2.dot, V2.sub_x, V2.sub_y]; ring
    linarith
  have hx : v.x = c.x := by
    simp only [V2.dot, V2.sub_x, V2.sub_y] at h3; nlinarith [mul_self_nonneg (v.x - c.x), mul_self_nonneg (v.y - c.y)]
  have hy : v.y = c.y := by
    simp only [V2.dot, V2.sub_x, V2.sub_y] at h3; nlinarith [mul_self_nonneg (v.x - c.x), mul_self_nonneg (v.y - c.y)]
  simp only [V2.dot, ← hx, ← hy] at *
  linarith

/-- The closest point of the new edge `p b` is also not beyond the vertex `c` that was dropped. -/
theorem dropped {p b c v w : V2 ℝ} {t : ℝ} (ht0 : 0 ≤ t) (ht1 : t ≤ 1) (hvt : v = b + (c - b) * t) (hd1 : v.dot v ≤ b.dot v) (hd0 : v.dot v ≤ c.dot v)
    (hv : 0 < v.dot v) (hvp : p.dot v ≤ 0) (hside : (b - p).perpDot (c - p) * (b - p).perpDot (-p) < 0) (hw : closestOnEdge2 p b = some w) (hb : p.dot b < b.dot b) :
    w.dot w ≤ c.dot w := by
  obtain ⟨hne, ⟨τ, h0, h1, hwt⟩, hwp, hwb⟩ := closestOnEdge2_spec hw
  set u := b - p with hu
  set y := c - p with hy
  have id : ∀ d : V2 ℝ, u.perpDot y * -(p.dot d) = (-p).perpDot y * u.dot d + u.perpDot (-p) * y.dot d := by
    intro d; simp only [V2.perpDot, V2.dot, V2.neg_x, V2.neg_y]; ring
  have hcw : ∀ d : V2 ℝ, c.dot d = p.dot d + y.dot d := by
    intro d; rw [hy]; simp only [V2.dot, V2.sub_x, V2.sub_y]; ring
  have hbw : ∀ d : V2 ℝ, b.dot d = p.dot d + u.dot d := by
    intro d; rw [hu]; simp only [V2.dot, V2.sub_x, V2.sub_y]; ring
  have hself : w.dot w = p.dot w + u.dot w * τ := by
    have : (p + u * τ).dot w = p.dot w + u.dot w * τ := by simp only [V2.dot, V2.add_x, V2.add_y, V2.mul_x, V2.mul_y]; ring
    rw [← this, ← hwt]
  rw [hbw] at hwb
  rw [hcw]
  generalize u.perpDot y = D at *
  generalize hP : u.perpDot (-p) = P at *
  generalize hA : (-p).perpDot y = A at *
  have hww : 0 ≤ w.dot w := by simp only [V2.dot]; nlinarith [mul_self_nonneg w.x, mul_self_nonneg w.y]
  by_cases hτ : τ = 0
  · have hwp' : w = p := by rw [hwt, hτ]; ext <;> simp
    rw [hwp'] at hwb ⊢
    by_contra hy0
    have hyp : y.dot p < 0 := by linarith
    have hup : 0 ≤ u.dot p := by linarith
    have hpp : 0 ≤ p.dot p := by rw [hwp'] at hww; exact hww
    have e := id p
    have h2 : 0 < D * P * y.dot p := mul_pos_of_neg_of_neg hside hyp
    have h3 : D * A * u.dot p < 0 := by
      have : D * A * u.dot p = -(D * D * p.dot p) - D * P * y.dot p := by linear_combination -D * e
      nlinarith [mul_nonneg (mul_self_nonneg D) hpp]
    have h4 : D * A < 0 := by
      by_contra h; nlinarith [mul_nonneg (not_lt.1 h) hup]
    have huv : 0 < u.dot v := by rw [hbw] at hd1; linarith
    have hyv : 0 < y.dot v := by rw [hcw] at hd0; linarith
    have e' := id v
    have h5 : D * D * -(p.dot v) = D * A * u.dot v + D * P * y.dot v := by linear_combination D * e'
    nlinarith [mul_nonneg (mul_self_nonneg D) (neg_nonneg.2 hvp), mul_pos_of_neg_of_neg h4 (neg_neg_of_pos huv), mul_pos_of_neg_of_neg hside (neg_neg_of_pos hyv)]
  · have hτ0 : 0 < τ := lt_of_le_of_ne h0 (Ne.symm hτ)
    have huw : u.dot w = 0 := by
      by_cases hτ1 : τ = 1
      · exfalso
        have : w = b := by rw [hwt, hτ1, hu]; ext <;> simp
        rw [this] at hwp
        linarith
      · have hτ1 : τ < 1 := lt_of_le_of_ne h1 hτ1
        have : 0 ≤ u.dot w := by nlinarith
        nlinarith
    have e := id w
    rw [huw] at e hself
    by_contra hy0
    have hyw : y.dot w < 0 := by linarith
    have h2 : D * P * (w.dot w) = -(P * P * y.dot w) := by
      have : w.dot w = p.dot w := by linarith
      rw [this]; linear_combination -P * e
    have hP0 : P ≠ 0 := by rintro rfl; simp at hside
    have h3 : 0 < P * P := mul_self_pos.2 hP0
    nlinarith [mul_pos h3 (neg_pos.2 hyw), mul_nonneg (neg_nonneg.2 hside.le) hww]

/-- What a step that does not clip does to an edge. -/
theorem edge_step {s0 s1 p : SP (V2 ℝ)} {v c : V2 ℝ} {s' : List (SP (V2 ℝ))} (hc : closestOnEdge2 s1.v s0.v = some v) (hv : 0 < v.dot v) (hvp : p.v.dot v ≤ 0)
    (h : closest2 [s0, s1, p] = .ok (some c, s')) (hs : ∀ x y, s' = [x, y] → y.v.dot x.v < x.v.dot x.v) :
    c = 0 ∨ ∃ x, (x = s0 ∨ x = s1) ∧ s' = [x, p] ∧ closestOnEdge2 p.v x.v = some c ∧ c.dot c ≤ s0.v.dot c ∧ c.dot c ≤ s1.v.dot c ∧ c.dot c ≤ v.dot c ∧ c.dot c < v.dot v := by
  obtain ⟨hne, ⟨t, ht0, ht1, hvt⟩, hd1, hd0⟩ := closestOnEdge2_spec hc
  have hcomb : ∀ d : V2 ℝ, d.dot d ≤ s1.v.dot d → d.dot d ≤ s0.v.dot d → d.dot d ≤ v.dot d := by
    intro d h1 h2
    have : v.dot d = (1 - t) * s1.v.dot d + t * s0.v.dot d := by
      rw [hvt]; simp only [V2.dot, V2.add_x, V2.add_y, V2.sub_x, V2.sub_y, V2.mul_x, V2.mul_y]; ring
    rw [this]
    nlinarith
  by_cases c1 : (tripleProduct (s0.v - p.v) (s1.v - p.v) (s1.v - p.v)).dot (-p.v) > 0
  · have e : reduce2 [s0, s1, p] 0 = (false, [s1, p], tripleProduct (s0.v - p.v) (s1.v - p.v) (s1.v - p.v)) := by
      unfold reduce2; dsimp only; rw [if_pos c1]
    unfold closest2 at h
    rw [e] at h
    have h : Res.ok (closestOnEdge2 p.v s1.v, [s1, p]) = .ok (some c, s') := h
    simp only [Res.ok.injEq, Prod.mk.injEq] at h
    obtain ⟨hw, rfl⟩ := h
    have hb := hs s1 p rfl
    have := dropped ht0 ht1 hvt hd1 hd0 hv hvp (by
      rw [abp_dot] at c1
      simp only [V2.perpDot, V2.sub_x, V2.sub_y, V2.neg_x, V2.neg_y] at c1 ⊢
      nlinarith) hw hb
    obtain ⟨-, -, g1, g2⟩ := closestOnEdge2_spec hw
    exact .inr ⟨s1, .inr rfl, rfl, hw, this, g2, hcomb c g2 this, closer hv hvp (hcomb c g2 this) g1⟩
  · by_cases c2 : (tripleProduct (s1.v - p.v) (s0.v - p.v) (s0.v - p.v)).dot (-p.v) > 0
    · have e : reduce2 [s0, s1, p] 0 = (false, [s0, p], tripleProduct (s1.v - p.v) (s0.v - p.v) (s0.v - p.v)) := by
        unfold reduce2; dsimp only; rw [if_neg c1, if_pos c2]
      unfold closest2 at h
      rw [e] at h
      have h : Res.ok (closestOnEdge2 p.v s0.v, [s0, p]) = .ok (some c, s') := h
      simp only [Res.ok.injEq, Prod.mk.injEq] at h
      obtain ⟨hw, rfl⟩ := h
      have hb := hs s0 p rfl
      have := dropped (p := p.v) (b := s0.v) (c := s1.v) (v := v) (w := c) (t := 1 - t) (by linarith) (by linarith) (by rw [hvt]; ext <;> simp <;> ring) hd0 hd1 hv hvp (by
        rw [acp_dot] at c2
        simp only [V2.perpDot, V2.sub_x, V2.sub_y, V2.neg_x, V2.neg_y] at c2 ⊢
        nlinarith) hw hb
      obtain ⟨-, -, g1, g2⟩ := closestOnEdge2_spec hw
      exact .inr ⟨s0, .inl rfl, rfl, hw, g2, this, hcomb c this g2, closer hv hvp (hcomb c this g2) g1⟩
    · left
      have e : reduce2 [s0, s1, p] 0 = (true, [s0, s1, p], 0) := by
        unfold reduce2; dsimp only; rw [if_neg c1, if_neg c2]
      unfold closest2 at h
      rw [e] at h
      have h : Res.ok (some (0 : V2 ℝ), [s0, s1, p]) = .ok (some c, s') := h
      simp only [Res.ok.injEq, Prod.mk.injEq, Option.some.injEq] at h
      exact h.1.symm

/-! ## The loop -/

/-- The states of the loop. The number is how many times the ray can be clipped by a direction that is not the normal of a pair. -/
inductive Stage (F : List (V2 ℝ)) (ray o : V2 ℝ) : Nat → List (SP (V2 ℝ)) → V2 ℝ → Prop
  /-- at the start -/
  | start {v} : v + o ∈ F → Stage F ray o 1 [] v
  /-- one point, and the search direction cannot clip the ray -/
  | one {a : SP (V2 ℝ)} : a.v + o ∈ F → (a.v.dot ray ≤ 0 ∨ ∃ m ∈ F, a.v.dot (m - o) ≤ 0) → Stage F ray o 0 [a] a.v
  | edge {s0 s1 : SP (V2 ℝ)} {v} : s0.v + o ∈ F → s1.v + o ∈ F → closestOnEdge2 s1.v s0.v = some v → s1.v.dot s0.v < s0.v.dot s0.v →
      (∃ m ∈ F, s1.v.dot (m - o) ≤ 0) → Stage F ray o 0 [s0, s1] v

/-- The number of steps left. -/
def stepsLeft (F : List (V2 ℝ)) (ray : V2 ℝ) (l : ℝ) (o v : V2 ℝ) (j : Nat) : Nat := (clips F ray l + j) * (F.length * F.length + 1) + nearer F o v

/-- After a clip along a point of the difference the next direction does not clip. -/
theorem clip_one {F : List (V2 ℝ)} {ray v z x y : V2 ℝ} {l l' t : ℝ} (hx : x + ray * l ∈ F) (hy : y + ray * l ∈ F) (ht0 : 0 ≤ t) (ht1 : t ≤ 1) (hv : v = x + (y - x) * t)
    (hz : z.dot v = 0) (hl : l ≤ l') : z.dot ray ≤ 0 ∨ ∃ m ∈ F, z.dot (m - ray * l') ≤ 0 := by
  by_cases hr : z.dot ray ≤ 0
  · exact .inl hr
  · right
    rw [not_le] at hr
    have e : ∀ w : V2 ℝ, z.dot (w + ray * l - ray * l') = z.dot w + (l - l') * z.dot ray := by
      intro w; simp only [V2.dot, V2.add_x, V2.add_y, V2.sub_x, V2.sub_y, V2.mul_x, V2.mul_y]; ring
    have h0 : (l - l') * z.dot ray ≤ 0 := mul_nonpos_of_nonpos_of_nonneg (by linarith) hr.le
    have h1 : (1 - t) * z.dot x + t * z.dot y = 0 := by
      rw [← hz, hv]; simp only [V2.dot, V2.add_x, V2.add_y, V2.sub_x, V2.sub_y, V2.mul_x, V2.mul_y]; ring
    by_cases h2 : z.dot x ≤ 0
    · exact ⟨_, hx, by rw [e]; linarith⟩
    · by_cases h3 : z.dot y ≤ 0
      · exact ⟨_, hy, by rw [e]; linarith⟩
      · exfalso
        rw [not_le] at h2 h3
        rcases eq_or_lt_of_le ht0 with h | h
        · rw [← h] at h1; linarith
        · nlinarith [mul_pos h h3, mul_nonneg (sub_nonneg.2 ht1) h2.le]

/-- A step that clips. -/
theorem clip_stage {F : List (V2 ℝ)} {ray : V2 ℝ} {l : ℝ} {j : Nat} {s : List (SP (V2 ℝ))} {v : V2 ℝ} (h : Stage F ray (ray * l) j s v) (hv : 0 < v.dot v)
    {p : SP (V2 ℝ)} (hp : p.v ∈ F) (hmin : ∀ m ∈ F, v.dot p.v ≤ v.dot m) (hvp : l * v.dot ray < v.dot p.v) (hvr : 0 < v.dot ray) :
    Stage F ray (ray * (v.dot p.v / v.dot ray)) 0 [p.subPoint (ray * (v.dot p.v / v.dot ray))] (p.subPoint (ray * (v.dot p.v / v.dot ray))).v ∧
      clips F ray (v.dot p.v / v.dot ray) < clips F ray l + j := by
  set l' := v.dot p.v / v.dot ray with hl'
  have hll : l < l' := by rw [hl', lt_div_iff₀ hvr]; exact hvp
  have hlr : l' * v.dot ray = v.dot p.v := div_mul_cancel₀ _ hvr.ne'
  clear_value l'
  have hperp : ∀ d : V2 ℝ, d.dot (p.v - ray * l') = d.dot p.v - l' * d.dot ray := by
    intro d; simp only [V2.dot, V2.sub_x, V2.sub_y, V2.mul_x, V2.mul_y]; ring
  have hback : (p.subPoint (ray * l')).v + ray * l' = p.v := by ext <;> simp [SP.subPoint]
  have hz : (p.subPoint (ray * l')).v.dot v = 0 := by
    have h1 := hperp v
    rw [hlr, sub_self] at h1
    rw [← h1]; simp only [SP.subPoint, V2.dot]; ring
  have hle := clips_mono F ray hll.le
  -- the direction cannot be `a` when a point of the difference is behind it
  have blocked : ∀ a : V2 ℝ, v = a → (∃ m ∈ F, a.dot (m - ray * l) ≤ 0) → False := by
    rintro a rfl ⟨m, hm, h⟩
    have := hmin m hm
    have e : v.dot (m - ray * l) = v.dot m - l * v.dot ray := by
      simp only [V2.dot, V2.sub_x, V2.sub_y, V2.mul_x, V2.mul_y]; ring
    linarith
  cases h with
  | start h0 => exact ⟨.one (by rw [hback]; exact hp) (clip_one h0 h0 le_rfl zero_le_one (by ext <;> simp) hz hll.le), by omega⟩
  | one h0 hno =>
    rcases hno with h | h
    · exact absurd hvr (not_lt.2 h)
    · exact (blocked _ rfl h).elim
  | edge h0 h1 hc hb hno =>
    rename_i s0 s1
    obtain ⟨hne, ⟨t, ht0, ht1, hvt⟩, hd1, hd0⟩ := closestOnEdge2_spec hc
    refine ⟨.one (by rw [hback]; exact hp) (clip_one h1 h0 ht0 ht1 hvt hz hll.le), ?_⟩
    have hself : v.dot v = s1.v.dot v + (s0.v.dot v - s1.v.dot v) * t := by
      have : (s1.v + (s0.v - s1.v) * t).dot v = s1.v.dot v + (s0.v.dot v - s1.v.dot v) * t := by
        simp only [V2.dot, V2.add_x, V2.add_y, V2.sub_x, V2.sub_y, V2.mul_x, V2.mul_y]; ring
      rw [← this, ← hvt]
    have ht0' : 0 < t := by
      refine lt_of_le_of_ne ht0 fun h => blocked s1.v ?_ hno
      rw [hvt, ← h]; ext <;> simp
    have ht1' : t < 1 := by
      refine lt_of_le_of_ne ht1 fun h => ?_
      have : v = s0.v := by rw [hvt, h]; ext <;> simp
      rw [this] at hd1
      linarith
    have hpv : (s0.v - s1.v).dot v = 0 := by
      have e : (s0.v - s1.v).dot v = s0.v.dot v - s1.v.dot v := by simp only [V2.dot, V2.sub_x, V2.sub_y]; ring
      rw [e]
      nlinarith
    -- `v` is a multiple of the normal of the pair
    have hd0 : s0.v - s1.v ≠ 0 := by
      intro h; apply hne
      have hx := congrArg V2.x h
      have hy := congrArg V2.y h
      simp at hx hy
      ext <;> linarith
    set e := s0.v - s1.v with he
    have hee := dot_self_pos2 hd0
    have hk : ∃ k : ℝ, v = (⟨-e.y, e.x⟩ : V2 ℝ) * k := by
      refine ⟨(v.y * e.x - v.x * e.y) / e.dot e, ?_⟩
      have h1 : v.x * e.dot e = -e.y * (v.y * e.x - v.x * e.y) := by
        simp only [V2.dot] at hpv ⊢; linear_combination e.x * hpv
      have h2 : v.y * e.dot e = e.x * (v.y * e.x - v.x * e.y) := by
        simp only [V2.dot] at hpv ⊢; linear_combination e.y * hpv
      ext
      · simp only [V2.mul_x]; field_simp; linarith
      · simp only [V2.mul_y]; field_simp; linarith
    obtain ⟨k, hk⟩ := hk
    have pair : ∀ (a b : V2 ℝ) (k : ℝ), a ∈ F → b ∈ F → v = pairNormal (a, b) * k → 0 < k → clips F ray l' < clips F ray l := by
      intro a b k ha hb hk hk0
      have sc : ∀ d : V2 ℝ, v.dot d = k * (pairNormal (a, b)).dot d := by
        intro d; rw [hk]; simp only [V2.dot, V2.mul_x, V2.mul_y]; ring
      refine clips_lt hll.le ha hb ⟨?_, fun m hm => ?_⟩ ?_
      · rw [sc] at hvr
        by_contra h
        nlinarith
      · have h1 := lt_of_lt_of_le hvp (hmin m hm)
        rw [sc, sc] at h1
        by_contra h
        nlinarith
      · rintro ⟨h1, h2⟩
        have h3 := h2 _ hp
        rw [sc, sc] at hlr
        have : k * (l' * (pairNormal (a, b)).dot ray) = k * (pairNormal (a, b)).dot p.v := by linarith
        have := mul_left_cancel₀ hk0.ne' this
        linarith
    have hkne : k ≠ 0 := by
      rintro rfl
      rw [hk] at hv
      simp [V2.dot] at hv
    show clips F ray l' < clips F ray l + 0
    rw [Nat.add_zero]
    rcases lt_or_gt_of_ne hkne with hneg | hpos
    · refine pair (s1.v + ray * l) (s0.v + ray * l) (-k) h1 h0 ?_ (by linarith)
      rw [hk, he]; ext <;> simp [pairNormal] <;> ring
    · refine pair (s0.v + ray * l) (s1.v + ray * l) k h0 h1 ?_ hpos
      rw [hk, he]; ext <;> simp [pairNormal]

/-- A step that adds a point. -/
theorem add_stage {F : List (V2 ℝ)} {ray o : V2 ℝ} (l : ℝ) {j : Nat} {s s' : List (SP (V2 ℝ))} {v c : V2 ℝ} {N : V2 ℝ → Prop} (h : Stage F ray o j s v)
    (hN' : Simp2 N s' c) (hv : 0 < v.dot v) {p : SP (V2 ℝ)} (hp : p.v + o ∈ F) (hvp : p.v.dot v ≤ 0) (hc : closest2 (s ++ [p]) = .ok (some c, s')) :
    c = 0 ∨ ∃ j', Stage F ray o j' s' c ∧ stepsLeft F ray l o c j' < stepsLeft F ray l o v j := by
  have hsub : ∀ a : V2 ℝ, a + o - o = a := by intro a; ext <;> simp
  cases h with
  | start h0 =>
    right
    have hc : Res.ok (some p.v, [p]) = .ok (some c, s') := hc
    simp only [Res.ok.injEq, Prod.mk.injEq, Option.some.injEq] at hc
    obtain ⟨rfl, rfl⟩ := hc
    refine ⟨0, .one hp (.inr ⟨_, h0, by rw [hsub]; exact hvp⟩), ?_⟩
    have := nearer_le F o p.v
    simp only [stepsLeft, Nat.add_mul]
    omega
  | one h0 hno =>
    rename_i a
    right
    have hc2 : Res.ok (closestOnEdge2 p.v a.v, [a, p]) = .ok (some c, s') := hc
    clear hc
    simp only [Res.ok.injEq, Prod.mk.injEq] at hc2
    obtain ⟨hc, rfl⟩ := hc2
    obtain ⟨-, -, g1, g2⟩ := closestOnEdge2_spec hc
    have hlt := closer hv hvp g2 g1
    refine ⟨0, .edge h0 hp hc (by linarith) ⟨_, h0, by rw [hsub]; exact hvp⟩, ?_⟩
    have := nearer_lt (v := a.v) hp h0 hc hlt
    simp only [stepsLeft]
    omega
  | edge h0 h1 hce hb hno =>
    rename_i s0 s1
    by_cases hc0 : c = 0
    · exact .inl hc0
    right
    have hs : ∀ x y, s' = [x, y] → y.v.dot x.v < x.v.dot x.v := by
      rintro x y rfl
      cases hN' with
      | edge w _ _ _ _ _ h => exact h
      | inside => exact absurd rfl hc0
    rcases edge_step hce hv hvp hc hs with h | ⟨x, hx, rfl, hcx, -, -, -, hlt⟩
    · exact absurd h hc0
    have hxF : x.v + o ∈ F := by rcases hx with rfl | rfl <;> assumption
    obtain ⟨-, ⟨t, ht0, ht1, hvt⟩, -, -⟩ := closestOnEdge2_spec hce
    refine ⟨0, .edge hxF hp hcx (hs _ _ rfl) ?_, ?_⟩
    · have e : (1 - t) * p.v.dot s1.v + t * p.v.dot s0.v ≤ 0 := by
        rw [hvt] at hvp
        simp only [V2.dot, V2.add_x, V2.add_y, V2.sub_x, V2.sub_y, V2.mul_x, V2.mul_y] at hvp ⊢
        linarith
      by_cases h2 : p.v.dot s1.v ≤ 0
      · exact ⟨_, h1, by rw [hsub]; exact h2⟩
      · refine ⟨_, h0, ?_⟩
        rw [hsub]
        by_contra h3
        rw [not_le] at h2 h3
        rcases eq_or_lt_of_le ht0 with h | h
        · rw [← h] at e; linarith
        · nlinarith [mul_pos h h3, mul_nonneg (sub_nonneg.2 ht1) h2.le]
    · have := nearer_lt (v := v) hp hxF hcx hlt
      simp only [stepsLeft]
      omega

/-- The loop ends. -/
theorem toiLoop_returns {F : List (V2 ℝ)} {left right : V2 ℝ → Res (V2 ℝ)} {ray : V2 ℝ} {M : V2 ℝ → Prop} (hM : Convex2 M) (hFM : ∀ m ∈ F, M m)
    (hs : ∀ v, (0:ℝ) < v.dot v → ∃ p, SP.fromMinkowski left right (-v) = .ok p ∧ p.v ∈ F ∧ ∀ m, M m → v.dot p.v ≤ v.dot m) {tolerance : ℝ} (htol : 0 ≤ tolerance) :
    ∀ fuel s (st : Impact (V2 ℝ)) j, st.rayOrigin = ray * st.lambda → Stage F ray st.rayOrigin j s st.v → Simp2 (fun m => M (m + st.rayOrigin)) s st.v →
      stepsLeft F ray st.lambda st.rayOrigin st.v j < fuel → ∃ r, toiLoop closest2 tolerance left right ray fuel s st = .ok r := by
  have hshift : ∀ o : V2 ℝ, Convex2 (fun m => M (m + o)) := by
    intro o a b t ha hb t0 t1
    have := hM _ _ t ha hb t0 t1
    convert this using 1
    ext <;> simp <;> ring
  have hback : ∀ (p : SP (V2 ℝ)) (o : V2 ℝ), (p.subPoint o).v + o = p.v := by intro p o; ext <;> simp [SP.subPoint]
  have small : ∀ fuel s (st : Impact (V2 ℝ)), st.v = 0 → ∃ r, toiLoop closest2 tolerance left right ray fuel s st = .ok r := by
    intro fuel s st h
    unfold toiLoop
    rw [if_neg]
    · exact ⟨_, rfl⟩
    · rw [h, gt_iff_lt, not_lt]
      simpa [Inner.dot, V2.dot] using htol
  intro fuel
  induction fuel with
  | zero => intro s st j _ _ _ h; omega
  | succ fuel ih =>
    intro s st j ho hst hsi hlt
    unfold toiLoop
    split
    · rename_i hv
      have hv0 : 0 < st.v.dot st.v := lt_of_le_of_lt htol hv
      obtain ⟨p, hp, hpF, hmin⟩ := hs _ hv0
      dsimp only
      rw [hp, Res.bind_ok]
      split
      · rename_i hvp
        split
        · rename_i hvr
          split
          · exact ⟨_, rfl⟩
          · rw [closest2_one, Res.bind_ok]
            simp only [Res.ofOption, Res.bind_ok]
            rw [ho] at hst
            obtain ⟨h1, h2⟩ := clip_stage hst hv0 hpF (fun m hm => hmin m (hFM m hm)) hvp hvr
            refine ih _ _ 0 rfl h1 (.one ?_) ?_
            · dsimp only
              rw [hback]; exact hFM _ hpF
            · have h3 := nearer_le F (ray * (st.v.dot p.v / st.v.dot ray)) (p.subPoint (ray * (st.v.dot p.v / st.v.dot ray))).v
              have h4 : (clips F ray (st.v.dot p.v / st.v.dot ray) + 1) * (F.length * F.length + 1) ≤ (clips F ray st.lambda + j) * (F.length * F.length + 1) :=
                Nat.mul_le_mul_right _ h2
              rw [Nat.add_mul] at h4
              simp only [stepsLeft] at hlt ⊢
              show (clips F ray (st.v.dot p.v / st.v.dot ray) + 0) * _ + nearer F (ray * (st.v.dot p.v / st.v.dot ray)) (p.subPoint (ray * (st.v.dot p.v / st.v.dot ray))).v < fuel
              rw [Nat.add_zero]
              omega
        · exact ⟨_, rfl⟩
      · rename_i hvp
        have hle : (p.subPoint st.rayOrigin).v.dot st.v ≤ 0 := by
          rw [not_lt] at hvp
          rw [ho]
          simp only [Inner.dot, V2.dot, SP.subPoint, V2.sub_x, V2.sub_y, V2.mul_x, V2.mul_y] at hvp ⊢
          linarith
        obtain ⟨c, s', hc, hi'⟩ := simp2_add (p := p.subPoint st.rayOrigin) (hshift st.rayOrigin) hsi hv0
          (by show M _; rw [hback]; exact hFM _ hpF)
          (by
            intro m hm
            have := hmin _ hm
            simp only [V2.dot, SP.subPoint, V2.add_x, V2.add_y, V2.sub_x, V2.sub_y] at this ⊢
            linarith) hle
        rw [hc, Res.bind_ok]
        simp only [Res.ofOption, Res.bind_ok]
        rcases add_stage st.lambda hst hi' hv0 (by rw [hback]; exact hpF) hle hc with rfl | ⟨j', h1, h2⟩
        · exact small _ _ _ rfl
        · exact ih _ _ j' ho h1 hi' (lt_of_lt_of_le h2 (by omega))
    · exact ⟨_, rfl⟩

/-! ## C85 -/

/-- The differences of two lists of points. -/
def differences (F G : List (V2 ℝ)) : List (V2 ℝ) := (F ×ˢ G).map fun q => q.1 - q.2

/-- C85 in 2D for shapes with finitely many support points: the number of iterations is bounded by a number that depends on the number `k` of pairs of
support points only, not on the shapes, their movements or the tolerance (which may be zero). -/
theorem c85_2d_partial (L R : V2 ℝ → Prop) (hL : Convex2 L) (hR : Convex2 R) {left right : V2 ℝ → Res (V2 ℝ)} (hl : SupportFn2 left L) (hr : SupportFn2 right R)
    (F G : List (V2 ℝ)) (hF : FiniteSupport2 left L F) (hG : FiniteSupport2 right R G) (hl0 : ∃ p, left 0 = .ok p) (hr0 : ∃ p, right 0 = .ok p)
    {tolerance : ℝ} (htol : 0 ≤ tolerance) (fuel : Nat) (hfuel : (F.length * G.length) ^ 4 + 3 * (F.length * G.length) ^ 2 + 2 ≤ fuel)
    (lStart lEnd rStart rEnd : V2 ℝ) (place : ℝ → V2 ℝ → V2 ℝ) :
    ∃ r, gjkToi closest2 V2.normalize tolerance fuel left right lStart lEnd rStart rEnd place = .ok r := by
  have hM := mink2_convex hL hR
  have hmem : ∀ d p, SP.fromMinkowski left right d = .ok p → p.v ∈ differences F G := by
    intro d p h
    unfold SP.fromMinkowski at h
    rw [Res.bind_eq_ok] at h
    obtain ⟨l, h1, h⟩ := h
    rw [Res.bind_eq_ok] at h
    obtain ⟨r, h2, h⟩ := h
    cases h
    exact List.mem_map.2 ⟨(l, r), List.pair_mem_product.2 ⟨hF.2 _ _ h1, hG.2 _ _ h2⟩, rfl⟩
  have hFM : ∀ m ∈ differences F G, Mink2 L R m := by
    intro m hm
    obtain ⟨⟨l, r⟩, hq, rfl⟩ := List.mem_map.1 hm
    obtain ⟨h1, h2⟩ := List.pair_mem_product.1 hq
    exact ⟨l, r, hF.1 _ h1, hG.1 _ h2, rfl⟩
  have hs : ∀ v : V2 ℝ, (0:ℝ) < v.dot v → ∃ p, SP.fromMinkowski left right (-v) = .ok p ∧ p.v ∈ differences F G ∧ ∀ m, Mink2 L R m → v.dot p.v ≤ v.dot m := by
    intro v hv
    obtain ⟨a, ha, h1, h2⟩ := minkowski2 hl hr (neg_ne2 (ne_of_dot2 hv))
    refine ⟨a, ha, hmem _ _ ha, fun m hm => ?_⟩
    have := h2 m hm
    simp only [V2.dot, V2.neg_x, V2.neg_y] at this ⊢
    linarith
  obtain ⟨p, hp⟩ : ∃ p, SP.fromMinkowski left right (-((rEnd - rStart) - (lEnd - lStart))) = .ok p := by
    by_cases h0 : -((rEnd - rStart) - (lEnd - lStart)) = 0
    · obtain ⟨x, hx⟩ := hl0
      obtain ⟨y, hy⟩ := hr0
      have e : -(0 : V2 ℝ) = 0 := by ext <;> simp
      rw [h0]
      unfold SP.fromMinkowski
      rw [hx, Res.bind_ok, e, hy, Res.bind_ok]
      exact ⟨_, rfl⟩
    · obtain ⟨p, hp, -⟩ := minkowski2 hl hr h0
      exact ⟨p, hp⟩
  unfold gjkToi
  dsimp only
  rw [hp, Res.bind_ok]
  set ray := (rEnd - rStart) - (lEnd - lStart) with hray
  have e0 : ∀ x : V2 ℝ, x + 0 = x := by intro x; ext <;> simp
  obtain ⟨o, ho⟩ := toiLoop_returns (ray := ray) hM hFM hs htol fuel [] ⟨0, 0, 0, p.v⟩ 1 (by ext <;> simp)
    (.start (by dsimp only; rw [e0]; exact hmem _ _ hp)) (.empty (by dsimp only; rw [e0]; exact hFM _ (hmem _ _ hp)))
    (by
      have h1 := clips_le (differences F G) ray 0
      have h2 := nearer_le (differences F G) 0 p.v
      have hlen : (differences F G).length = F.length * G.length := by rw [differences, List.length_map, List.length_product]
      rw [hlen] at h1 h2
      simp only [stepsLeft, hlen]
      set k := F.length * G.length with hk
      clear_value k
      have h3 : (clips (differences F G) ray 0 + 1) * (k * k + 1) ≤ (k * k + 1) * (k * k + 1) := Nat.mul_le_mul_right _ (by omega)
      have h4 : (k * k + 1) * (k * k + 1) = k ^ 4 + 2 * k ^ 2 + 1 := by ring
      have h5 : k * k = k ^ 2 := by ring
      omega)
  rw [ho, Res.bind_ok]
  cases o <;> exact ⟨_, rfl⟩

/-- The supports of shapes with vertices are defined in every direction. -/
theorem prim2_zero (s : Prim2) (hs : s.Ok) (hc : ∀ c, s ≠ .circle c) (D : Dec2 ℝ) (hsc : D.scale ≠ 0) (d : V2 ℝ) : ∃ p, s.supportPoint D.tr d = .ok p := by
  have h : ∀ loc : V2 ℝ → V2 ℝ, ∃ p, support loc D.tr d = .ok p := by
    intro loc
    unfold support
    have : ∃ e, D.tr.invVector d = some e := by
      simp only [Dec2.tr]
      rw [if_neg hsc]
      exact ⟨_, rfl⟩
    obtain ⟨e, he⟩ := this
    rw [he]
    exact ⟨_, rfl⟩
  cases s with
  | particle => exact ⟨_, rfl⟩
  | line l => exact h _
  | circle c => exact absurd rfl (hc c)
  | rectangle s => exact h _
  | square s => exact h _
  | polygon s =>
    have e : (Prim2.polygon s).supportPoint D.tr d = support (maxPoint2 s.vertices) D.tr d := if_pos hs.2
    rw [e]
    exact h _

/-- C85 for any two 2D primitives other than circles, any placements and movements, any tolerance. -/
theorem c85_prim2_partial (s q : Prim2) (hs : s.Ok) (hq : q.Ok) (hsc : ∀ c, s ≠ .circle c) (hqc : ∀ c, q ≠ .circle c) (D D' E E' : Dec2 ℝ) (hD : D.rot.Orthogonal)
    (hE : E.rot.Orthogonal) (hDs : D.scale ≠ 0) (hEs : E.scale ≠ 0) {tolerance : ℝ} (htol : 0 ≤ tolerance) (fuel : Nat)
    (hfuel : ((Prim2.verts s).length * (Prim2.verts q).length) ^ 4 + 3 * ((Prim2.verts s).length * (Prim2.verts q).length) ^ 2 + 2 ≤ fuel) :
    ∃ r, gjkToi closest2 V2.normalize tolerance fuel (s.supportPoint D.tr) (q.supportPoint E.tr) (D.tr.point 0) (D'.tr.point 0) (E.tr.point 0) (E'.tr.point 0)
      (fun t p => (Dec2.translationInterpolate E E' t).tr.point p) = .ok r :=
  c85_2d_partial _ _ (image_convex2 D (prim2_convex s)) (image_convex2 E (prim2_convex q)) (prim2_support s hs D hD hDs) (prim2_support q hq E hE hEs) _ _
    (prim2_finite s hs hsc D) (prim2_finite q hq hqc E) (prim2_zero s hs hsc D hDs 0) (prim2_zero q hq hqc E hEs 0) htol fuel (by simpa using hfuel) _ _ _ _ _

/-- Two squares that move towards each other. -/
example : ∃ r, gjkToi closest2 V2.normalize 0 100000 ((Prim2.square (Square.new 2)).supportPoint (at2 0).tr) ((Prim2.square (Square.new 2)).supportPoint (at2 ⟨10, 1⟩).tr)
    ((at2 0).tr.point 0) ((at2 ⟨4, 0⟩).tr.point 0) ((at2 ⟨10, 1⟩).tr.point 0) ((at2 ⟨5, 2⟩).tr.point 0) (fun t p => (Dec2.translationInterpolate (at2 ⟨10, 1⟩) (at2 ⟨5, 2⟩) t).tr.point p) = .ok r :=
  c85_prim2_partial (.square (Square.new 2)) (.square (Square.new 2)) ⟨2, by norm_num, rfl⟩ ⟨2, by norm_num, rfl⟩ nofun nofun (at2 0) (at2 ⟨4, 0⟩) (at2 ⟨10, 1⟩) (at2 ⟨5, 2⟩)
    (by simp [at2, M2.Orthogonal, V2.dot]) (by simp [at2, M2.Orthogonal, V2.dot]) (by simp [at2]) (by simp [at2]) le_rfl 100000
    (by simp [Prim2.verts, Square.new, Rectangle.new, Rectangle.newImpl, Rectangle.generateCorners])
end
end Verif.Minkowski
