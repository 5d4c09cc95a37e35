import Verif.Minkowski.Epa2Shapes
import Verif.Minkowski.Epa3Shapes
import Mathlib.Data.List.Nodup
import Mathlib.Data.List.Perm.Subperm
/-!
# Full resolution answers whenever the collision test does (C86), and EPA in 2D ends by its tolerance test on polygons (C70)
-/
namespace Verif.Minkowski
open Verif Geom Primitive
set_option linter.unusedSectionVars false
noncomputable section

/-! ## An answer for every triangle of positive area -/

/-- The point found beyond an edge makes with it at least one new edge that is not in line with the origin. -/
theorem new_edge {vs : List (V2 ℝ)} {i : Nat} {e : EEdge} {p : V2 ℝ} (he : EdgeOf vs i e) (hlt : e.distance < p.dot e.normal) :
    ∃ x y, CEdge (vs.take e.index ++ p :: vs.drop e.index) x y ∧ x.perpDot y ≠ 0 := by
  obtain ⟨a, b, hab, hc, hn, hd, hda, hdb, hidx⟩ := edgeOf_iff he
  obtain ⟨α, β, hp'⟩ := basis2 hc p
  have hsum : 1 < α + β := by
    have h1 : p.dot e.normal = (α + β) * e.distance := by
      have : p.dot e.normal = α * a.dot e.normal + β * b.dot e.normal := by
        conv_lhs => rw [hp']
        simp only [V2.dot, V2.add_x, V2.add_y, V2.mul_x, V2.mul_y]; ring
      rw [this, hda, hdb]; ring
    rw [h1] at hlt
    by_contra hcon
    nlinarith
  obtain ⟨-, k2, k3, -⟩ := insert_edges (p := p) hab
  rw [hidx]
  have e1 : a.perpDot p = β * a.perpDot b := by rw [hp']; simp only [V2.perpDot, V2.add_x, V2.add_y, V2.mul_x, V2.mul_y]; ring
  have e2 : p.perpDot b = α * a.perpDot b := by rw [hp']; simp only [V2.perpDot, V2.add_x, V2.add_y, V2.mul_x, V2.mul_y]; ring
  by_cases hβ : β = 0
  · refine ⟨p, b, k3, ?_⟩
    rw [e2]
    exact mul_ne_zero (by intro h; rw [h, hβ] at hsum; norm_num at hsum) hc
  · exact ⟨a, p, k2, by rw [e1]; exact mul_ne_zero hβ hc⟩

theorem epa2Loop_answers {L R : V2 ℝ → Prop} {left right : V2 ℝ → Res (V2 ℝ)} (hl : SupportFn2 left L) (hr : SupportFn2 right R) {tolerance : ℝ} (htol : 0 < tolerance) :
    ∀ n s e, 3 ≤ s.length → (∃ i, EdgeOf (s.map SP.v) i e) → ∃ r, epa2Loop tolerance left right n s e = .ok r ∧ ∃ i, EdgeOf (r.1.map SP.v) i r.2.1 := by
  intro n
  induction n with
  | zero => intro s e _ h; exact ⟨_, rfl, h⟩
  | succ n ih =>
    rintro s e h3 ⟨i, hei⟩
    obtain ⟨a, b, hab, hc, hn, hd, hda, hdb, hidx⟩ := edgeOf_iff hei
    have hne : e.normal ≠ 0 := by
      intro h0
      rw [h0] at hn
      simp [V2.norm, V2.dot] at hn
    obtain ⟨q, hq, hqf, hqs⟩ := minkowski2 hl hr hne
    unfold epa2Loop
    rw [hq, Res.bind_ok]
    dsimp only
    split
    · exact ⟨_, rfl, i, hei⟩
    · rename_i hlt
      obtain ⟨x, y, hxy, hp⟩ := new_edge hei (p := q.v) (by linarith [not_lt.mp hlt])
      rw [← map_insert] at hxy
      have hlen : 3 ≤ (s.take e.index ++ q :: s.drop e.index).length := by
        simp only [List.length_append, List.length_take, List.length_cons, List.length_drop]
        omega
      obtain ⟨e', he'⟩ := closestEdge_total hlen hxy hp
      obtain ⟨e'', h1, h2, _⟩ := closestEdge_spec he' hlen
      cases h1
      rw [he', Res.bind_ok]
      simp only [Res.ofOption_some, Res.bind_ok]
      exact ih _ _ hlen h2

/-- EPA in 2D answers on every simplex that GJK returns. -/
theorem epa2_answers {L R : V2 ℝ → Prop} {left right : V2 ℝ → Res (V2 ℝ)} (hl : SupportFn2 left L) (hr : SupportFn2 right R) {tolerance : ℝ} (htol : 0 < tolerance) (m : Nat)
    {s : List (SP (V2 ℝ))} (h : GoodHit2 L R s) : ∃ k converged, epa2Run tolerance m left right s = .ok (some (k, converged)) := by
  obtain ⟨s0, s1, s2, rfl, -, -, -, -, -, -, -, hnd⟩ := h
  have h3 : 3 ≤ [s0, s1, s2].length := le_refl _
  obtain ⟨e, he⟩ : ∃ e, closestEdge [s0, s1, s2] = .ok (some e) := by
    rcases perp_area _ _ _ hnd with h | h | h
    · exact closestEdge_total h3 (cedge_three.mpr (Or.inl ⟨rfl, rfl⟩)) h
    · exact closestEdge_total h3 (cedge_three.mpr (Or.inr (Or.inl ⟨rfl, rfl⟩))) h
    · exact closestEdge_total h3 (cedge_three.mpr (Or.inr (Or.inr ⟨rfl, rfl⟩))) h
  obtain ⟨e', h1, h2, -⟩ := closestEdge_spec he h3
  cases h1
  obtain ⟨r, hr', i, hi⟩ := epa2Loop_answers hl hr htol m _ _ h3 h2
  obtain ⟨x, hx⟩ := epaPoint2_total hi
  refine ⟨Contact.newWithPoint .fullResolution r.2.1.normal r.2.1.distance x, r.2.2, ?_⟩
  · unfold epa2Run
    rw [he, Res.bind_ok]
    dsimp only
    rw [hr', Res.bind_ok, hx, Res.bind_ok]
    rfl

/-- C86 in 2D, any shapes: `GJK2::intersection` answers without a panic with either strategy, and full resolution returns a contact exactly when collision only does (with the same
iteration limit of GJK; any positive tolerance and any iteration limit of EPA). -/
theorem c86_2d (L R : V2 ℝ → Prop) {left right : V2 ℝ → Res (V2 ℝ)} (hl : SupportFn2 left L) (hr : SupportFn2 right R) {tolerance : ℝ} (htol : 0 < tolerance) (n m : Nat) (lp rp : V2 ℝ) :
    ∃ o f, gjkIntersection reduce2 n (epa2 tolerance m left right) .collisionOnly left right lp rp = .ok o ∧
      gjkIntersection reduce2 n (epa2 tolerance m left right) .fullResolution left right lp rp = .ok f ∧ (f.isSome ↔ o.isSome) := by
  obtain ⟨o, ho, -, hg⟩ := gjk2_run hl hr n lp rp
  unfold gjkIntersection gjkIntersect
  rw [ho, Res.bind_ok]
  cases o with
  | miss => exact ⟨none, none, rfl, rfl, Iff.rfl⟩
  | exhausted => exact ⟨none, none, rfl, rfl, Iff.rfl⟩
  | hit s =>
    obtain ⟨k, cv, hk⟩ := epa2_answers hl hr htol m (hg _ rfl)
    refine ⟨_, some k, rfl, ?_, by simp⟩
    show epa2 tolerance m left right s = _
    unfold epa2
    rw [hk, Res.bind_ok]
    rfl

/-- C86 for every pair of 2D primitives, any placements, with the tolerance and the iteration limits of the caller. -/
theorem c86_prim2 (s t : Prim2) (hs : s.Ok) (ht : t.Ok) (D E : Dec2 ℝ) (hD : D.rot.Orthogonal) (hE : E.rot.Orthogonal) (hDs : D.scale ≠ 0) (hEs : E.scale ≠ 0)
    {tolerance : ℝ} (htol : 0 < tolerance) (n m : Nat) :
    ∃ o f, gjkIntersection reduce2 n (epa2 tolerance m (s.supportPoint D.tr) (t.supportPoint E.tr)) .collisionOnly (s.supportPoint D.tr) (t.supportPoint E.tr)
        (D.tr.point 0) (E.tr.point 0) = .ok o ∧
      gjkIntersection reduce2 n (epa2 tolerance m (s.supportPoint D.tr) (t.supportPoint E.tr)) .fullResolution (s.supportPoint D.tr) (t.supportPoint E.tr)
        (D.tr.point 0) (E.tr.point 0) = .ok f ∧ (f.isSome ↔ o.isSome) :=
  c86_2d _ _ (prim2_support s hs D hD hDs) (prim2_support t ht E hE hEs) htol n m _ _

/-- The library's 2D primitives other than circles have at most nine vertices. -/
theorem prim2_verts_le (u : Prim2) (hu : u.Ok) : (Prim2.verts u).length ≤ 9 := by
  cases u with
  | particle => simp [Prim2.verts]
  | line => simp [Prim2.verts]
  | circle => simp [Prim2.verts]
  | rectangle =>
    obtain ⟨w, h, hw, hh, rfl⟩ := hu
    simp [Prim2.verts, Rectangle.new, Rectangle.newImpl, Rectangle.generateCorners]
  | square =>
    obtain ⟨w, hw, rfl⟩ := hu
    simp [Prim2.verts, Square.new, Rectangle.new, Rectangle.newImpl, Rectangle.generateCorners]
  | polygon => have := hu.2; simp only [Prim2.verts]; omega

/-- C86 with the exact answer, for primitives other than circles and the 100 iterations of the library: full resolution returns a contact only if the shapes meet, and none only if a line
separates them. -/
theorem c86_exact_prim2 (s t : Prim2) (hs : s.Ok) (ht : t.Ok) (hsc : ∀ c, s ≠ .circle c) (htc : ∀ c, t ≠ .circle c) (D E : Dec2 ℝ) (hD : D.rot.Orthogonal) (hE : E.rot.Orthogonal)
    (hDs : D.scale ≠ 0) (hEs : E.scale ≠ 0) {tolerance : ℝ} (htol : 0 < tolerance) (m : Nat) :
    ∃ f, gjkIntersection reduce2 100 (epa2 tolerance m (s.supportPoint D.tr) (t.supportPoint E.tr)) .fullResolution (s.supportPoint D.tr) (t.supportPoint E.tr)
        (D.tr.point 0) (E.tr.point 0) = .ok f ∧
      (f.isSome → ∃ p, Image D.tr s.Points p ∧ Image E.tr t.Points p) ∧ (f = none → Separated2 (Image D.tr s.Points) (Image E.tr t.Points)) := by
  obtain ⟨o, f, h1, h2, h3⟩ := c86_prim2 s t hs ht D E hD hE hDs hEs htol 100 m
  obtain ⟨q, g1, g2, g3⟩ := c65_prim2 s t hs ht hsc htc D E hD hE hDs hEs
  have hq : o.isSome ↔ q.isSome := by
    unfold gjkIntersection at h1
    rw [g1, Res.bind_ok] at h1
    cases q <;> cases h1 <;> simp
  refine ⟨f, h2, fun h => g2 (hq.1 (h3.1 h)), fun h => g3 ?_⟩
  have : ¬ q.isSome := fun hh => by have := h3.2 (hq.2 hh); rw [h] at this; cases this
  simpa using this

/-- The hypotheses of `c86_exact_prim2` are met by two rectangles, one of them turned and scaled; the answer is then a contact or a separating line. -/
example : (Prim2.rectangle (Rectangle.new 10 10)).Ok ∧ (Prim2.square (Square.new 3)).Ok ∧ (⟨2, ⟨⟨0, 1⟩, ⟨-1, 0⟩⟩, ⟨7, 1⟩⟩ : Dec2 ℝ).rot.Orthogonal :=
  ⟨⟨10, 10, by norm_num, by norm_num, rfl⟩, ⟨3, by norm_num, rfl⟩, by simp [M2.Orthogonal, V2.dot]⟩

/-! ## 3D -/

/-- `GJK3::intersection` with `FullResolution`, `src/algorithm/minkowski/gjk/mod.rs:379-409`: the simplex of GJK handed to EPA. -/
def full3 (tolerance : ℝ) (n m : Nat) (left right : V3 ℝ → Res (V3 ℝ)) (lp rp : V3 ℝ) : Res (Option Epa3Out) := do
  let o ← gjkIntersect reduce3 n left right lp rp
  match o with
  | none => return none
  | some s => epa3 tolerance m left right s

/-- C86 in 3D, any convex shapes whose support functions answer in every direction: when GJK answers (it need not, see C83), full resolution answers too, with a contact exactly when
there is a simplex, and never with NaN. -/
theorem c86_3d (L R : V3 ℝ → Prop) (hL : Convex3 L) (hR : Convex3 R) {left right : V3 ℝ → Res (V3 ℝ)} (hl : SupportFn3 left L) (hr : SupportFn3 right R)
    (hl0 : PointsOf3 left L) (hr0 : PointsOf3 right R) (tolerance : ℝ) (n m : Nat) (lp rp : V3 ℝ) :
    ∃ o f, gjkIntersect reduce3 n left right lp rp = .ok o ∧ full3 tolerance n m left right lp rp = .ok f ∧ (f.isSome ↔ o.isSome) ∧ f ≠ some .nan := by
  obtain ⟨o, h1, -⟩ := gjk3_runA hl0 hr0 n lp rp
  have h2 : gjkIntersect reduce3 n left right lp rp = .ok o.toOption := by
    unfold gjkIntersect
    rw [h1, Res.bind_ok]
    rfl
  cases o with
  | miss => exact ⟨none, none, h2, by unfold full3; rw [h2]; rfl, Iff.rfl, nofun⟩
  | exhausted => exact ⟨none, none, h2, by unfold full3; rw [h2]; rfl, Iff.rfl, nofun⟩
  | hit s =>
    obtain ⟨k, cv, e1, -⟩ := c79_3d L R hL hR hl hr hl0 hr0 tolerance n m lp rp h2
    exact ⟨some s, some (.contact k cv), h2, by unfold full3; rw [h2]; exact e1, by simp, nofun⟩

/-- C86 for 3D primitives without rounded parts. -/
theorem c86_prim3 (s t : Prim3) (hs : s.Ok) (ht : t.Ok) (hsf : Flat3 s) (htf : Flat3 t) (nz nz' : V3 ℝ → Bool) (D E : Dec3 ℝ) (hD : D.rot.Orthogonal) (hE : E.rot.Orthogonal)
    (hDs : D.scale ≠ 0) (hEs : E.scale ≠ 0) (tolerance : ℝ) (n m : Nat) :
    ∃ o f, gjkIntersect reduce3 n (s.supportPoint nz D.tr) (t.supportPoint nz' E.tr) (D.tr.point 0) (E.tr.point 0) = .ok o ∧
      full3 tolerance n m (s.supportPoint nz D.tr) (t.supportPoint nz' E.tr) (D.tr.point 0) (E.tr.point 0) = .ok f ∧ (f.isSome ↔ o.isSome) ∧ f ≠ some .nan :=
  c86_3d _ _ (image_convex3 D (prim3_convex s)) (image_convex3 E (prim3_convex t)) (prim3_support s hs nz D hD hDs) (prim3_support t ht nz' E hE hEs)
    (prim3_points s hs hsf nz D hDs) (prim3_points t ht htf nz' E hEs) tolerance n m _ _

/-! ## The expansion ends by the tolerance test -/

/-- `x` is strictly between the rays through `a` and `b`. -/
def Sector (a b x : V2 ℝ) : Prop := ∃ α β : ℝ, 0 < α ∧ 0 < β ∧ x = a * α + b * β

/-- The edges form a fan about the origin: the vertices are distinct, no vertex is strictly within the sector of an edge, and sectors of different edges do not overlap. -/
structure Fan (vs : List (V2 ℝ)) : Prop where
  nodup : vs.Nodup
  free : ∀ a b v, CEdge vs a b → v ∈ vs → ¬ Sector a b v
  disj : ∀ a b c d x, CEdge vs a b → CEdge vs c d → Sector a b x → Sector c d x → a = c ∧ b = d

theorem cedge_next {α : Type} {vs : List α} (hn : vs.Nodup) {a b c : α} (h1 : CEdge vs a b) (h2 : CEdge vs a c) : b = c := by
  obtain ⟨i, hi, hi'⟩ := h1
  obtain ⟨j, hj, hj'⟩ := h2
  have hil : i < vs.length := by
    by_contra hc
    rw [List.getElem?_eq_none (by omega)] at hi
    cases hi
  have : i = j := (List.getElem?_inj hil hn).1 (hi.trans hj.symm)
  subst this
  exact Option.some.inj (hi'.symm.trans hj')

theorem sector_left {a b p x : V2 ℝ} (hp : Sector a b p) (hx : Sector a p x) : Sector a b x := by
  obtain ⟨α, β, hα, hβ, rfl⟩ := hp
  obtain ⟨γ, δ, hγ, hδ, rfl⟩ := hx
  refine ⟨γ + α * δ, β * δ, by positivity, by positivity, ?_⟩
  ext <;> simp <;> ring

theorem sector_right {a b p x : V2 ℝ} (hp : Sector a b p) (hx : Sector p b x) : Sector a b x := by
  obtain ⟨α, β, hα, hβ, rfl⟩ := hp
  obtain ⟨γ, δ, hγ, hδ, rfl⟩ := hx
  refine ⟨α * γ, β * γ + δ, by positivity, by positivity, ?_⟩
  ext <;> simp <;> ring

theorem sector_first {a b : V2 ℝ} (h : a.perpDot b ≠ 0) : ¬ Sector a b a ∧ ¬ Sector a b b := by
  constructor
  · rintro ⟨α, β, -, hβ, e⟩
    have : a.perpDot a = β * a.perpDot b := by conv_lhs => arg 2; rw [e]
                                               simp only [V2.perpDot, V2.add_x, V2.add_y, V2.mul_x, V2.mul_y]; ring
    have h0 : a.perpDot a = 0 := by simp only [V2.perpDot]; ring
    rw [h0] at this
    exact (mul_ne_zero hβ.ne' h) this.symm
  · rintro ⟨α, β, hα, -, e⟩
    have : b.perpDot b = α * a.perpDot b := by conv_lhs => arg 1; rw [e]
                                               simp only [V2.perpDot, V2.add_x, V2.add_y, V2.mul_x, V2.mul_y]; ring
    have h0 : b.perpDot b = 0 := by simp only [V2.perpDot]; ring
    rw [h0] at this
    exact (mul_ne_zero hα.ne' h) this.symm

theorem sector_split {a b p x : V2 ℝ} (h : a.perpDot b ≠ 0) (hp : Sector a b p) (h1 : Sector a p x) (h2 : Sector p b x) : False := by
  obtain ⟨α, β, hα, hβ, e⟩ := hp
  obtain ⟨γ, δ, hγ, hδ, e1⟩ := h1
  obtain ⟨γ', δ', hγ', hδ', e2⟩ := h2
  have f1 : x.perpDot p = γ * β * a.perpDot b := by
    rw [e1, e]; simp only [V2.perpDot, V2.add_x, V2.add_y, V2.mul_x, V2.mul_y]; ring
  have f2 : x.perpDot p = -(δ' * α * a.perpDot b) := by
    rw [e2, e]; simp only [V2.perpDot, V2.add_x, V2.add_y, V2.mul_x, V2.mul_y]; ring
  have : (γ * β + δ' * α) * a.perpDot b = 0 := by linear_combination f2 - f1
  have h3 : 0 < γ * β + δ' * α := by positivity
  exact (mul_ne_zero h3.ne' h) this

/-- The point found beyond an edge of a polygon around the origin is strictly within the sector of the edge. -/
theorem around_sector {L R : V2 ℝ → Prop} {vs : List (V2 ℝ)} (h : Around L R vs) {a b : V2 ℝ} {n p : V2 ℝ} {d : ℝ} (ha : a ∈ vs) (hb : b ∈ vs) (hc : a.perpDot b ≠ 0) (hd : 0 < d)
    (hda : a.dot n = d) (hdb : b.dot n = d) (hp : Mink2 L R p) (hlt : d < p.dot n) : Sector a b p := by
  obtain ⟨α, β, hp'⟩ := basis2 hc p
  have hsum : 1 < α + β := by
    have h1 : p.dot n = (α + β) * d := by
      have : p.dot n = α * a.dot n + β * b.dot n := by
        conv_lhs => rw [hp']
        simp only [V2.dot, V2.add_x, V2.add_y, V2.mul_x, V2.mul_y]; ring
      rw [this, hda, hdb]; ring
    rw [h1] at hlt
    by_contra hcon
    nlinarith
  have hβ := around_ext h ha hp (h.mem b hb) hp' hsum
  have hα := around_ext h hb hp (h.mem a ha) (α := β) (β := α) (by rw [hp']; ext <;> simp <;> ring) (by linarith)
  exact ⟨α, β, hα, hβ, hp'⟩

theorem mem_insert {α : Type} {vs : List α} {p q : α} {k : Nat} : q ∈ vs.take k ++ p :: vs.drop k ↔ q = p ∨ q ∈ vs := by
  constructor
  · intro hq
    rcases List.mem_append.mp hq with hq | hq
    · exact Or.inr (List.mem_of_mem_take hq)
    · rcases List.mem_cons.mp hq with rfl | hq
      · exact Or.inl rfl
      · exact Or.inr (List.mem_of_mem_drop hq)
  · rintro (rfl | hq)
    · simp
    · rw [← List.take_append_drop k vs] at hq
      rcases List.mem_append.mp hq with hq | hq
      · exact List.mem_append_left _ hq
      · exact List.mem_append_right _ (List.mem_cons_of_mem _ hq)

theorem nodup_insert {α : Type} {vs : List α} {p : α} {k : Nat} (h : vs.Nodup) (hp : p ∉ vs) : (vs.take k ++ p :: vs.drop k).Nodup := by
  have : (vs.take k ++ p :: vs.drop k).Perm (p :: vs) := by
    refine List.perm_middle.trans ?_
    rw [List.take_append_drop]
  rw [this.nodup_iff]
  exact List.nodup_cons.2 ⟨hp, h⟩

theorem fan_insert {vs : List (V2 ℝ)} (hF : Fan vs) (hne : ∀ a b, CEdge vs a b → a.perpDot b ≠ 0) {i : Nat} {a b p : V2 ℝ} (hab : CEdgeAt vs i a b) (hp : Sector a b p) :
    p ∉ vs ∧ Fan (vs.take (nextIdx vs.length i) ++ p :: vs.drop (nextIdx vs.length i)) := by
  have hE : CEdge vs a b := ⟨i, hab⟩
  have hfresh : p ∉ vs := fun hm => hF.free a b p hE hm hp
  have hnd := nodup_insert (k := nextIdx vs.length i) hF.nodup hfresh
  obtain ⟨-, k2, k3, k4⟩ := insert_edges (p := p) hab
  have hcab := hne a b hE
  have hnot : ¬ CEdge (vs.take (nextIdx vs.length i) ++ p :: vs.drop (nextIdx vs.length i)) a b := by
    intro h
    have := cedge_next hnd h k2
    exact hfresh (this ▸ (cedge_mem hE).2)
  have hap : a.perpDot p ≠ 0 := by
    obtain ⟨α, β, hα, hβ, e⟩ := hp
    have : a.perpDot p = β * a.perpDot b := by rw [e]; simp only [V2.perpDot, V2.add_x, V2.add_y, V2.mul_x, V2.mul_y]; ring
    rw [this]; exact mul_ne_zero hβ.ne' hcab
  have hpb : p.perpDot b ≠ 0 := by
    obtain ⟨α, β, hα, hβ, e⟩ := hp
    have : p.perpDot b = α * a.perpDot b := by rw [e]; simp only [V2.perpDot, V2.add_x, V2.add_y, V2.mul_x, V2.mul_y]; ring
    rw [this]; exact mul_ne_zero hα.ne' hcab
  refine ⟨hfresh, hnd, ?_, ?_⟩
  · intro c d v hcd hv hs
    rcases mem_insert.mp hv with rfl | hvm
    · rcases k4 c d hcd with k | ⟨rfl, rfl⟩ | ⟨rfl, rfl⟩
      · obtain ⟨rfl, rfl⟩ := hF.disj a b c d v hE k hp hs
        exact hnot hcd
      · exact (sector_first hap).2 hs
      · exact (sector_first hpb).1 hs
    · rcases k4 c d hcd with k | ⟨rfl, rfl⟩ | ⟨rfl, rfl⟩
      · exact hF.free c d v k hvm hs
      · exact hF.free c b v hE hvm (sector_left hp hs)
      · exact hF.free a d v hE hvm (sector_right hp hs)
  · intro c d c' d' x h1 h2 s1 s2
    rcases k4 c d h1 with k | ⟨rfl, rfl⟩ | ⟨rfl, rfl⟩
    · rcases k4 c' d' h2 with k' | ⟨rfl, rfl⟩ | ⟨rfl, rfl⟩
      · exact hF.disj _ _ _ _ x k k' s1 s2
      · obtain ⟨rfl, rfl⟩ := hF.disj _ _ _ _ x hE k (sector_left hp s2) s1
        exact absurd h1 hnot
      · obtain ⟨rfl, rfl⟩ := hF.disj _ _ _ _ x hE k (sector_right hp s2) s1
        exact absurd h1 hnot
    · rcases k4 c' d' h2 with k' | ⟨rfl, rfl⟩ | ⟨rfl, rfl⟩
      · obtain ⟨rfl, rfl⟩ := hF.disj _ _ _ _ x hE k' (sector_left hp s1) s2
        exact absurd h2 hnot
      · exact ⟨rfl, rfl⟩
      · exact (sector_split hcab hp s1 s2).elim
    · rcases k4 c' d' h2 with k' | ⟨rfl, rfl⟩ | ⟨rfl, rfl⟩
      · obtain ⟨rfl, rfl⟩ := hF.disj _ _ _ _ x hE k' (sector_right hp s1) s2
        exact absurd h2 hnot
      · exact (sector_split hcab hp s2 s1).elim
      · exact ⟨rfl, rfl⟩

theorem tri_out {a b c : V2 ℝ} {u v w : ℝ} (hu : 0 < u) (hw : 0 < w) (e : a * u + b * v + c * w = 0) (h : a.perpDot b ≠ 0) : ¬ Sector a b c := by
  rintro ⟨α, β, hα, hβ, rfl⟩
  have : (u + α * w) * a.perpDot b = (a * u + b * v + (a * α + b * β) * w).perpDot b := by
    simp only [V2.perpDot, V2.add_x, V2.add_y, V2.mul_x, V2.mul_y]; ring
  rw [e] at this
  have h0 : (0 : V2 ℝ).perpDot b = 0 := by simp [V2.perpDot]
  rw [h0] at this
  have h1 : 0 < u + α * w := by positivity
  exact mul_ne_zero h1.ne' h this

theorem tri_disj {a b c x : V2 ℝ} {u v w : ℝ} (hu : 0 < u) (hw : 0 < w) (e : a * u + b * v + c * w = 0) (h : a.perpDot b ≠ 0)
    (h1 : Sector a b x) (h2 : Sector b c x) : False := by
  obtain ⟨α, β, hα, hβ, e1⟩ := h1
  obtain ⟨γ, δ, hγ, hδ, e2⟩ := h2
  have ex := congrArg V2.x e
  have ey := congrArg V2.y e
  have fx := congrArg V2.x (e1.symm.trans e2)
  have fy := congrArg V2.y (e1.symm.trans e2)
  simp only [V2.add_x, V2.add_y, V2.mul_x, V2.mul_y, V2.zero_x, V2.zero_y] at ex ey fx fy
  have : (α * w + δ * u) * a.perpDot b = 0 := by
    simp only [V2.perpDot]
    linear_combination b.y * (w * fx + δ * ex) - b.x * (w * fy + δ * ey)
  have h3 : 0 < α * w + δ * u := by positivity
  exact mul_ne_zero h3.ne' h this

/-- The triangle from GJK, with the origin strictly inside, is a fan. -/
theorem fan_triangle {a b c : V2 ℝ} (h : InTriangle a b c) (h1 : a.perpDot b ≠ 0) (h2 : b.perpDot c ≠ 0) (h3 : c.perpDot a ≠ 0) : Fan [a, b, c] := by
  obtain ⟨u, v, w, hu, hv, hw, hs, e⟩ := h
  have ex := congrArg V2.x e
  have ey := congrArg V2.y e
  simp only [V2.add_x, V2.add_y, V2.mul_x, V2.mul_y, V2.zero_x, V2.zero_y] at ex ey
  have r1 : u * a.perpDot b = w * b.perpDot c := by simp only [V2.perpDot]; linear_combination b.y * ex - b.x * ey
  have r2 : v * b.perpDot c = u * c.perpDot a := by simp only [V2.perpDot]; linear_combination c.y * ex - c.x * ey
  have r3 : w * c.perpDot a = v * a.perpDot b := by simp only [V2.perpDot]; linear_combination a.y * ex - a.x * ey
  have pos : 0 < u ∧ 0 < v ∧ 0 < w := by
    have key : ∀ {x y p q : ℝ}, x * p = y * q → q ≠ 0 → x = 0 → y = 0 := by
      intro x y p q h hq hx
      rw [hx, zero_mul] at h
      exact (mul_eq_zero.mp h.symm).resolve_right hq
    refine ⟨lt_of_le_of_ne hu ?_, lt_of_le_of_ne hv ?_, lt_of_le_of_ne hw ?_⟩
    · intro h0
      have a1 := key r1 h2 h0.symm
      have a2 := key r3 h1 a1
      rw [← h0, a1, a2] at hs; norm_num at hs
    · intro h0
      have a1 := key r2 h3 h0.symm
      have a2 := key r1 h2 a1
      rw [← h0, a1, a2] at hs; norm_num at hs
    · intro h0
      have a1 := key r3 h1 h0.symm
      have a2 := key r2 h3 a1
      rw [← h0, a1, a2] at hs; norm_num at hs
  obtain ⟨hu, hv, hw⟩ := pos
  have e' : b * v + c * w + a * u = 0 := by rw [← e]; ext <;> simp <;> ring
  have e'' : c * w + a * u + b * v = 0 := by rw [← e]; ext <;> simp <;> ring
  have self : ∀ x : V2 ℝ, x.perpDot x = 0 := by intro x; simp only [V2.perpDot]; ring
  refine ⟨?_, ?_, ?_⟩
  · simp only [List.nodup_cons, List.mem_cons, List.not_mem_nil, or_false, not_or, List.nodup_nil, and_true, not_false_eq_true]
    refine ⟨⟨?_, ?_⟩, ?_⟩ <;> rintro rfl
    · exact h1 (self _)
    · exact h3 (self _)
    · exact h2 (self _)
  · intro x y z hxy hz
    simp only [List.mem_cons, List.not_mem_nil, or_false] at hz
    rcases cedge_three.mp hxy with ⟨rfl, rfl⟩ | ⟨rfl, rfl⟩ | ⟨rfl, rfl⟩ <;> rcases hz with rfl | rfl | rfl
    · exact (sector_first h1).1
    · exact (sector_first h1).2
    · exact tri_out hu hw e h1
    · exact tri_out hv hu e' h2
    · exact (sector_first h2).1
    · exact (sector_first h2).2
    · exact (sector_first h3).2
    · exact tri_out hw hv e'' h3
    · exact (sector_first h3).1
  · intro x y z t q hxy hzt s1 s2
    rcases cedge_three.mp hxy with ⟨rfl, rfl⟩ | ⟨rfl, rfl⟩ | ⟨rfl, rfl⟩ <;> rcases cedge_three.mp hzt with ⟨rfl, rfl⟩ | ⟨rfl, rfl⟩ | ⟨rfl, rfl⟩
    · exact ⟨rfl, rfl⟩
    · exact (tri_disj hu hw e h1 s1 s2).elim
    · exact (tri_disj hw hv e'' h3 s2 s1).elim
    · exact (tri_disj hu hw e h1 s2 s1).elim
    · exact ⟨rfl, rfl⟩
    · exact (tri_disj hv hu e' h2 s1 s2).elim
    · exact (tri_disj hw hv e'' h3 s1 s2).elim
    · exact (tri_disj hv hu e' h2 s2 s1).elim
    · exact ⟨rfl, rfl⟩

theorem epa2Loop_ends {L R : V2 ℝ → Prop} {left right : V2 ℝ → Res (V2 ℝ)} (hl : SupportFn2 left L) (hr : SupportFn2 right R) {tolerance : ℝ} (htol : 0 < tolerance) {W : List (V2 ℝ)}
    (hW : ∀ d p, SP.fromMinkowski left right d = .ok p → p.v ∈ W) :
    ∀ n s e r, 3 ≤ s.length → Around L R (s.map SP.v) → Fan (s.map SP.v) → (∀ p ∈ s, p.v ∈ W) → W.length < s.length + n → (∃ i, EdgeOf (s.map SP.v) i e) →
      epa2Loop tolerance left right n s e = .ok r → r.2.2 = true := by
  intro n
  induction n with
  | zero =>
    intro s e r _ _ hF hm hlen _ _
    have := (List.subperm_of_subset hF.nodup (l₂ := W) (by
      intro v hv
      obtain ⟨p, hp, rfl⟩ := List.mem_map.1 hv
      exact hm p hp)).length_le
    rw [List.length_map] at this
    omega
  | succ n ih =>
    rintro s e r h3 hA hF hm hlen ⟨i, hei⟩ h
    obtain ⟨a, b, hab, hc, hn, hd, hda, hdb, hidx⟩ := edgeOf_iff hei
    have hne : e.normal ≠ 0 := by
      intro h0
      rw [h0] at hn
      simp [V2.norm, V2.dot] at hn
    obtain ⟨q, hq, hqf, hqs⟩ := minkowski2 hl hr hne
    unfold epa2Loop at h
    rw [hq, Res.bind_ok] at h
    dsimp only at h
    split at h
    · cases h; rfl
    · rename_i hlt
      have hlt' : e.distance < q.v.dot e.normal := by linarith [not_lt.mp hlt]
      obtain ⟨ham, hbm⟩ := cedge_mem ⟨i, hab⟩
      have hsec := around_sector hA ham hbm hc hd hda hdb hqf.mink hlt'
      obtain ⟨hfresh, hF'⟩ := fan_insert hF hA.ne hab hsec
      rw [← hidx] at hF'
      have hA' : Around L R ((s.take e.index ++ q :: s.drop e.index).map SP.v) := by
        rw [map_insert]
        exact around_insert hA hei hqf.mink hqs hlt'
      rw [← map_insert] at hF'
      have hlen1 : (s.take e.index ++ q :: s.drop e.index).length = s.length + 1 := by
        simp only [List.length_append, List.length_take, List.length_cons, List.length_drop]
        omega
      rw [Res.bind_eq_ok] at h
      obtain ⟨o, ho, h⟩ := h
      obtain ⟨e', rfl, he', -⟩ := closestEdge_spec ho (by omega)
      rw [Res.ofOption_some, Res.bind_ok] at h
      refine ih _ _ _ (by omega) hA' hF' ?_ (by omega) he' h
      intro p hp
      rcases mem_insert.mp hp with rfl | hp
      · exact hW _ _ hq
      · exact hm p hp

theorem reduce2_mem (s : List (SP (V2 ℝ))) (v : V2 ℝ) : ∀ p ∈ (reduce2 s v).2.1, p ∈ s := by
  intro p hp
  unfold reduce2 at hp
  split at hp
  · dsimp only at hp
    split at hp
    · simp at hp ⊢; tauto
    · split at hp
      · simp at hp ⊢; tauto
      · exact hp
  · exact hp
  · exact hp

theorem gjkLoop2_mem {left right : V2 ℝ → Res (V2 ℝ)} {Q : SP (V2 ℝ) → Prop} (hQ : ∀ d p, SP.fromMinkowski left right d = .ok p → Q p) :
    ∀ n s d x, (∀ p ∈ s, Q p) → gjkLoop reduce2 left right n s d = .ok (.hit x) → ∀ p ∈ x, Q p := by
  intro n
  induction n with
  | zero => intro s d x _ h; unfold gjkLoop at h; cases h
  | succ n ih =>
    intro s d x hs h
    unfold gjkLoop at h
    rw [Res.bind_eq_ok] at h
    obtain ⟨a, ha, h⟩ := h
    have hm : ∀ p ∈ (reduce2 (s ++ [a]) d).2.1, Q p := by
      intro p hp
      rcases List.mem_append.1 (reduce2_mem _ _ p hp) with h | h
      · exact hs p h
      · rw [List.mem_singleton.1 h]; exact hQ _ _ ha
    split at h
    · cases h
    · dsimp only at h
      split at h
      · cases h; exact hm
      · exact ih _ _ _ hm h

theorem gjkIntersect2_mem {left right : V2 ℝ → Res (V2 ℝ)} {n : Nat} {lp rp : V2 ℝ} {x : List (SP (V2 ℝ))} (h : gjkIntersect reduce2 n left right lp rp = .ok (some x)) :
    ∀ p ∈ x, ∃ d, SP.fromMinkowski left right d = .ok p := by
  unfold gjkIntersect at h
  rw [Res.bind_eq_ok] at h
  obtain ⟨o, ho, h⟩ := h
  cases o with
  | miss => cases h
  | exhausted => cases h
  | hit s =>
    cases h
    unfold gjkRun at ho
    rw [Res.bind_eq_ok] at ho
    obtain ⟨a, ha, ho⟩ := ho
    split at ho
    · cases ho
    · refine gjkLoop2_mem (fun d p hp => ⟨d, hp⟩) _ _ _ _ ?_ ho
      intro p hp
      rw [List.mem_singleton.1 hp]
      exact ⟨_, ha⟩

/-- Two polygons with `F` and `G` as vertices, no side of the triangle of GJK in line with the origin: EPA ends by the tolerance test within `|F| |G| - 2` iterations. -/
theorem epa2_ends (L R : V2 ℝ → Prop) {left right : V2 ℝ → Res (V2 ℝ)} (hl : SupportFn2 left L) (hr : SupportFn2 right R)
    {tolerance : ℝ} (htol : 0 < tolerance) {F G : List (V2 ℝ)} (hF : FiniteSupport2 left L F) (hG : FiniteSupport2 right R G) (n m : Nat) (hm : F.length * G.length ≤ m + 2) (lp rp : V2 ℝ)
    {a b c : SP (V2 ℝ)} (h : gjkIntersect reduce2 n left right lp rp = .ok (some [a, b, c])) (h01 : a.v.perpDot b.v ≠ 0) (h12 : b.v.perpDot c.v ≠ 0) (h20 : c.v.perpDot a.v ≠ 0)
    {k : Contact (V2 ℝ) ℝ} {converged : Bool} (hk : epa2Run tolerance m left right [a, b, c] = .ok (some (k, converged))) : converged = true := by
  have hW : ∀ d p, SP.fromMinkowski left right d = .ok p → p.v ∈ F.flatMap fun x => G.map fun y => x - y := by
    intro d p hp
    unfold SP.fromMinkowski at hp
    rw [Res.bind_eq_ok] at hp
    obtain ⟨x, hx, hp⟩ := hp
    rw [Res.bind_eq_ok] at hp
    obtain ⟨y, hy, hp⟩ := hp
    cases hp
    exact List.mem_flatMap.2 ⟨x, hF.2 _ _ hx, List.mem_map.2 ⟨y, hG.2 _ _ hy, rfl⟩⟩
  have hmem : ∀ p ∈ [a, b, c], p.v ∈ F.flatMap fun x => G.map fun y => x - y := by
    intro p hp
    obtain ⟨d, hd⟩ := gjkIntersect2_mem h p hp
    exact hW d p hd
  obtain ⟨s0, s1, s2, e, f0, f1, f2, hin, x0, x1, x2, -⟩ := gjkIntersect2_good hl hr h
  cases e
  have hA : Around L R ([a, b, c].map SP.v) := by
    refine around_triangle hin h01 h12 h20 ?_ ?_ <;> intro x hx <;> simp only [List.mem_cons, List.not_mem_nil, or_false] at hx <;> rcases hx with rfl | rfl | rfl
    exacts [f0.mink, f1.mink, f2.mink, x0, x1, x2]
  unfold epa2Run at hk
  rw [Res.bind_eq_ok] at hk
  obtain ⟨o, ho, hk⟩ := hk
  obtain ⟨e, rfl, he, -⟩ := closestEdge_spec ho (le_refl _)
  dsimp only at hk
  rw [Res.bind_eq_ok] at hk
  obtain ⟨r, hr', hk⟩ := hk
  rw [Res.bind_eq_ok] at hk
  obtain ⟨q, -, hk⟩ := hk
  cases hk
  refine epa2Loop_ends hl hr htol hW m _ _ _ (le_refl _) hA (fan_triangle hin h01 h12 h20) hmem ?_ he hr'
  simp only [List.length_flatMap, List.length_map, List.map_const', List.sum_replicate, smul_eq_mul, List.length_cons, List.length_nil]
  omega

/-- C70 for polygons: if no side of the triangle GJK returns is in line with the origin, EPA answers with the penetration depth up to the tolerance: no shorter translation of the right
shape separates the shapes, the translation along the normal longer by the tolerance does. -/
theorem c70_polygons_2d_partial (L R : V2 ℝ → Prop) (hL : Convex2 L) (hR : Convex2 R) {left right : V2 ℝ → Res (V2 ℝ)} (hl : SupportFn2 left L) (hr : SupportFn2 right R)
    {tolerance : ℝ} (htol : 0 < tolerance) {F G : List (V2 ℝ)} (hF : FiniteSupport2 left L F) (hG : FiniteSupport2 right R G) (n m : Nat) (hm : F.length * G.length ≤ m + 2) (lp rp : V2 ℝ)
    {a b c : SP (V2 ℝ)} (h : gjkIntersect reduce2 n left right lp rp = .ok (some [a, b, c])) (h01 : a.v.perpDot b.v ≠ 0) (h12 : b.v.perpDot c.v ≠ 0) (h20 : c.v.perpDot a.v ≠ 0) :
    ∃ k, gjkIntersection reduce2 n (epa2 tolerance m left right) .fullResolution left right lp rp = .ok (some k) ∧ k.normal.norm = 1 ∧ 0 < k.depth ∧ L k.point ∧
      (∀ z : V2 ℝ, z.norm ≤ k.depth → ∃ x y, L x ∧ R y ∧ x = y + z) ∧
      ∀ x y, L x → R y → x.dot k.normal < (y + k.normal * (k.depth + tolerance)).dot k.normal := by
  obtain ⟨k, k1, k2, k3, k4, k5, cv, k6, k7⟩ := c70_2d_partial L R hL hR hl hr htol n m lp rp h h01 h12 h20
  exact ⟨k, k1, k2, k3, k4, k5, k7 (epa2_ends L R hl hr htol hF hG n m hm lp rp h h01 h12 h20 k6)⟩

/-- C70 for 2D primitives other than circles, with the 100 iterations of the library. -/
theorem c70_polygons_prim2_partial (s t : Prim2) (hs : s.Ok) (ht : t.Ok) (hsc : ∀ c, s ≠ .circle c) (htc : ∀ c, t ≠ .circle c) (D E : Dec2 ℝ) (hD : D.rot.Orthogonal)
    (hE : E.rot.Orthogonal) (hDs : D.scale ≠ 0) (hEs : E.scale ≠ 0) {tolerance : ℝ} (htol : 0 < tolerance) (n : Nat) {a b c : SP (V2 ℝ)}
    (h : gjkIntersect reduce2 n (s.supportPoint D.tr) (t.supportPoint E.tr) (D.tr.point 0) (E.tr.point 0) = .ok (some [a, b, c]))
    (h01 : a.v.perpDot b.v ≠ 0) (h12 : b.v.perpDot c.v ≠ 0) (h20 : c.v.perpDot a.v ≠ 0) :
    ∃ k, gjkIntersection reduce2 n (epa2 tolerance 100 (s.supportPoint D.tr) (t.supportPoint E.tr)) .fullResolution (s.supportPoint D.tr) (t.supportPoint E.tr)
      (D.tr.point 0) (E.tr.point 0) = .ok (some k) ∧ k.normal.norm = 1 ∧ 0 < k.depth ∧ Image D.tr s.Points k.point ∧
      (∀ z : V2 ℝ, z.norm ≤ k.depth → ∃ x y, Image D.tr s.Points x ∧ Image E.tr t.Points y ∧ x = y + z) ∧
      ∀ x y, Image D.tr s.Points x → Image E.tr t.Points y → x.dot k.normal < (y + k.normal * (k.depth + tolerance)).dot k.normal := by
  refine c70_polygons_2d_partial _ _ (image_convex2 D (prim2_convex s)) (image_convex2 E (prim2_convex t)) (prim2_support s hs D hD hDs) (prim2_support t ht E hE hEs) htol
    (prim2_finite s hs hsc D) (prim2_finite t ht htc E) n 100 ?_ _ _ h h01 h12 h20
  have := Nat.mul_le_mul (prim2_verts_le s hs) (prim2_verts_le t ht)
  simp only [List.length_map]
  omega
end
end Verif.Minkowski
