import Verif.Primitive.PolyhedronWalk
import Mathlib.Algebra.Order.BigOperators.Group.List
import Mathlib.Algebra.BigOperators.Group.List.Basic
/-!
# C63: rays against convex polyhedra with faces
-/
namespace Verif.Primitive
open Verif Verif.Geom
set_option linter.unusedSectionVars false

/-- the crossing point is on the face -/
def Hit (vs : List (V3 ℝ)) (r : Ray3 ℝ) (f : Tri) : Prop :=
  Front vs r f ∧ inRange (coords vs r f).1 ∧ inRange (coords vs r f).2.1 ∧ inRange (coords vs r f).2.2

/-- visited faces -/
def Seen (fs : List Tri) (checked : Nat → Bool) (k : Tri) : Prop := ∃ i : Nat, checked i = true ∧ fs[i]? = some k

theorem Walk.mono {vs : List (V3 ℝ)} {r : Ray3 ℝ} {C C' : Tri → Prop} {f : Tri} (h : Walk vs r C f) (hc : ∀ k, C' k → C k) : Walk vs r C' f := by
  rcases h with h | ⟨y, x, z, h1, h2, h3⟩
  · exact Or.inl fun k hk => h k (hc k hk)
  · exact Or.inr ⟨y, x, z, h1, h2, fun k hk => h3 k (hc k hk)⟩

section
variable {vs : List (V3 ℝ)} {fs : List Tri} (h : ConvexSolid vs fs)
include h

theorem ConvexSolid.coords_sum {f : Tri} (hf : f ∈ fs) (r : Ray3 ℝ) : (coords vs r f).1 + (coords vs r f).2.1 + (coords vs r f).2.2 = 1 := by
  have hN := dot_self_pos (h.nf_ne hf)
  have := side_sum (P vs f.1) (P vs f.2.1) (P vs f.2.2) (r.at (time vs r f))
  rw [show nrm (P vs f.1) (P vs f.2.1) (P vs f.2.2) = nf vs f from rfl] at this
  simp only [coords]
  rw [← add_div, ← add_div, this, div_self hN.ne']

/-- the edge over which the walk leaves a face that was not hit -/
theorem ConvexSolid.exit {f : Tri} (hf : f ∈ fs) (r : Ray3 ℝ) (hn : ¬(inRange (coords vs r f).1 ∧ inRange (coords vs r f).2.1 ∧ inRange (coords vs r f).2.2)) :
    ∃ x y c, IsRot f x y c ∧ (if (coords vs r f).1 < 0 then f.2.2 else if (coords vs r f).2.1 < 0 then f.1 else f.2.1) = y ∧
      side (nf vs f) (P vs x) (P vs y) (r.at (time vs r f)) < 0 := by
  have hN := dot_self_pos (h.nf_ne hf)
  have hs := h.coords_sum hf r
  have neg : ∀ a : ℝ, a / (nf vs f).dot (nf vs f) < 0 → a < 0 := by
    intro a ha; by_contra hc; exact absurd ha (not_lt.2 (div_nonneg (not_lt.1 hc) hN.le))
  by_cases h1 : (coords vs r f).1 < 0
  · rw [if_pos h1]; exact ⟨f.2.1, f.2.2, f.1, Or.inr (Or.inr rfl), rfl, neg _ h1⟩
  · rw [if_neg h1]
    by_cases h2 : (coords vs r f).2.1 < 0
    · rw [if_pos h2]; exact ⟨f.2.2, f.1, f.2.1, Or.inr (Or.inl rfl), rfl, neg _ h2⟩
    · rw [if_neg h2]
      refine ⟨f.1, f.2.1, f.2.2, Or.inl rfl, rfl, neg _ ?_⟩
      by_contra h3
      have h3 : 0 ≤ (coords vs r f).2.2 := not_lt.1 h3
      push Not at h1 h2
      exact hn ⟨⟨h1, by linarith⟩, ⟨h2, by linarith⟩, ⟨h3, by linarith⟩⟩

theorem ConvexSolid.neighbour {f : Tri} (hf : f ∈ fs) {x y c : Nat} (hr : IsRot f x y c) : ∃ (j : Nat) (g : Tri) (z : Nat), fs[j]? = some g ∧ IsRot g y x z := by
  have := h.closed x y (List.mem_flatMap.2 ⟨f, hf, (rot_edges hr).1⟩)
  obtain ⟨g, hg, hge⟩ := List.mem_flatMap.1 this
  obtain ⟨z, hz⟩ := edge_rot hge
  obtain ⟨j, hj⟩ := List.mem_iff_getElem?.1 hg
  exact ⟨j, g, z, hj, hz⟩

/-- one step of the walk: the neighbour is new and crossed from the front -/
theorem ConvexSolid.walk_step {r : Ray3 ℝ} {u : ℝ} (hu : ∀ f ∈ fs, vf vs f (r.at u) ≤ 0) {checked : Nat → Bool} {i j : Nat} {f g : Tri} (hi : fs[i]? = some f)
    (hj : fs[j]? = some g) (ff : Front vs r f) (hw : Walk vs r (Seen fs checked) f) {x y c z : Nat} (rf : IsRot f x y c) (rg : IsRot g y x z)
    (hs : side (nf vs f) (P vs x) (P vs y) (r.at (time vs r f)) < 0) :
    Front vs r g ∧ (decide (j = i) || checked j) = false ∧ Walk vs r (Seen fs fun k => decide (k = i) || checked k) g := by
  obtain ⟨s1, s2, s3, s4⟩ := h.step hu (C := Seen fs checked) (fun k hk => by obtain ⟨i, -, e⟩ := hk; exact List.mem_of_getElem? e)
    (List.mem_of_getElem? hi) (List.mem_of_getElem? hj) ff hw rf rg hs
  refine ⟨s1, ?_, s4.mono ?_⟩
  · rw [Bool.or_eq_false_iff, decide_eq_false_iff_not]
    constructor
    · rintro rfl; rw [hi] at hj; exact s3 (Option.some.inj hj).symm
    · cases hc : checked j with
      | false => rfl
      | true => exact absurd ⟨j, hc, hj⟩ s2
  · rintro k ⟨l, hl, e⟩
    simp only [Bool.or_eq_true, decide_eq_true_eq] at hl
    rcases hl with rfl | hl
    · rw [hi] at e; exact Or.inl (Option.some.inj e).symm
    · exact Or.inr ⟨l, hl, e⟩

/-- a walk that starts at a face crossed from the front ends at a face that is hit -/
theorem ConvexSolid.exists_hit {r : Ray3 ℝ} {u : ℝ} (hu : ∀ f ∈ fs, vf vs f (r.at u) ≤ 0) : ∀ (m i : Nat) (checked : Nat → Bool) (f : Tri), fs[i]? = some f →
    checked i = false → unv fs.length checked ≤ m → Front vs r f → Walk vs r (Seen fs checked) f → ∃ (j : Nat) (g : Tri), fs[j]? = some g ∧ Hit vs r g := by
  intro m
  induction m with
  | zero =>
    intro i checked f hi hc hu
    have := unv_lt (List.getElem?_eq_some_iff.1 hi).1 hc
    omega
  | succ m ih =>
    intro i checked f hi hc hun ff hw
    by_cases hin : inRange (coords vs r f).1 ∧ inRange (coords vs r f).2.1 ∧ inRange (coords vs r f).2.2
    · exact ⟨i, f, hi, ff, hin⟩
    · have hf := List.mem_of_getElem? hi
      obtain ⟨x, y, c, rf, -, hs⟩ := h.exit hf r hin
      obtain ⟨j, g, z, hj, rg⟩ := h.neighbour hf rf
      obtain ⟨s1, s2, s3⟩ := h.walk_step hu hi hj ff hw rf rg hs
      have := unv_lt (List.getElem?_eq_some_iff.1 hi).1 hc
      exact ih j _ g hj s2 (by omega) s1 s3

theorem ConvexSolid.front_of_outside {r : Ray3 ℝ} {u : ℝ} (u0 : 0 ≤ u) (hu : ∀ f ∈ fs, vf vs f (r.at u) ≤ 0) {f : Tri} (hf : f ∈ fs) (ho : 0 < vf vs f r.origin) :
    Front vs r f := by
  refine ⟨?_, ho.le⟩
  have e := hu f hf
  unfold Ray3.at at e
  rw [vf_ray] at e
  by_contra hn
  have := mul_nonneg u0 (not_lt.1 hn)
  linarith

theorem ConvexSolid.hit_of_outside {r : Ray3 ℝ} {u : ℝ} (u0 : 0 ≤ u) (hu : ∀ f ∈ fs, vf vs f (r.at u) ≤ 0) {f : Tri} (hf : f ∈ fs) (ho : 0 < vf vs f r.origin) :
    ∃ (j : Nat) (g : Tri), fs[j]? = some g ∧ Hit vs r g := by
  obtain ⟨i, hi⟩ := List.mem_iff_getElem?.1 hf
  refine h.exists_hit hu fs.length i (fun _ => false) f hi rfl ?_ (h.front_of_outside u0 hu hf ho) (Or.inl ?_)
  · unfold unv; exact (Finset.card_filter_le _ _).trans (by simp)
  · rintro k ⟨l, hl, -⟩; cases hl

omit h in
theorem tri_hull {a b c : V3 ℝ} (ha : a ∈ vs) (hb : b ∈ vs) (hc : c ∈ vs) {s t w : ℝ} (hs : 0 ≤ s) (ht : 0 ≤ t) (hw : 0 ≤ w) (hsum : s + t + w = 1) :
    Hull3 vs (a * s + b * t + c * w) := by
  by_cases h1 : w = 1
  · have s0 : s = 0 := by linarith
    have t0 : t = 0 := by linarith
    have : a * s + b * t + c * w = c := by rw [s0, t0, h1]; ext <;> simp
    rw [this]; exact .vertex hc
  · have hw1 : 0 < 1 - w := by
      have : w ≤ 1 := by linarith
      have := lt_of_le_of_ne this h1
      linarith
    have hq : Hull3 vs (a + (b - a) * (t / (1 - w))) := .seg (.vertex ha) (.vertex hb) (div_nonneg ht hw1.le) (by rw [div_le_one hw1]; linarith)
    have := Hull3.seg hq (.vertex hc) hw (by linarith)
    have hst : s = 1 - w - t := by linarith
    convert this using 1
    subst hst
    have hne := hw1.ne'
    ext <;> simp <;> field_simp <;> ring

/-- a hit point lies on the solid, and is where the ray enters -/
theorem ConvexSolid.hit_first {r : Ray3 ℝ} {f : Tri} (hf : f ∈ fs) (hh : Hit vs r f) : r.First (Hull3 vs) (time vs r f) ∧
    P vs f.1 * (coords vs r f).1 + P vs f.2.1 * (coords vs r f).2.1 + P vs f.2.2 * (coords vs r f).2.2 = r.at (time vs r f) := by
  have hN := dot_self_pos (h.nf_ne hf)
  obtain ⟨ff, h1, h2, h3⟩ := hh
  have hp := vf_pt ff
  have hcomb : P vs f.1 * (coords vs r f).1 + P vs f.2.1 * (coords vs r f).2.1 + P vs f.2.2 * (coords vs r f).2.2 = r.at (time vs r f) := by
    have hc := bary_comb hp
    rw [show nrm (P vs f.1) (P vs f.2.1) (P vs f.2.2) = nf vs f from rfl] at hc
    have e1 := congrArg V3.x hc; have e2 := congrArg V3.y hc; have e3 := congrArg V3.z hc
    simp at e1 e2 e3
    have hne := hN.ne'
    ext <;> simp [coords] <;> field_simp <;> linarith
  refine ⟨⟨time_nonneg ff, ?_, fun u _ hu => le_time ff (h.vf_hull hf hu)⟩, hcomb⟩
  rw [← hcomb]
  obtain ⟨m1, m2, m3⟩ := h.mem hf (Or.inl rfl : IsRot f f.1 f.2.1 f.2.2)
  exact tri_hull m1 m2 m3 h1.1 h2.1 h3.1 (h.coords_sum hf r)

/-- the face normals sum to zero -/
theorem ConvexSolid.sum_zero (d : V3 ℝ) : (fs.map fun f => (nf vs f).dot d).sum = 0 := by
  let φ : Nat × Nat → ℝ := fun e => ((P vs e.1).cross (P vs e.2)).dot d
  have e1 : ∀ gs : List Tri, (gs.map fun f => (nf vs f).dot d).sum = ((gs.flatMap triEdges).map φ).sum := by
    intro gs
    induction gs with
    | nil => rfl
    | cons g gs ih =>
      rw [List.map_cons, List.sum_cons, ih, List.flatMap_cons, List.map_append, List.sum_append]
      congr 1
      simp only [triEdges, List.map_cons, List.map_nil, List.sum_cons, List.sum_nil, φ, nf, nrm]
      simp [V3.dot, V3.cross]; ring
  rw [e1]
  have hperm : ((fs.flatMap triEdges).map Prod.swap).Perm (fs.flatMap triEdges) := by
    rw [List.perm_ext_iff_of_nodup (h.oriented.map Prod.swap_injective) h.oriented]
    rintro ⟨a, b⟩
    constructor
    · intro hm
      obtain ⟨⟨x, y⟩, hxy, e⟩ := List.mem_map.1 hm
      simp only [Prod.swap_prod_mk, Prod.mk.injEq] at e
      obtain ⟨rfl, rfl⟩ := e
      exact h.closed _ _ hxy
    · intro hm
      exact List.mem_map.2 ⟨(b, a), h.closed _ _ hm, rfl⟩
  have e2 : (((fs.flatMap triEdges).map Prod.swap).map φ).sum = ((fs.flatMap triEdges).map φ).sum := (hperm.map φ).sum_eq
  have e3 : ∀ l : List (Nat × Nat), ((l.map Prod.swap).map φ).sum = -(l.map φ).sum := by
    intro l
    induction l with
    | nil => simp
    | cons a l ih =>
      simp only [List.map_cons, List.sum_cons, ih]
      have : φ a.swap = -φ a := by simp [φ, V3.dot, V3.cross]; ring
      rw [this]; ring
  rw [e3] at e2
  linarith

/-- the solid is the intersection of the half spaces behind its faces -/
theorem ConvexSolid.hull_iff (q : V3 ℝ) : Hull3 vs q ↔ ∀ f ∈ fs, vf vs f q ≤ 0 := by
  refine ⟨fun hq f hf => h.vf_hull hf hq, fun hq => ?_⟩
  obtain ⟨f0, hf0, -⟩ := h.used 0 (List.length_pos_of_ne_nil h.nonempty)
  have hN := dot_self_pos (h.nf_ne hf0)
  obtain ⟨g, hg, hgd⟩ : ∃ g ∈ fs, (nf vs g).dot (nf vs f0) < 0 := by
    by_contra hc
    push Not at hc
    have := List.single_le_sum (l := fs.map fun f => (nf vs f).dot (nf vs f0)) (by
      intro x hx; obtain ⟨f, hf, rfl⟩ := List.mem_map.1 hx; exact hc f hf) _ (List.mem_map.2 ⟨f0, hf0, rfl⟩)
    rw [h.sum_zero] at this
    linarith
  -- from both sides
  have key : ∀ (d : V3 ℝ), (∃ f ∈ fs, (nf vs f).dot d < 0) → ∃ a : ℝ, 0 ≤ a ∧ Hull3 vs (q - d * a) := by
    rintro d ⟨f, hf, hfd⟩
    have hvf := hq f hf
    let s : ℝ := (1 - vf vs f q) / -(nf vs f).dot d
    have s0 : 0 ≤ s := div_nonneg (by linarith) (by linarith)
    let r : Ray3 ℝ := ⟨q - d * s, d⟩
    have hat : ∀ t, r.at t = q - d * (s - t) := by intro t; ext <;> simp [r, Ray3.at] <;> ring
    have hs : r.at s = q := by rw [hat]; ext <;> simp
    have ho : 0 < vf vs f r.origin := by
      have e : vf vs f (r.at s) = vf vs f r.origin + s * (nf vs f).dot d := vf_ray _ _ _ _ _
      rw [hs] at e
      have : s * (nf vs f).dot d = -(1 - vf vs f q) := by
        have : -(nf vs f).dot d ≠ 0 := by linarith
        have h2 : (nf vs f).dot d ≠ 0 := hfd.ne
        simp only [s]; field_simp
      linarith
    obtain ⟨j, g, hj, hh⟩ := h.hit_of_outside s0 (by rw [hs]; exact hq) hf ho
    have hgm := List.mem_of_getElem? hj
    obtain ⟨⟨t0, t1, -⟩, -⟩ := h.hit_first hgm hh
    have tle := le_time hh.1 (by rw [hs]; exact hq g hgm)
    refine ⟨s - time vs r g, by linarith, ?_⟩
    rw [← hat]; exact t1
  obtain ⟨a, a0, ha⟩ := key (nf vs f0) ⟨g, hg, hgd⟩
  obtain ⟨b, b0, hb⟩ := key (nf vs f0 * (-1 : ℝ)) ⟨f0, hf0, by
    have : (nf vs f0).dot (nf vs f0 * (-1 : ℝ)) = -(nf vs f0).dot (nf vs f0) := by simp [V3.dot]; ring
    rw [this]; linarith⟩
  by_cases hab : a + b = 0
  · have : a = 0 := by linarith
    rw [this] at ha
    have e : q - nf vs f0 * (0 : ℝ) = q := by ext <;> simp
    rwa [e] at ha
  · have habp : 0 < a + b := lt_of_le_of_ne (by linarith) (Ne.symm hab)
    have := Hull3.seg ha hb (t := a / (a + b)) (div_nonneg a0 habp.le) (by rw [div_le_one habp]; linarith)
    convert this using 1
    ext <;> simp <;> field_simp <;> ring

/-! ## The loops -/

variable {p : Polyhedron} (hb : Built vs fs p)
include hb

omit h hb in
theorem unchecked_first {m : Mesh} {checked : Nat → Bool} {e : Nat} {rest : List Nat} {ed tw : HEdge} (h1 : m.edges[e]? = some ed) (h2 : m.edges[ed.twin]? = some tw)
    (hc : checked tw.left = false) : uncheckedNeighbour m checked (e :: rest) = .ok (some tw.left) := by
  simp [uncheckedNeighbour, h1, h2, hc]

theorem ConvexSolid.next_eq (h10 : ¬ fs.length < 10) {r : Ray3 ℝ} {i j : Nat} {f g : Tri} (hi : fs[i]? = some f) (hj : fs[j]? = some g) {x y c z : Nat}
    (rf : IsRot f x y c) (rg : IsRot g y x z) (ht : (if (coords vs r f).1 < 0 then f.2.2 else if (coords vs r f).2.1 < 0 then f.1 else f.2.1) = y)
    {checked : Nat → Bool} (hc : checked j = false) : nextFace p.mesh i (some (coords vs r f)) checked = .ok (some j) := by
  obtain ⟨hf, pl, e1, e2, -⟩ := hb.face hi
  have hfm := List.mem_of_getElem? hi
  have htr := h.tri f hfm
  obtain ⟨es, s1, -, s3⟩ := hb.edges e1 (by rw [e2]; exact htr)
    (if (coords vs r f).1 < 0 then hf.verts.2.2 else if (coords vs r f).2.1 < 0 then hf.verts.1 else hf.verts.2.1)
  obtain ⟨e, rest, s4, s5⟩ := s3 x y c (by rw [e2]; exact rf) (by rw [e2]; exact ht)
  obtain ⟨-, -, -, ed, a1, -, a3⟩ := hb.mesh.inv.edge _ _ _ s5
  obtain ⟨k, tw, b1, b2, -, b4⟩ := hb.mesh.left j g hj y x z rg
  rw [a3] at b1
  have b1 := Option.some.inj b1
  rw [← b1] at b2
  rw [s4] at s1
  unfold nextFace
  rw [hb.len, if_neg h10]
  simp only [e1, Res.ofOption_some, Res.bind_ok, s1]
  rw [unchecked_first a1 b2 (by rw [b4]; exact hc)]
  simp only [Res.bind_ok, b4, Res.pure_eq]

/-- the loop from a face crossed from the front, ten or more faces -/
theorem ConvexSolid.walk_loop (h10 : ¬ fs.length < 10) {r : Ray3 ℝ} {u : ℝ} (hu : ∀ f ∈ fs, vf vs f (r.at u) ≤ 0) : ∀ (fuel i : Nat) (checked : Nat → Bool) (f : Tri),
    fs[i]? = some f → checked i = false → unv fs.length checked ≤ fuel → Front vs r f → Walk vs r (Seen fs checked) f →
    ∃ x, findFaceLoop p r fuel i checked = .ok (some x) := by
  intro fuel
  induction fuel with
  | zero =>
    intro i checked f hi hc hu
    have := unv_lt (List.getElem?_eq_some_iff.1 hi).1 hc
    omega
  | succ fuel ih =>
    intro i checked f hi hc hun ff hw
    have hfm := List.mem_of_getElem? hi
    obtain ⟨hf, pl, e1, e2, e3, e4⟩ := hb.ray (h.tri f hfm) hi r
    have e4 := (e4.resolve_left fun e => e.1 ff).2
    unfold findFaceLoop
    simp only [e1, e3, e4, Res.ofOption_some, Res.bind_ok]
    by_cases hin : inRange (coords vs r f).1 ∧ inRange (coords vs r f).2.1 ∧ inRange (coords vs r f).2.2
    · rw [if_pos hin]; exact ⟨_, rfl⟩
    · rw [if_neg hin]
      obtain ⟨x, y, c, rf, ht, hs⟩ := h.exit hfm r hin
      obtain ⟨j, g, z, hj, rg⟩ := h.neighbour hfm rf
      obtain ⟨s1, s2, s3⟩ := h.walk_step hu hi hj ff hw rf rg hs
      rw [h.next_eq hb h10 hi hj rf rg ht s2]
      simp only [Res.bind_ok]
      have := unv_lt (List.getElem?_eq_some_iff.1 hi).1 hc
      exact ih j _ g hj s2 (by omega) s1 s3

omit h hb in
theorem find_range {n : Nat} {q : Nat → Bool} {j : Nat} (hj : j < n) (hq : q j = true) (hmin : ∀ k < j, q k = false) : (List.range n).find? q = some j := by
  rw [List.find?_eq_some_iff_getElem]
  refine ⟨hq, j, by simpa using hj, by simp, ?_⟩
  intro k hk
  simp [hmin k hk]

/-- the loop while no face is crossed from the front -/
theorem ConvexSolid.scan_loop (h10 : ¬ fs.length < 10) {r : Ray3 ℝ} {u : ℝ} (hu : ∀ f ∈ fs, vf vs f (r.at u) ≤ 0) {j : Nat} {g : Tri} (hj : fs[j]? = some g)
    (fg : Front vs r g) : ∀ (fuel i : Nat) (checked : Nat → Bool), i ≤ j → (∀ k, checked k = true ↔ k < i) → (∀ (k : Nat) f, k < i → fs[k]? = some f → ¬ Front vs r f) →
    unv fs.length checked ≤ fuel → ∃ x, findFaceLoop p r fuel i checked = .ok (some x) := by
  intro fuel
  have hjl := (List.getElem?_eq_some_iff.1 hj).1
  induction fuel with
  | zero =>
    intro i checked hi hc _ hun
    have := unv_lt (show i < fs.length by omega) (checked := checked) (by
      cases hk : checked i with
      | false => rfl
      | true => have := (hc i).1 hk; omega)
    omega
  | succ fuel ih =>
    intro i checked hi hc hnf hun
    have hil : i < fs.length := by omega
    have hci : checked i = false := by
      cases hk : checked i with
      | false => rfl
      | true => have := (hc i).1 hk; omega
    by_cases ff : Front vs r fs[i]
    · refine h.walk_loop hb h10 hu _ i checked _ (List.getElem?_eq_getElem hil) hci hun ff (Or.inl ?_)
      rintro k ⟨l, hl, e⟩ fk
      exact absurd fk (hnf l k ((hc l).1 hl) e)
    · have hij : i ≠ j := by
        rintro rfl
        rw [List.getElem?_eq_getElem hil] at hj
        rw [Option.some.inj hj] at ff
        exact ff fg
      obtain ⟨hf, pl, e1, e2, e3, e4⟩ := hb.ray (h.tri _ (List.getElem_mem hil)) (List.getElem?_eq_getElem hil) r
      have e4 := (e4.resolve_right fun e => ff e.1).2
      unfold findFaceLoop
      simp only [e1, e3, e4, Res.ofOption_some, Res.bind_ok]
      have hn : nextFace p.mesh i none (fun k => decide (k = i) || checked k) = .ok (some (i + 1)) := by
        unfold nextFace
        rw [hb.len, if_neg h10]
        simp only [scanFrom]
        rw [find_range (j := i + 1) (by omega)]
        · simp only [le_refl, decide_true, Bool.true_and, Bool.not_eq_true', Bool.or_eq_false_iff, decide_eq_false_iff_not]
          refine ⟨by omega, ?_⟩
          cases hk : checked (i + 1) with
          | false => rfl
          | true => have := (hc _).1 hk; omega
        · intro k hk
          simp only [Bool.and_eq_false_iff, decide_eq_false_iff_not]
          left; omega
      rw [hn]
      simp only [Res.bind_ok]
      have := unv_lt hil hci
      refine ih (i + 1) _ (by omega) ?_ ?_ (by omega)
      · intro k
        simp only [Bool.or_eq_true, decide_eq_true_eq, hc k]
        omega
      · intro k f hk hf
        by_cases hki : k = i
        · subst hki
          rw [List.getElem?_eq_getElem hil] at hf
          rw [← Option.some.inj hf]; exact ff
        · exact hnf k f (by omega) hf

/-- the loop over fewer than ten faces -/
theorem ConvexSolid.linear_loop (h10 : fs.length < 10) {r : Ray3 ℝ} {j : Nat} {g : Tri} (hj : fs[j]? = some g) (hg : Hit vs r g) :
    ∀ (fuel i : Nat) (checked : Nat → Bool), i ≤ j → j - i < fuel → ∃ x, findFaceLoop p r fuel i checked = .ok (some x) := by
  intro fuel
  have hjl := (List.getElem?_eq_some_iff.1 hj).1
  induction fuel with
  | zero => intro i _ _ hf; omega
  | succ fuel ih =>
    intro i checked hij hfu
    have hil : i < fs.length := by omega
    obtain ⟨hf, pl, e1, e2, e3, e4⟩ := hb.ray (h.tri _ (List.getElem_mem hil)) (List.getElem?_eq_getElem hil) r
    have hnext : i ≠ j → ∀ x, ∃ o', (do
        let o ← nextFace p.mesh i x (fun k => decide (k = i) || checked k)
        match o with
        | some j => findFaceLoop p r fuel j (fun k => decide (k = i) || checked k)
        | none => return none : Res (Option (Nat × ℝ × ℝ × ℝ))) = .ok (some o') := by
      intro hne x
      have : nextFace p.mesh i x (fun k => decide (k = i) || checked k) = .ok (some (i + 1)) := by
        unfold nextFace
        rw [hb.len, if_pos h10, if_neg (by omega)]
      rw [this]
      simp only [Res.bind_ok]
      exact ih (i + 1) _ (by omega) (by omega)
    unfold findFaceLoop
    simp only [e1, e3, Res.ofOption_some, Res.bind_ok]
    rcases e4 with ⟨nf, e4⟩ | ⟨ff, e4⟩
    · rw [e4]
      simp only [Res.bind_ok]
      apply hnext
      rintro rfl
      rw [List.getElem?_eq_getElem hil] at hj
      rw [Option.some.inj hj] at nf
      exact nf hg.1
    · rw [e4]
      simp only [Res.bind_ok]
      by_cases hin : inRange (coords vs r fs[i]).1 ∧ inRange (coords vs r fs[i]).2.1 ∧ inRange (coords vs r fs[i]).2.2
      · rw [if_pos hin]; exact ⟨_, rfl⟩
      · rw [if_neg hin]
        apply hnext
        rintro rfl
        rw [List.getElem?_eq_getElem hil] at hj
        rw [Option.some.inj hj] at hin
        exact hin hg.2

theorem ConvexSolid.find_total (r : Ray3 ℝ) : ∃ o, findFace p r = .ok o := by
  obtain ⟨f0, hf0, -⟩ := h.used 0 (List.length_pos_of_ne_nil h.nonempty)
  refine hb.total h.tri r _ 0 _ (List.length_pos_of_mem hf0) rfl (by simp) ?_
  rw [hb.len]
  unfold unv; exact (Finset.card_filter_le _ _).trans (by simp)

theorem ConvexSolid.find_some {r : Ray3 ℝ} {u : ℝ} (u0 : 0 ≤ u) (hu : Hull3 vs (r.at u)) (ho : ¬ Hull3 vs r.origin) : ∃ x, findFace p r = .ok (some x) := by
  rw [h.hull_iff] at ho hu
  push Not at ho
  obtain ⟨f, hf, hfo⟩ := ho
  unfold findFace
  rw [hb.len]
  by_cases h10 : fs.length < 10
  · obtain ⟨j, g, hj, hg⟩ := h.hit_of_outside u0 hu hf hfo
    have := (List.getElem?_eq_some_iff.1 hj).1
    exact h.linear_loop hb h10 hj hg _ 0 _ (by omega) (by omega)
  · obtain ⟨j, hj⟩ := List.mem_iff_getElem?.1 hf
    refine h.scan_loop hb h10 hu hj (h.front_of_outside u0 hu hf hfo) _ 0 _ (by omega) (by simp) (by simp) ?_
    unfold unv; exact (Finset.card_filter_le _ _).trans (by simp)

theorem ConvexSolid.find_sound {r : Ray3 ℝ} {i : Nat} {uvw : ℝ × ℝ × ℝ} (hr : findFace p r = .ok (some (i, uvw))) :
    ∃ f, fs[i]? = some f ∧ uvw = coords vs r f ∧ Hit vs r f := by
  obtain ⟨hf, pl, e1, e2, e3, e4⟩ := loop_sound r _ _ _ _ _ hr
  have hil : i < fs.length := by rw [← hb.len]; exact (List.getElem?_eq_some_iff.1 e1).1
  obtain ⟨hf', pl', f1, f2, f3, f4⟩ := hb.ray (h.tri _ (List.getElem_mem hil)) (List.getElem?_eq_getElem hil) r
  rw [e1] at f1; cases f1
  rw [e2] at f3; cases f3
  refine ⟨_, List.getElem?_eq_getElem hil, ?_⟩
  rcases f4 with ⟨-, f4⟩ | ⟨ff, f4⟩
  · rw [e3] at f4; cases f4
  · rw [e3] at f4
    have f4 : uvw = coords vs r fs[i] := by simpa using f4
    subst f4
    exact ⟨rfl, ff, e4⟩
end

/-! ## C63 -/

theorem built {vs : List (V3 ℝ)} {fs : List Tri} (h : ConvexSolid vs fs) : ∃ Q, Polyhedron.newWithFaces vs fs = .ok Q ∧ Built vs fs Q := by
  obtain ⟨Q, p1, -, p3, p4, p5, -⟩ := newWithFaces_ok h.tri h.oriented h.normals
  exact ⟨Q, p1, p3, p4, p5⟩

/-- C63: for every convex polyhedron with faces, of any size, and every ray, the tests terminate without panic and agree; a reported point is the first point of
the solid on the ray; and a ray from outside that meets the solid is reported. -/
theorem c63_ray {vs : List (V3 ℝ)} {fs : List Tri} (h : ConvexSolid vs fs) : ∃ Q, Polyhedron.newWithFaces vs fs = .ok Q ∧ ∀ r : Ray3 ℝ,
    ∃ o, Q.intersectionRay r = .ok o ∧ Q.intersectsRay r = .ok o.isSome ∧ (∀ q, o = some q → ∃ t : ℝ, q = r.at t ∧ r.First (Hull3 vs) t) ∧
      (¬ Hull3 vs r.origin → (∃ t : ℝ, 0 ≤ t ∧ Hull3 vs (r.at t)) → o.isSome) := by
  obtain ⟨Q, q1, hb⟩ := built h
  refine ⟨Q, q1, fun r => ?_⟩
  obtain ⟨x, hx⟩ := h.find_total hb r
  have hsome : ¬ Hull3 vs r.origin → (∃ t : ℝ, 0 ≤ t ∧ Hull3 vs (r.at t)) → x.isSome := by
    rintro ho ⟨t, t0, ht⟩
    obtain ⟨y, hy⟩ := h.find_some hb t0 ht ho
    rw [hx] at hy; cases hy; rfl
  cases x with
  | none =>
    refine ⟨none, ?_, ?_, by simp, hsome⟩
    · simp [Polyhedron.intersectionRay, hx]
    · simp [Polyhedron.intersectsRay, hx]
  | some x =>
    obtain ⟨i, uvw⟩ := x
    obtain ⟨f, hf, rfl, hh⟩ := h.find_sound hb hx
    have hfm := List.mem_of_getElem? hf
    obtain ⟨l1, l2, l3, -⟩ := h.tri f hfm
    obtain ⟨h1, h2⟩ := h.hit_first hfm hh
    obtain ⟨hfc, pl, e1, e2, -⟩ := hb.face hf
    subst e2
    refine ⟨some (r.at (time vs r hfc.verts)), ?_, ?_, ?_, fun _ _ => rfl⟩
    · simp only [Polyhedron.intersectionRay, hx, Res.bind_ok, coords, e1, Res.ofOption_some, hb.pos, getD3_eq l1, getD3_eq l2, getD3_eq l3, Res.pure_eq]
      exact congrArg (fun x => Res.ok (some x)) h2
    · simp [Polyhedron.intersectsRay, hx]
    · rintro q ⟨⟩
      exact ⟨_, rfl, h1⟩

/-- C63, rays that start inside the solid (each direction can be followed a little way): not reported. -/
theorem c63_inside {vs : List (V3 ℝ)} {fs : List Tri} (h : ConvexSolid vs fs) : ∃ Q, Polyhedron.newWithFaces vs fs = .ok Q ∧ ∀ r : Ray3 ℝ,
    (∀ d : V3 ℝ, ∃ s : ℝ, 0 < s ∧ Hull3 vs (r.origin + d * s)) → Q.intersectionRay r = .ok none := by
  obtain ⟨Q, q1, hb⟩ := built h
  refine ⟨Q, q1, fun r hr => ?_⟩
  obtain ⟨x, hx⟩ := h.find_total hb r
  cases x with
  | none => simp [Polyhedron.intersectionRay, hx]
  | some x =>
    exfalso
    obtain ⟨i, uvw⟩ := x
    obtain ⟨f, hf, rfl, hh⟩ := h.find_sound hb hx
    have hfm := List.mem_of_getElem? hf
    obtain ⟨s, s0, hs⟩ := hr (nf vs f)
    have := h.vf_hull hfm hs
    rw [vf_ray] at this
    have hN := mul_pos s0 (dot_self_pos (h.nf_ne hfm))
    have := hh.1.2
    linarith

/-- C63 is false for polyhedra without faces: every ray test panics (index 0 of an empty list). -/
theorem c63_no_faces_panics (vs : List (V3 ℝ)) (r : Ray3 ℝ) : (Polyhedron.new vs).intersectsRay r = .panic ∧ (Polyhedron.new vs).intersectionRay r = .panic := by
  have : findFace (Polyhedron.new vs) r = .panic := by
    unfold findFace
    show findFaceLoop _ _ (0 + 1) _ _ = _
    unfold findFaceLoop
    simp [Polyhedron.new]
  simp [Polyhedron.intersectsRay, Polyhedron.intersectionRay, this]

/-- the hypotheses are met by the tetrahedron, and a concrete ray is reported -/
example : ∃ Q, Polyhedron.newWithFaces tetraVerts tetraFaces = .ok Q ∧ ∃ q, Q.intersectionRay ⟨⟨-1, 1/4, 1/4⟩, ⟨1, 0, 0⟩⟩ = .ok (some q) := by
  obtain ⟨Q, q1, hQ⟩ := c63_ray tetra_convex
  obtain ⟨o, o1, -, -, o4⟩ := hQ ⟨⟨-1, 1/4, 1/4⟩, ⟨1, 0, 0⟩⟩
  have hsome : o.isSome := by
    apply o4
    · intro hc
      have := hull3_le (e := (⟨-1, 0, 0⟩ : V3 ℝ)) (m := 0) (fun v hv => by rcases tetra_mem hv with rfl | rfl | rfl | rfl <;> norm_num [V3.dot]) hc
      norm_num [V3.dot] at this
    · refine ⟨5/4, by norm_num, ?_⟩
      rw [tetra_convex.hull_iff]
      intro f hf
      simp only [tetraFaces, List.mem_cons, List.not_mem_nil, or_false] at hf
      rcases hf with rfl | rfl | rfl | rfl <;> norm_num [vf, tetraVerts, vol, V3.dot, V3.cross, Ray3.at]
  obtain ⟨q, rfl⟩ := Option.isSome_iff_exists.1 hsome
  exact ⟨Q, q1, q, o1⟩

end Verif.Primitive
