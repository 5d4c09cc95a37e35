import Verif.Primitive.Mesh
import Verif.Primitive.Polygon
import Mathlib.Combinatorics.Pigeonhole
/-!
# Support points of convex polyhedra by hill climbing: C46, C48, C62
-/
namespace Verif.Primitive
open Verif Verif.Geom
set_option linter.unusedSectionVars false

/-! ## Specification -/

/-- Six times the signed volume of the tetrahedron `a b c p`: negative if `p` is behind the triangle (inside), for corners counter-clockwise from outside. -/
def vol (a b c p : V3 ℝ) : ℝ := ((b - a).cross (c - a)).dot (p - a)

/-- Specification: a convex polyhedron given by vertices and triangles.  The triangles are proper, consistently oriented and form a closed surface that
uses every vertex; all vertices are behind or on the plane of each triangle (corners counter-clockwise seen from outside, coplanar triangles allowed), there is
an inner point, and every vertex is a corner of the solid. -/
structure ConvexSolid (vs : List (V3 ℝ)) (fs : List Tri) : Prop where
  tri : ∀ f ∈ fs, TriOk vs.length f
  oriented : Oriented fs
  closed : Closed fs
  nonempty : vs ≠ []
  used : ∀ v, v < vs.length → ∃ f ∈ fs, v = f.1 ∨ v = f.2.1 ∨ v = f.2.2
  behind : ∀ f ∈ fs, ∀ a b c, vs[f.1]? = some a → vs[f.2.1]? = some b → vs[f.2.2]? = some c → ∀ p ∈ vs, vol a b c p ≤ 0
  inner : ∃ o, ∀ f ∈ fs, ∀ a b c, vs[f.1]? = some a → vs[f.2.1]? = some b → vs[f.2.2]? = some c → vol a b c o < 0
  corner : ∀ (v : Nat) p, vs[v]? = some p → ∃ d : V3 ℝ, ∀ (w : Nat) q, w ≠ v → vs[w]? = some q → q.dot d < p.dot d

/-! ## Geometry: a closed fan of edges spans the cone of its faces -/

/-- determinant -/
def det3 (u v w : V3 ℝ) : ℝ := u.dot (v.cross w)

theorem det3_rot (u v w : V3 ℝ) : det3 u v w = det3 v w u := by simp [det3, V3.dot, V3.cross]; ring
theorem det3_swap (u v w : V3 ℝ) : det3 u v w = -det3 v u w := by simp [det3, V3.dot, V3.cross]; ring
theorem det3_self (u w : V3 ℝ) : det3 u u w = 0 := by simp [det3, V3.dot, V3.cross]; ring
theorem det3_add (u v x y : V3 ℝ) (t : ℝ) : det3 u v (x + y * t) = det3 u v x + t * det3 u v y := by simp [det3, V3.dot, V3.cross]; ring
theorem cramer (a b c x e : V3 ℝ) : det3 a b c * x.dot e = det3 b c x * a.dot e + det3 c a x * b.dot e + det3 a b x * c.dot e := by
  simp [det3, V3.dot, V3.cross]; ring

theorem fan_strict (w : Nat → V3 ℝ) (p : Nat) (hp : 0 < p) (hcl : w p = w 0) (x d e : V3 ℝ)
    (hx : ∀ i, i < p → 0 < det3 (w i) (w (i + 1)) x) (hww : ∀ i j, i < p → j < p → 0 ≤ det3 (w i) (w (i + 1)) (w j))
    (hd : ∀ i, i < p → (w i).dot d < 0) (he : ∀ i, i < p → (w i).dot e ≤ 0) : x.dot e ≤ 0 := by
  have h1 : 0 < det3 (w 0) (w 1) x := hx 0 hp
  have hp1 : p ≠ 1 := by
    rintro rfl; rw [hcl, det3_self] at h1; exact lt_irrefl _ h1
  have hlast : det3 (w 0) (w (p - 1)) x < 0 := by
    have := hx (p - 1) (by omega)
    rw [show p - 1 + 1 = p by omega, hcl, det3_swap] at this
    linarith
  have hp2 : p ≠ 2 := by rintro rfl; exact absurd h1 (not_lt.2 hlast.le)
  obtain ⟨k, k1, k2, f1, f2⟩ := discrete_ivt (fun k => det3 (w 0) (w k) x) 1 (p - 1) (by omega) h1.le hlast.le
  have ha := hx k (by omega)
  have hb : 0 ≤ det3 (w (k + 1)) (w 0) x := by rw [det3_swap]; linarith
  have hD0 : 0 ≤ det3 (w 0) (w k) (w (k + 1)) := by rw [det3_rot]; exact hww k 0 (by omega) hp
  have hD : 0 < det3 (w 0) (w k) (w (k + 1)) := by
    refine lt_of_le_of_ne hD0 fun h0 => ?_
    have hc := cramer (w 0) (w k) (w (k + 1)) x d
    rw [← h0, zero_mul] at hc
    have c1 := mul_neg_of_pos_of_neg ha (hd 0 hp)
    have c2 := mul_nonpos_of_nonneg_of_nonpos hb (hd k (by omega)).le
    have c3 := mul_nonpos_of_nonneg_of_nonpos f1 (hd (k + 1) (by omega)).le
    linarith
  have hc := cramer (w 0) (w k) (w (k + 1)) x e
  have c1 := mul_nonpos_of_nonneg_of_nonpos ha.le (he 0 hp)
  have c2 := mul_nonpos_of_nonneg_of_nonpos hb (he k (by omega))
  have c3 := mul_nonpos_of_nonneg_of_nonpos f1 (he (k + 1) (by omega))
  by_contra hn
  push Not at hn
  have := mul_pos hD hn
  linarith

theorem fan (w : Nat → V3 ℝ) (p : Nat) (hp : 0 < p) (hcl : w p = w 0) (x o d e : V3 ℝ)
    (hx : ∀ i, i < p → 0 ≤ det3 (w i) (w (i + 1)) x) (ho : ∀ i, i < p → 0 < det3 (w i) (w (i + 1)) o)
    (hww : ∀ i j, i < p → j < p → 0 ≤ det3 (w i) (w (i + 1)) (w j))
    (hd : ∀ i, i < p → (w i).dot d < 0) (he : ∀ i, i < p → (w i).dot e ≤ 0) : x.dot e ≤ 0 := by
  have key : ∀ t : ℝ, 0 < t → (x + o * t).dot e ≤ 0 := by
    intro t ht
    refine fan_strict w p hp hcl _ d e ?_ hww hd he
    intro i hi
    rw [det3_add]
    have := mul_pos ht (ho i hi)
    have := hx i hi
    linarith
  by_contra hn
  push Not at hn
  have e1 : ∀ t : ℝ, (x + o * t).dot e = x.dot e + t * o.dot e := by intro t; simp [V3.dot]; ring
  have h1 := key 1 one_pos
  rw [e1] at h1
  have hoe : 0 < -o.dot e := by linarith
  have h2 := key (x.dot e / (2 * -o.dot e)) (div_pos hn (by linarith))
  rw [e1] at h2
  have hne : o.dot e ≠ 0 := by linarith
  have : x.dot e / (2 * -o.dot e) * o.dot e = -(x.dot e / 2) := by
    rw [div_mul_eq_mul_div, div_eq_iff (by simpa using hne)]; ring
  rw [this] at h2
  linarith

theorem vol_det (v a b p : V3 ℝ) : vol a v b p = -det3 (a - v) (b - v) (p - v) := by simp [vol, det3, V3.dot, V3.cross]; ring
theorem vol_rot (a b c p : V3 ℝ) : vol a b c p = vol b c a p := by simp [vol, V3.dot, V3.cross]; ring

/-! ## The ring of edges round a vertex -/

theorem oriented_unique {fs : List Tri} (h : Oriented fs) {f g : Tri} (hf : f ∈ fs) (hg : g ∈ fs) {k : Nat × Nat} (h1 : k ∈ triEdges f) (h2 : k ∈ triEdges g) :
    f = g := by
  unfold Oriented at h
  rw [List.nodup_flatMap] at h
  by_contra hne
  haveI : Std.Symm (Function.onFun List.Disjoint triEdges) := ⟨fun a b hab => List.Disjoint.symm hab⟩
  have := List.Pairwise.forall (R := Function.onFun List.Disjoint triEdges) h.2 hf hg hne
  exact this h1 h2

theorem rot_unique {n : Nat} {f : Tri} (hf : TriOk n f) {a b v c : Nat} (h1 : IsRot f a v c) (h2 : IsRot f b v c) : a = b := by
  obtain ⟨x, y, z⟩ := f
  obtain ⟨-, -, -, n1, n2, n3⟩ := hf
  simp only at n1 n2 n3
  rcases h1 with h1 | h1 | h1 <;> rcases h2 with h2 | h2 | h2 <;> simp only [Prod.mk.injEq] at h1 h2 <;> omega

/-- the edges leaving `v` in the order in which the inner loop visits them -/
theorem ring_exists {m : Mesh} {n : Nat} {fs : List Tri} (h : Describes m n fs) (htri : ∀ f ∈ fs, TriOk n f) (hor : Oriented fs) (hcl : Closed fs)
    {v w0 e0 : Nat} (hw : (v, w0) ∈ fs.flatMap triEdges) (he : m.emap (v, w0) = some e0) :
    ∃ (w E : Nat → Nat) (q : Nat), 0 < q ∧ q ≤ m.edges.length ∧ E 0 = e0 ∧ E q = E 0 ∧ w q = w 0 ∧ (∀ i, 0 < i → i < q → E i ≠ E 0) ∧
      (∀ i, ∃ ed tw, m.edges[E i]? = some ed ∧ ed.target = w i ∧ m.edges[ed.twin]? = some tw ∧ tw.next = E (i + 1)) ∧
      (∀ i, ∃ f ∈ fs, IsRot f (w i) v (w (i + 1))) := by
  have step : ∀ a, (v, a) ∈ fs.flatMap triEdges → ∃ b, (v, b) ∈ fs.flatMap triEdges ∧ ∃ f ∈ fs, IsRot f a v b := by
    intro a ha
    obtain ⟨f, hf, hfe⟩ := List.mem_flatMap.1 (hcl _ _ ha)
    obtain ⟨b, hb⟩ := edge_rot hfe
    exact ⟨b, List.mem_flatMap.2 ⟨f, hf, (rot_edges hb).2.1⟩, f, hf, hb⟩
  choose g hg1 hg2 using step
  let W : Nat → {a // (v, a) ∈ fs.flatMap triEdges} := fun i => Nat.rec ⟨w0, hw⟩ (fun _ a => ⟨g a.1 a.2, hg1 a.1 a.2⟩) i
  let w : Nat → Nat := fun i => (W i).1
  have hwm : ∀ i, (v, w i) ∈ fs.flatMap triEdges := fun i => (W i).2
  have hface : ∀ i, ∃ f ∈ fs, IsRot f (w i) v (w (i + 1)) := fun i => hg2 (W i).1 (W i).2
  have hem : ∀ i, ∃ k, m.emap (v, w i) = some k := by
    intro i
    obtain ⟨f, hf, hfe⟩ := List.mem_flatMap.1 (hwm i)
    obtain ⟨b, hb⟩ := edge_rot hfe
    obtain ⟨k, -, hk, -⟩ := h.next f hf _ _ _ hb
    exact ⟨k, hk⟩
  choose E hE using hem
  have hE0 : E 0 = e0 := by have := hE 0; rw [show w 0 = w0 from rfl, he] at this; exact (Option.some.inj this).symm
  have hstep : ∀ i, ∃ ed tw, m.edges[E i]? = some ed ∧ ed.target = w i ∧ m.edges[ed.twin]? = some tw ∧ tw.next = E (i + 1) := by
    intro i
    obtain ⟨-, -, -, ed, x1, x2, x3⟩ := h.inv.edge _ _ _ (hE i)
    obtain ⟨f, hf, hrot⟩ := hface i
    obtain ⟨k, tw, y1, y2, y3, -⟩ := h.next f hf _ _ _ hrot
    rw [x3] at y1
    have y1 := Option.some.inj y1
    rw [← y1] at y2
    refine ⟨ed, tw, x1, x2, y2, ?_⟩
    rw [hE (i + 1)] at y3
    exact (Option.some.inj y3).symm
  have hinjw : ∀ i j, E i = E j → w i = w j := by
    intro i j hij
    have := h.inv.inj _ _ _ (hE i) (by rw [hij]; exact hE j)
    exact congrArg Prod.snd this
  have hinj : ∀ i j, E (i + 1) = E (j + 1) → E i = E j := by
    intro i j hij
    have hw1 := hinjw _ _ hij
    obtain ⟨f, hf, hrf⟩ := hface i
    obtain ⟨f', hf', hrf'⟩ := hface j
    rw [← hw1] at hrf'
    have hff := oriented_unique hor hf hf' (rot_edges hrf).2.1 (rot_edges hrf').2.1
    subst hff
    have := rot_unique (htri _ hf) hrf hrf'
    have h1 := hE i
    rw [this, hE j] at h1
    exact (Option.some.inj h1).symm
  have hlt : ∀ i, E i < m.edges.length := by
    intro i; obtain ⟨ed, -, x1, -⟩ := hstep i; exact (List.getElem?_eq_some_iff.1 x1).1
  have hdesc : ∀ k i j, E (i + k) = E (j + k) → E i = E j := by
    intro k
    induction k with
    | zero => intro i j h; exact h
    | succ k ih => intro i j h; exact ih i j (hinj _ _ h)
  have hper : ∃ q, 0 < q ∧ q ≤ m.edges.length ∧ E q = E 0 := by
    obtain ⟨x, hx, y, hy, hne, hxy⟩ := Finset.exists_ne_map_eq_of_card_lt_of_maps_to (s := Finset.range (m.edges.length + 1)) (t := Finset.range m.edges.length)
      (by simp) (f := E) (fun i _ => by simpa using hlt i)
    simp only [Finset.mem_range] at hx hy
    rcases lt_or_gt_of_ne hne with hl | hl
    · refine ⟨y - x, by omega, by omega, ?_⟩
      apply hdesc x
      rw [show y - x + x = y by omega, Nat.zero_add]; exact hxy.symm
    · refine ⟨x - y, by omega, by omega, ?_⟩
      apply hdesc y
      rw [show x - y + y = x by omega, Nat.zero_add]; exact hxy
  classical
  obtain ⟨q0, a1, a2, a3⟩ := hper
  have hex : ∃ q, 0 < q ∧ E q = E 0 := ⟨q0, a1, a3⟩
  refine ⟨w, E, Nat.find hex, (Nat.find_spec hex).1, (Nat.find_min' hex ⟨a1, a3⟩).trans a2, hE0, (Nat.find_spec hex).2, hinjw _ _ (Nat.find_spec hex).2, ?_, hstep, hface⟩
  intro i i0 iq hi
  exact Nat.find_min hex iq ⟨i0, hi⟩

/-! ## The loops -/

theorem climbRing_spec (pos : List (V3 ℝ)) (m : Mesh) (d : V3 ℝ) (w E : Nat → Nat) (q : Nat) (hq : E q = E 0) (hne : ∀ i, 0 < i → i < q → E i ≠ E 0)
    (hstep : ∀ i, ∃ ed tw, m.edges[E i]? = some ed ∧ ed.target = w i ∧ m.edges[ed.twin]? = some tw ∧ tw.next = E (i + 1))
    (hpos : ∀ i, w i < pos.length) :
    ∀ (j i fuel best : Nat) (bd : ℝ), q = i + (j + 1) → j < fuel → ∃ r : Nat × ℝ, climbRing pos m d (E 0) fuel (E i) best bd = .ok r ∧ bd ≤ r.2 ∧
      (∀ k, i ≤ k → k < q → (pos.getD (w k) 0).dot d ≤ r.2) ∧
      (r = (best, bd) ∨ ∃ k, i ≤ k ∧ k < q ∧ r = (w k, (pos.getD (w k) 0).dot d) ∧ bd < r.2) := by
  intro j
  induction j with
  | zero =>
    intro i fuel best bd hqi hf
    obtain ⟨fuel, rfl⟩ : ∃ f, fuel = f + 1 := ⟨fuel - 1, by omega⟩
    obtain ⟨ed, tw, x1, x2, x3, x4⟩ := hstep i
    have hp : pos[w i]? = some (pos.getD (w i) 0) := by
      rw [List.getElem?_eq_getElem (hpos i), List.getD_eq_getElem?_getD, List.getElem?_eq_getElem (hpos i)]; rfl
    have hend : E 0 = tw.next := by rw [x4, show i + 1 = q by omega, hq]
    unfold climbRing
    simp only [x1, Res.ofOption_some, Res.bind_ok, x2, hp, x3]
    rw [if_pos hend]
    refine ⟨_, rfl, ?_⟩
    have hk : ∀ k, i ≤ k → k < q → k = i := by intro k h1 h2; omega
    split
    · next hgt =>
      refine ⟨hgt.le, fun k h1 h2 => by rw [hk k h1 h2], Or.inr ⟨i, le_rfl, by omega, rfl, hgt⟩⟩
    · next hgt =>
      refine ⟨le_rfl, fun k h1 h2 => by rw [hk k h1 h2]; exact not_lt.1 hgt, Or.inl rfl⟩
  | succ j ih =>
    intro i fuel best bd hqi hf
    obtain ⟨fuel, rfl⟩ : ∃ f, fuel = f + 1 := ⟨fuel - 1, by omega⟩
    obtain ⟨ed, tw, x1, x2, x3, x4⟩ := hstep i
    have hp : pos[w i]? = some (pos.getD (w i) 0) := by
      rw [List.getElem?_eq_getElem (hpos i), List.getD_eq_getElem?_getD, List.getElem?_eq_getElem (hpos i)]; rfl
    have hend : ¬ E 0 = tw.next := by rw [x4]; exact fun e => hne (i + 1) (by omega) (by omega) e.symm
    unfold climbRing
    simp only [x1, Res.ofOption_some, Res.bind_ok, x2, hp, x3]
    rw [if_neg hend, x4]
    by_cases hgt : (pos.getD (w i) 0).dot d > bd
    · rw [if_pos hgt]
      obtain ⟨r, r1, r2, r3, r4⟩ := ih (i + 1) fuel (w i) ((pos.getD (w i) 0).dot d) (by omega) (by omega)
      refine ⟨r, r1, hgt.le.trans r2, ?_, ?_⟩
      · intro k h1 h2
        by_cases hki : k = i
        · rw [hki]; exact r2
        · exact r3 k (by omega) h2
      · rcases r4 with r4 | ⟨k, k1, k2, k3, k4⟩
        · exact Or.inr ⟨i, le_rfl, by omega, r4, lt_of_lt_of_le hgt r2⟩
        · exact Or.inr ⟨k, by omega, k2, k3, lt_trans hgt k4⟩
    · rw [if_neg hgt]
      obtain ⟨r, r1, r2, r3, r4⟩ := ih (i + 1) fuel best bd (by omega) (by omega)
      refine ⟨r, r1, r2, ?_, ?_⟩
      · intro k h1 h2
        by_cases hki : k = i
        · rw [hki]; exact (not_lt.1 hgt).trans r2
        · exact r3 k (by omega) h2
      · rcases r4 with r4 | ⟨k, k1, k2, k3, k4⟩
        · exact Or.inl r4
        · exact Or.inr ⟨k, by omega, k2, k3, k4⟩

theorem getD3_eq {vs : List (V3 ℝ)} {k : Nat} (hk : k < vs.length) : vs[k]? = some (vs.getD k 0) := by
  rw [List.getElem?_eq_getElem hk, List.getD_eq_getElem?_getD, List.getElem?_eq_getElem hk]; rfl

theorem rot_lt {n : Nat} {f : Tri} (hf : TriOk n f) {a b c : Nat} (h : IsRot f a b c) : a < n ∧ b < n ∧ c < n := by
  obtain ⟨h1, h2, h3, -⟩ := hf
  rcases h with rfl | rfl | rfl
  · exact ⟨h1, h2, h3⟩
  · exact ⟨h3, h1, h2⟩
  · exact ⟨h2, h3, h1⟩

/-- the volume of a rotated triangle -/
theorem ConvexSolid.rot {vs : List (V3 ℝ)} {fs : List Tri} (h : ConvexSolid vs fs) {f : Tri} (hf : f ∈ fs) {a b c : Nat} (hr : IsRot f a b c) (P : V3 ℝ → Prop)
    (hP : ∀ x y z, vs[f.1]? = some x → vs[f.2.1]? = some y → vs[f.2.2]? = some z → ∀ p, P p → vol x y z p ≤ 0) {p : V3 ℝ} (hp : P p) :
    vol (vs.getD a 0) (vs.getD b 0) (vs.getD c 0) p ≤ 0 := by
  obtain ⟨la, lb, lc⟩ := rot_lt (h.tri f hf) hr
  have ga := getD3_eq la
  have gb := getD3_eq lb
  have gc := getD3_eq lc
  rcases hr with rfl | rfl | rfl
  · exact hP _ _ _ ga gb gc p hp
  · rw [vol_rot]; exact hP _ _ _ gb gc ga p hp
  · rw [vol_rot, vol_rot]; exact hP _ _ _ gc ga gb p hp

/-- a vertex that is at least as far as every neighbour in the ring is furthest overall -/
theorem local_max_global {vs : List (V3 ℝ)} {fs : List Tri} (h : ConvexSolid vs fs) (d : V3 ℝ) {v : Nat} (hv : v < vs.length) (w : Nat → Nat) (q : Nat) (hq : 0 < q)
    (hwq : w q = w 0) (hface : ∀ i, ∃ f ∈ fs, IsRot f (w i) v (w (i + 1)))
    (hmax : ∀ k, k < q → (vs.getD (w k) 0).dot d ≤ (vs.getD v 0).dot d) : ∀ p ∈ vs, p.dot d ≤ (vs.getD v 0).dot d := by
  intro p hp
  obtain ⟨o, ho⟩ := h.inner
  obtain ⟨c, hc⟩ := h.corner v _ (getD3_eq hv)
  have hlt : ∀ i, w i < vs.length := by intro i; obtain ⟨f, hf, hr⟩ := hface i; exact (rot_lt (h.tri f hf) hr).1
  have hmem : ∀ k, k < vs.length → vs.getD k 0 ∈ vs := fun k hk => List.mem_of_getElem? (getD3_eq hk)
  have hwv : ∀ i, w i ≠ v := by
    intro i; obtain ⟨f, hf, hr⟩ := hface i
    obtain ⟨-, -, -, n1, n2, n3⟩ := h.tri f hf
    rcases hr with rfl | rfl | rfl
    · exact n1
    · exact n3
    · exact n2
  have sub : ∀ x y : V3 ℝ, (x - y).dot d = x.dot d - y.dot d := by intro x y; simp [V3.dot]; ring
  have subc : ∀ x y : V3 ℝ, (x - y).dot c = x.dot c - y.dot c := by intro x y; simp [V3.dot]; ring
  have key : ∀ i x, x ∈ vs → 0 ≤ det3 (vs.getD (w i) 0 - vs.getD v 0) (vs.getD (w (i + 1)) 0 - vs.getD v 0) (x - vs.getD v 0) := by
    intro i x hx
    obtain ⟨f, hf, hr⟩ := hface i
    have := h.rot hf hr (· ∈ vs) (fun a b c ha hb hc p hp => h.behind f hf a b c ha hb hc p hp) hx
    rw [vol_det] at this
    linarith
  have := fan (fun i => vs.getD (w i) 0 - vs.getD v 0) q hq (by simp only [hwq]) (p - vs.getD v 0) (o - vs.getD v 0) c d
    (fun i _ => key i p hp) ?_ (fun i j _ _ => key i _ (hmem _ (hlt j))) ?_ ?_
  · rw [sub] at this; linarith
  · intro i _
    obtain ⟨f, hf, hr⟩ := hface i
    obtain ⟨la, lb, lc⟩ := rot_lt (h.tri f hf) hr
    have ga := getD3_eq la
    have gb := getD3_eq lb
    have gc := getD3_eq lc
    have : vol (vs.getD (w i) 0) (vs.getD v 0) (vs.getD (w (i + 1)) 0) o < 0 := by
      rcases hr with rfl | rfl | rfl
      · exact ho _ hf _ _ _ ga gb gc
      · rw [vol_rot]; exact ho _ hf _ _ _ gb gc ga
      · rw [vol_rot, vol_rot]; exact ho _ hf _ _ _ gc ga gb
    rw [vol_det] at this
    linarith
  · intro i _
    simp only [subc]
    have := hc (w i) _ (hwv i) (getD3_eq (hlt i))
    linarith
  · intro i hi
    simp only [sub]
    have := hmax i hi
    linarith

theorem climbVerts_spec {vs : List (V3 ℝ)} {fs : List Tri} (h : ConvexSolid vs fs) {m : Mesh} (hm : Describes m vs.length fs) (d : V3 ℝ) :
    ∀ (fuel best : Nat), best < vs.length →
      ((Finset.range vs.length).filter fun k => (vs.getD best 0).dot d < (vs.getD k 0).dot d).card < fuel →
      ∃ b, climbVerts vs m d fuel best ((vs.getD best 0).dot d) = .ok b ∧ b < vs.length ∧ ∀ p ∈ vs, p.dot d ≤ (vs.getD b 0).dot d := by
  intro fuel
  induction fuel with
  | zero => intro best _ hc; omega
  | succ fuel ih =>
    intro best hb hcard
    obtain ⟨f, hf, hfv⟩ := h.used best hb
    obtain ⟨x, hx, hr⟩ := hm.ready f hf best hfv
    obtain ⟨w0, hw0, hwe⟩ := hm.vedge best x hx hr
    obtain ⟨w, E, q, q0, ql, hE0, hEq, hwq, hne, hstep, hface⟩ := ring_exists hm h.tri h.oriented h.closed hw0 hwe
    have hlt : ∀ i, w i < vs.length := by intro i; obtain ⟨f, hf, hr⟩ := hface i; exact (rot_lt (h.tri f hf) hr).1
    obtain ⟨r, r1, r2, r3, r4⟩ := climbRing_spec vs m d w E q hEq hne hstep hlt (q - 1) 0 (m.edges.length + 1) best ((vs.getD best 0).dot d) (by omega) (by omega)
    unfold climbVerts
    simp only [hx, Res.ofOption_some, Res.bind_ok]
    rw [← hE0, r1]
    simp only [Res.bind_ok, Res.pure_eq]
    rcases r4 with rfl | ⟨k, -, kq, rfl, hgt⟩
    · rw [if_pos rfl]
      exact ⟨best, rfl, hb, local_max_global h d hb w q q0 hwq hface fun k hk => r3 k (by omega) hk⟩
    · simp only at hgt
      rw [if_neg hgt.ne']
      refine ih (w k) (hlt k) ?_
      refine lt_of_lt_of_le (Finset.card_lt_card ?_) (Nat.lt_succ_iff.1 hcard)
      rw [Finset.ssubset_iff_of_subset]
      · exact ⟨w k, Finset.mem_filter.2 ⟨Finset.mem_range.2 (hlt k), hgt⟩, by simp⟩
      · intro j hj
        simp only [Finset.mem_filter, Finset.mem_range] at hj ⊢
        exact ⟨hj.1, hgt.trans hj.2⟩

theorem hillClimb_spec {vs : List (V3 ℝ)} {fs : List Tri} (h : ConvexSolid vs fs) {m : Mesh} (hm : Describes m vs.length fs) (d : V3 ℝ) :
    ∃ v, hillClimb vs m d = .ok v ∧ v ∈ vs ∧ ∀ p ∈ vs, p.dot d ≤ v.dot d := by
  have h0 : 0 < vs.length := List.length_pos_of_ne_nil h.nonempty
  obtain ⟨b, b1, b2, b3⟩ := climbVerts_spec h hm d (vs.length + 1) 0 h0 (by
    refine lt_of_le_of_lt (Finset.card_filter_le _ _) ?_
    simp)
  refine ⟨vs.getD b 0, ?_, List.mem_of_getElem? (getD3_eq b2), b3⟩
  unfold hillClimb
  rw [getD3_eq h0]
  simp only [Res.ofOption_some, Res.bind_ok, b1, getD3_eq b2]

theorem facePlanes_ok {vs : List (V3 ℝ)} (fs : List Tri) (h : ∀ f ∈ fs, ∃ a b c, vs[f.1]? = some a ∧ vs[f.2.1]? = some b ∧ vs[f.2.2]? = some c ∧ (b - a).cross (c - a) ≠ 0) :
    ∃ ps, facePlanes vs fs = .ok ps ∧ ps.length = fs.length ∧ ∀ (k : Nat) f, fs[k]? = some f → ∃ p, ps[k]? = some p ∧ facePlane vs f = .ok p := by
  induction fs with
  | nil => exact ⟨[], rfl, rfl, by simp⟩
  | cons f fs ih =>
    obtain ⟨ps, e1, e2, e3⟩ := ih fun g hg => h g (by simp [hg])
    obtain ⟨a, b, c, ha, hb, hc, hn⟩ := h f (by simp)
    have hp : ∃ p, facePlane vs f = .ok p := by
      unfold facePlane
      simp only [ha, hb, hc, Res.ofOption_some, Res.bind_ok, Plane.fromPoints, hn, if_false]
      exact ⟨_, rfl⟩
    obtain ⟨p, hp⟩ := hp
    refine ⟨p :: ps, ?_, by simp [e2], ?_⟩
    · simp [facePlanes, hp, e1]
    · intro k g hk
      cases k with
      | zero => simp at hk; subst hk; exact ⟨p, by simp, hp⟩
      | succ k => simp only [List.getElem?_cons_succ] at hk ⊢; exact e3 k g hk

theorem ConvexSolid.normals {vs : List (V3 ℝ)} {fs : List Tri} (h : ConvexSolid vs fs) :
    ∀ f ∈ fs, ∃ a b c, vs[f.1]? = some a ∧ vs[f.2.1]? = some b ∧ vs[f.2.2]? = some c ∧ (b - a).cross (c - a) ≠ 0 := by
  intro f hf
  obtain ⟨l1, l2, l3, -⟩ := h.tri f hf
  obtain ⟨o, ho⟩ := h.inner
  refine ⟨_, _, _, getD3_eq l1, getD3_eq l2, getD3_eq l3, fun h0 => ?_⟩
  have := ho f hf _ _ _ (getD3_eq l1) (getD3_eq l2) (getD3_eq l3)
  rw [vol, h0] at this
  simp [V3.dot] at this

theorem newWithFaces_ok {vs : List (V3 ℝ)} {fs : List Tri} (hok : ∀ f ∈ fs, TriOk vs.length f) (hor : Oriented fs)
    (hn : ∀ f ∈ fs, ∃ a b c, vs[f.1]? = some a ∧ vs[f.2.1]? = some b ∧ vs[f.2.2]? = some c ∧ (b - a).cross (c - a) ≠ 0) :
    ∃ p, Polyhedron.newWithFaces vs fs = .ok p ∧ p.halfEdge = true ∧ p.positions = vs ∧ Describes p.mesh vs.length fs ∧ facePlanes vs fs = .ok p.planes ∧
      p.maxExtent = maxExtent vs ∧ p.bound = getBound3 vs := by
  obtain ⟨m, m1, m2⟩ := build_spec hok hor
  obtain ⟨ps, p1, -⟩ := facePlanes_ok fs hn
  refine ⟨⟨true, vs, m, ps, getBound3 vs, Primitive.maxExtent vs⟩, ?_, rfl, rfl, m2, p1, rfl, rfl⟩
  simp only [Polyhedron.newWithFaces, p1, m1, Res.bind_ok, Res.pure_eq]

/-! ## The properties -/

/-- C62: for a convex polyhedron with faces the construction succeeds, the hill climb ends without panic, and the support point is extreme in the transformed solid. -/
theorem c62_hill_climb {vs : List (V3 ℝ)} {fs : List Tri} (h : ConvexSolid vs fs) {T : Tr (V3 ℝ)} (hT : Similar3 T) (d : V3 ℝ) :
    ∃ P, Polyhedron.newWithFaces vs fs = .ok P ∧ ∃ p, P.supportPoint T d = .ok p ∧ Extreme3 (Image T (Hull3 vs)) d p := by
  obtain ⟨P, p1, p2, p3, p4, -⟩ := newWithFaces_ok h.tri h.oriented h.normals
  refine ⟨P, p1, ?_⟩
  have hc : ∀ e, ∃ v, hillClimb P.positions P.mesh e = .ok v ∧ v ∈ vs ∧ ∀ p ∈ vs, p.dot e ≤ v.dot e := by
    intro e; rw [p3]; exact hillClimb_spec h p4 e
  choose loc l1 l2 l3 using hc
  have : P.supportPoint T d = support loc T d := by
    unfold Polyhedron.supportPoint support
    rw [if_pos p2]
    cases he : T.invVector d with
    | none => rfl
    | some e => simp only [Res.ofOption_some, Res.bind_ok, l1]
  rw [this]
  exact support_extreme3 _ loc hT d fun e _ => ⟨.vertex (l2 e), fun q hq => hull3_le (l3 e) hq⟩

/-- C46, polyhedra without faces: brute force over the vertices. -/
theorem c46_polyhedron (vs : List (V3 ℝ)) (hv : vs ≠ []) {T : Tr (V3 ℝ)} (hT : Similar3 T) (d : V3 ℝ) :
    ∃ p, (Polyhedron.new vs).supportPoint T d = .ok p ∧ Extreme3 (Image T (Hull3 vs)) d p :=
  support_extreme3 _ _ hT d fun e _ => hull3_extreme vs hv e

theorem maxExtent_ge (vs : List (V3 ℝ)) : ∀ v ∈ vs, v.norm ≤ maxExtent vs := by
  have aux : ∀ (xs : List ℝ) (x : ℝ), x ≤ xs.foldl (fun m y => if y < m then m else y) x ∧ ∀ y ∈ xs, y ≤ xs.foldl (fun m y => if y < m then m else y) x := by
    intro xs
    induction xs with
    | nil => intro x; simp
    | cons z xs ih =>
      intro x
      simp only [List.foldl_cons]
      split
      · next hlt =>
        obtain ⟨h1, h2⟩ := ih x
        refine ⟨h1, fun y hy => ?_⟩
        rcases List.mem_cons.1 hy with rfl | hy
        · exact hlt.le.trans h1
        · exact h2 y hy
      · next hlt =>
        obtain ⟨h1, h2⟩ := ih z
        refine ⟨(not_lt.1 hlt).trans h1, fun y hy => ?_⟩
        rcases List.mem_cons.1 hy with rfl | hy
        · exact h1
        · exact h2 y hy
  intro v hv
  cases vs with
  | nil => simp at hv
  | cons u us =>
    simp only [maxExtent, List.map_cons]
    obtain ⟨h1, h2⟩ := aux (us.map V3.norm) u.norm
    rcases List.mem_cons.1 hv with rfl | hv
    · exact h1
    · exact h2 _ (List.mem_map.2 ⟨v, hv, rfl⟩)

/-- C48, polyhedra: the bounding sphere contains the solid, and is the smallest one around the origin. -/
theorem c48_polyhedron (vs : List (V3 ℝ)) : (∀ p, Hull3 vs p → (Polyhedron.new vs).sphere.Mem p) ∧
    (vs ≠ [] → ∃ v ∈ vs, v.norm = (Polyhedron.new vs).sphere.radius) ∧
    (vs = [] → (Polyhedron.new vs).sphere.radius = 0) := by
  refine ⟨?_, ?_, by rintro rfl; rfl⟩
  · intro p hp
    have h0 : ∀ p : V3 ℝ, p - 0 = p := by intro p; ext <;> simp
    unfold Sphere.Mem
    show (p - 0).norm ≤ maxExtent vs
    rw [h0]
    induction hp with
    | vertex hv => exact maxExtent_ge vs _ hv
    | @seg p q t _ _ t0 t1 ih1 ih2 =>
      have e : p + (q - p) * t = p * (1 - t) + q * t := by ext <;> simp <;> ring
      rw [e]
      refine (V3.norm_add_le _ _).trans ?_
      have n1 : ∀ (v : V3 ℝ) (s : ℝ), 0 ≤ s → (v * s).norm = s * v.norm := by
        intro v s hs
        have : (v * s).dot (v * s) = s ^ 2 * v.dot v := by simp [V3.dot]; ring
        rw [V3.norm, this, Real.sqrt_mul (sq_nonneg s), Real.sqrt_sq hs]; rfl
      rw [n1 _ _ (by linarith), n1 _ _ t0]
      have := mul_le_mul_of_nonneg_left ih1 (show 0 ≤ 1 - t by linarith)
      have := mul_le_mul_of_nonneg_left ih2 t0
      linarith
  · intro hne
    have aux : ∀ (xs : List ℝ) (x : ℝ), xs.foldl (fun m y => if y < m then m else y) x = x ∨ xs.foldl (fun m y => if y < m then m else y) x ∈ xs := by
      intro xs
      induction xs with
      | nil => intro x; exact Or.inl rfl
      | cons z xs ih =>
        intro x
        simp only [List.foldl_cons]
        split
        · rcases ih x with h | h
          · exact Or.inl h
          · exact Or.inr (List.mem_cons_of_mem _ h)
        · rcases ih z with h | h
          · exact Or.inr (by rw [h]; exact List.mem_cons_self)
          · exact Or.inr (List.mem_cons_of_mem _ h)
    obtain ⟨u, us, rfl⟩ := List.exists_cons_of_ne_nil hne
    show ∃ v ∈ u :: us, v.norm = maxExtent (u :: us)
    simp only [maxExtent, List.map_cons]
    rcases aux (us.map V3.norm) u.norm with h | h
    · exact ⟨u, by simp, h.symm⟩
    · obtain ⟨v, hv, e⟩ := List.mem_map.1 h
      exact ⟨v, by simp [hv], e⟩

/-- C48, polyhedra with faces: whenever the construction succeeds, the sphere (and the box) are those of the vertices. -/
theorem c48_polyhedron_faces {vs : List (V3 ℝ)} {fs : List Tri} {P : Polyhedron} (h : Polyhedron.newWithFaces vs fs = .ok P) :
    P.sphere = (Polyhedron.new vs).sphere ∧ P.bound = (Polyhedron.new vs).bound ∧ ∀ p, Hull3 vs p → P.sphere.Mem p := by
  unfold Polyhedron.newWithFaces at h
  obtain ⟨pl, -, h⟩ := Res.bind_eq_ok.1 h
  obtain ⟨m, -, h⟩ := Res.bind_eq_ok.1 h
  cases h
  exact ⟨rfl, rfl, (c48_polyhedron vs).1⟩

/-- C62, faces: the face iterator yields the positions of the given triangles in the given order, then ends. -/
theorem c62_faces_iter {vs : List (V3 ℝ)} {fs : List Tri} (hok : ∀ f ∈ fs, TriOk vs.length f) (hor : Oriented fs)
    (hn : ∀ f ∈ fs, ∃ a b c, vs[f.1]? = some a ∧ vs[f.2.1]? = some b ∧ vs[f.2.2]? = some c ∧ (b - a).cross (c - a) ≠ 0) :
    ∃ P, Polyhedron.newWithFaces vs fs = .ok P ∧
      (∀ (k : Nat) f a b c, fs[k]? = some f → vs[f.1]? = some a → vs[f.2.1]? = some b → vs[f.2.2]? = some c → P.faceAt k = .ok (some (a, b, c))) ∧
      (∀ k, fs.length ≤ k → P.faceAt k = .ok none) := by
  obtain ⟨P, p1, p2, p3, p4, -⟩ := newWithFaces_ok hok hor hn
  refine ⟨P, p1, ?_, ?_⟩
  · intro k f a b c hk ha hb hc
    have : (P.mesh.faces.map HFace.verts)[k]? = some f := by rw [p4.faces]; exact hk
    rw [List.getElem?_map] at this
    obtain ⟨hf, e1, e2⟩ := Option.map_eq_some_iff.1 this
    unfold Polyhedron.faceAt
    rw [e1]
    simp only [e2, p3, ha, hb, hc, Res.ofOption_some, Res.bind_ok, Res.pure_eq]
  · intro k hk
    have : P.mesh.faces[k]? = none := by
      rw [List.getElem?_eq_none_iff]
      have := congrArg List.length p4.faces
      simp at this
      omega
    unfold Polyhedron.faceAt
    rw [this]

end Verif.Primitive
