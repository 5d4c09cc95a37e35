import Verif.Minkowski.Epa3Comb
/-!
# The EPA polytope surrounds the origin (for C70 in 3D)
-/
namespace Verif.Minkowski
open Verif Geom Primitive
set_option linter.unusedSectionVars false

section
variable {K : Type} [Field K] [LinearOrder K] [IsStrictOrderedRing K]

/-- `u` lies in no plane spanned by two of the first `n` points. -/
def Generic (P : Nat → V3 K) (n : Nat) (u : V3 K) : Prop := ∀ i j, i < n → j < n → (P i).cross (P j) ≠ 0 → vol u (P i) (P j) ≠ 0

/-- `side` for a triangle of indices. -/
def sideT (P : Nat → V3 K) (t : Nat × Nat × Nat) (x : V3 K) : K := side (P t.1) (P t.2.1) (P t.2.2) x
/-- `vol` for a triangle of indices. -/
def volT (P : Nat → V3 K) (t : Nat × Nat × Nat) : K := vol (P t.1) (P t.2.1) (P t.2.2)
/-- `chi` for a triangle of indices. -/
noncomputable def chiT (P : Nat → V3 K) (u : V3 K) (t : Nat × Nat × Nat) : ZMod 2 := chi u (P t.1) (P t.2.1) (P t.2.2)

/-- A closed surface of triangles around the origin, with all points, and the point `o`, on the inner side of every triangle. -/
structure Hull (P : Nat → V3 K) (o : V3 K) (n : Nat) (ts : List (Nat × Nat × Nat)) : Prop where
  lt : ∀ t ∈ ts, t.1 < n ∧ t.2.1 < n ∧ t.2.2 < n
  pos : ∀ t ∈ ts, 0 < volT P t
  below : ∀ t ∈ ts, ∀ i, i < n → sideT P t (P i) ≤ 0
  inside : ∀ t ∈ ts, sideT P t o ≤ 0
  closed : ∀ φ : Nat × Nat → ℤ, (∀ a b, φ (b, a) = -φ (a, b)) → ((ts.flatMap triEdges).map φ).sum = 0
  parity : ∀ u, Generic P n u → (ts.map (chiT P u)).sum = 1

theorem Generic.mono {P : Nat → V3 K} {n : Nat} {u : V3 K} (h : Generic P (n + 1) u) : Generic P n u :=
  fun i j hi hj => h i j (by omega) (by omega)

theorem Hull.congr {P P' : Nat → V3 K} {o : V3 K} {n : Nat} {ts : List (Nat × Nat × Nat)} (h : Hull P o n ts) (he : ∀ i, i < n → P' i = P i) : Hull P' o n ts := by
  have e : ∀ t ∈ ts, P' t.1 = P t.1 ∧ P' t.2.1 = P t.2.1 ∧ P' t.2.2 = P t.2.2 := fun t ht =>
    ⟨he _ (h.lt t ht).1, he _ (h.lt t ht).2.1, he _ (h.lt t ht).2.2⟩
  refine ⟨h.lt, ?_, ?_, ?_, h.closed, ?_⟩
  · intro t ht; unfold volT; rw [(e t ht).1, (e t ht).2.1, (e t ht).2.2]; exact h.pos t ht
  · intro t ht i hi; unfold sideT; rw [(e t ht).1, (e t ht).2.1, (e t ht).2.2, he i hi]; exact h.below t ht i hi
  · intro t ht; unfold sideT; rw [(e t ht).1, (e t ht).2.1, (e t ht).2.2]; exact h.inside t ht
  · intro u hu
    rw [← h.parity u (fun i j hi hj => by rw [← he i hi, ← he j hj]; exact hu i j hi hj)]
    congr 1
    refine List.map_congr_left fun t ht => ?_
    unfold chiT; rw [(e t ht).1, (e t ht).2.1, (e t ht).2.2]

theorem edge_rot (P : Nat → V3 K) {t : Nat × Nat × Nat} {a b : Nat} (h : (a, b) ∈ triEdges t) :
    ∃ c, (c = t.1 ∨ c = t.2.1 ∨ c = t.2.2) ∧ (∀ x, side (P a) (P b) (P c) x = sideT P t x) ∧ vol (P a) (P b) (P c) = volT P t := by
  obtain ⟨x, y, z⟩ := t
  simp only [triEdges, List.mem_cons, Prod.mk.injEq, List.not_mem_nil, or_false] at h
  rcases h with ⟨rfl, rfl⟩ | ⟨rfl, rfl⟩ | ⟨rfl, rfl⟩
  · exact ⟨z, .inr (.inr rfl), fun _ => rfl, rfl⟩
  · exact ⟨x, .inl rfl, fun w => side_rot _ _ _ _, vol_rot _ _ _⟩
  · exact ⟨y, .inr (.inl rfl), fun w => by rw [← side_rot]; rfl, by rw [← vol_rot]; rfl⟩

theorem sum_count (l : List (Nat × Nat)) (a b : Nat × Nat) :
    (l.map (fun e => (if e = a then (1 : ℤ) else 0) - (if e = b then 1 else 0))).sum = l.count a - l.count b := by
  induction l with
  | nil => simp
  | cons e l ih =>
    rw [List.map_cons, List.sum_cons, ih, List.count_cons, List.count_cons]
    simp only [beq_iff_eq]
    split <;> split <;> push_cast <;> ring

theorem zmod2_neg (x : ZMod 2) : x = -x := by revert x; decide

theorem cross_ne_of_vol {a b c : V3 K} (h : 0 < vol a b c) : a.cross b ≠ 0 ∧ b.cross c ≠ 0 ∧ c.cross a ≠ 0 := by
  have e1 : vol a b c = c.dot (a.cross b) := by simp only [vol, V3.dot, V3.cross]; ring
  have e2 : vol a b c = b.dot (c.cross a) := by simp only [vol, V3.dot, V3.cross]; ring
  refine ⟨?_, ?_, ?_⟩ <;> intro h0
  · rw [e1, h0] at h; simp [V3.dot] at h
  · rw [vol, h0] at h; simp [V3.dot] at h
  · rw [e2, h0] at h; simp [V3.dot] at h

/-- Adding a point: the triangles that see it are replaced by the triangles from it to the horizon. -/
theorem Hull.step {P : Nat → V3 K} {o : V3 K} {n : Nat} {ts vis inv : List (Nat × Nat × Nat)} (h : Hull P o n ts) (hp : ts.Perm (vis ++ inv))
    (hv : ∀ t ∈ vis, 0 < sideT P t (P n)) (hi : ∀ t ∈ inv, sideT P t (P n) ≤ 0) :
    Hull P o (n + 1) (inv ++ ((vis.flatMap triEdges).foldl removeOrAddEdge []).map (fun e => (n, e.1, e.2))) := by
  set H := (vis.flatMap triEdges).foldl removeOrAddEdge [] with hH
  have mv : ∀ t ∈ vis, t ∈ ts := fun t ht => hp.symm.subset (List.mem_append_left _ ht)
  have mi : ∀ t ∈ inv, t ∈ ts := fun t ht => hp.symm.subset (List.mem_append_right _ ht)
  have hmem : ∀ e ∈ H, e ∈ vis.flatMap triEdges := by
    intro e he
    rcases mem_fold _ _ _ he with h | h
    · cases h
    · exact h
  have hdist : ∀ t ∈ ts, ∀ e ∈ triEdges t, e.1 ≠ e.2 := by
    intro t ht e he hne
    obtain ⟨c, -, -, hvol⟩ := edge_rot P (a := e.1) (b := e.2) he
    have := h.pos t ht
    rw [← hvol] at this
    have := (cross_ne_of_vol this).1
    rw [hne] at this
    apply this
    ext <;> simp [V3.cross] <;> ring
  have hnr : NoReverse H := noReverse_fold _ (by
    intro e he
    obtain ⟨t, ht, he⟩ := List.mem_flatMap.1 he
    exact hdist t (mv t ht) e he) [] (by intro a b h; cases h)
  have hsum : ∀ {A : Type} [AddCommGroup A] (φ : Nat × Nat → A), (∀ a b, φ (b, a) = -φ (a, b)) → (H.map φ).sum = ((vis.flatMap triEdges).map φ).sum := by
    intro A _ φ hφ
    rw [hH, sum_fold φ hφ]; simp
  have hall : ∀ φ : Nat × Nat → ℤ, (∀ a b, φ (b, a) = -φ (a, b)) → ((vis.flatMap triEdges).map φ).sum + ((inv.flatMap triEdges).map φ).sum = 0 := by
    intro φ hφ
    have := h.closed φ hφ
    rw [← this, ((hp.flatMap_right triEdges).map φ).sum_eq, List.flatMap_append, List.map_append, List.sum_append]
  -- a horizon edge separates a triangle that sees the point from one that does not
  have hor : ∀ a b, (a, b) ∈ H → (∃ t ∈ vis, (a, b) ∈ triEdges t) ∧ ∃ t ∈ inv, (b, a) ∈ triEdges t := by
    intro a b hab
    refine ⟨List.mem_flatMap.1 (hmem _ hab), ?_⟩
    have hφ : ∀ x y : Nat, (fun e : Nat × Nat => (if e = (a, b) then (1 : ℤ) else 0) - (if e = (b, a) then 1 else 0)) (y, x) =
        -(fun e : Nat × Nat => (if e = (a, b) then (1 : ℤ) else 0) - (if e = (b, a) then 1 else 0)) (x, y) := by
      intro x y
      have e1 : ((y, x) = (a, b)) ↔ ((x, y) = (b, a)) := by simp only [Prod.mk.injEq]; tauto
      have e2 : ((y, x) = (b, a)) ↔ ((x, y) = (a, b)) := by simp only [Prod.mk.injEq]; tauto
      simp only [e1, e2]; ring
    have h1 := hall (fun e : Nat × Nat => (if e = (a, b) then (1 : ℤ) else 0) - (if e = (b, a) then 1 else 0)) hφ
    have h2 := hsum (fun e : Nat × Nat => (if e = (a, b) then (1 : ℤ) else 0) - (if e = (b, a) then 1 else 0)) hφ
    rw [← h2, sum_count, sum_count] at h1
    have c1 : 0 < H.count (a, b) := List.count_pos_iff.2 hab
    have c2 : H.count (b, a) = 0 := List.count_eq_zero.2 (hnr a b hab)
    have c3 : 0 < (inv.flatMap triEdges).count (b, a) := by rw [c2] at h1; omega
    exact List.mem_flatMap.1 (List.count_pos_iff.1 c3)
  have vlt : ∀ t ∈ ts, ∀ c, (c = t.1 ∨ c = t.2.1 ∨ c = t.2.2) → c < n := by
    intro t ht c hc
    obtain ⟨h1, h2, h3⟩ := h.lt t ht
    rcases hc with rfl | rfl | rfl <;> assumption
  have elt : ∀ t ∈ ts, ∀ a b, (a, b) ∈ triEdges t → a < n ∧ b < n := by
    intro t ht a b hab
    obtain ⟨h1, h2, h3⟩ := h.lt t ht
    obtain ⟨x, y, z⟩ := t
    simp only [triEdges, List.mem_cons, Prod.mk.injEq, List.not_mem_nil, or_false] at hab
    rcases hab with ⟨rfl, rfl⟩ | ⟨rfl, rfl⟩ | ⟨rfl, rfl⟩ <;> constructor <;> assumption
  -- the new triangles are good
  have new : ∀ a b, (a, b) ∈ H → a < n ∧ b < n ∧ 0 < vol (P n) (P a) (P b) ∧ ∀ x, (∀ t ∈ ts, sideT P t x ≤ 0) → side (P n) (P a) (P b) x ≤ 0 := by
    intro a b hab
    obtain ⟨⟨t, ht, et⟩, t', ht', et'⟩ := hor a b hab
    obtain ⟨c, hc, s1, v1⟩ := edge_rot P et
    obtain ⟨d, hd, s2, v2⟩ := edge_rot P et'
    have p1 := h.pos t (mv t ht)
    have p2 := h.pos t' (mi t' ht')
    rw [← v1] at p1
    rw [← v2] at p2
    have q1 := hv t ht
    have q2 := hi t' ht'
    rw [← s1] at q1
    rw [← s2] at q2
    have q3 := h.below t' (mi t' ht') c (vlt t (mv t ht) c hc)
    rw [← s2] at q3
    obtain ⟨g1, g2⟩ := side_new p1 p2 q3 q1 q2
    refine ⟨(elt t (mv t ht) a b et).1, (elt t (mv t ht) a b et).2, g1, fun x hx => ?_⟩
    refine g2 _ ?_ ?_
    · rw [s1]; exact hx t (mv t ht)
    · rw [s2]; exact hx t' (mi t' ht')
  have newmem : ∀ t ∈ H.map (fun e => (n, e.1, e.2)), ∃ a b, (a, b) ∈ H ∧ t = (n, a, b) := by
    intro t ht
    obtain ⟨⟨a, b⟩, he, rfl⟩ := List.mem_map.1 ht
    exact ⟨a, b, he, rfl⟩
  refine ⟨?_, ?_, ?_, ?_, ?_, ?_⟩
  · intro t ht
    rcases List.mem_append.1 ht with ht | ht
    · obtain ⟨h1, h2, h3⟩ := h.lt t (mi t ht); exact ⟨by omega, by omega, by omega⟩
    · obtain ⟨a, b, hab, rfl⟩ := newmem t ht
      obtain ⟨h1, h2, -⟩ := new a b hab
      exact ⟨by simp, by simp; omega, by simp; omega⟩
  · intro t ht
    rcases List.mem_append.1 ht with ht | ht
    · exact h.pos t (mi t ht)
    · obtain ⟨a, b, hab, rfl⟩ := newmem t ht
      exact (new a b hab).2.2.1
  · intro t ht i hin
    rcases List.mem_append.1 ht with ht' | ht'
    · rcases Nat.lt_succ_iff_lt_or_eq.1 hin with hlt | heq
      · exact h.below t (mi t ht') i hlt
      · rw [heq]; exact hi t ht'
    · obtain ⟨a, b, hab, rfl⟩ := newmem t ht'
      rcases Nat.lt_succ_iff_lt_or_eq.1 hin with hlt | heq
      · exact (new a b hab).2.2.2 _ fun t ht => h.below t ht i hlt
      · rw [heq]; exact (side_self _ _ _).1.le
  · intro t ht
    rcases List.mem_append.1 ht with ht' | ht'
    · exact h.inside t (mi t ht')
    · obtain ⟨a, b, hab, rfl⟩ := newmem t ht'
      exact (new a b hab).2.2.2 _ h.inside
  · intro φ hφ
    rw [List.flatMap_append, List.map_append, List.sum_append]
    have e1 : ∀ l : List (Nat × Nat), (((l.map (fun e => (n, e.1, e.2))).flatMap triEdges).map φ).sum = (l.map (fun e => φ (n, e.1) - φ (n, e.2))).sum + (l.map φ).sum := by
      intro l
      induction l with
      | nil => simp
      | cons e l ih =>
        obtain ⟨a, b⟩ := e
        simp only [List.map_cons, List.flatMap_cons, List.map_append, List.sum_append, ih, triEdges, List.sum_cons, List.map_nil, List.sum_nil]
        rw [hφ n b]; ring
    have e2 : ∀ l : List (Nat × Nat × Nat), ((l.flatMap triEdges).map (fun e => φ (n, e.1) - φ (n, e.2))).sum = 0 := by
      intro l
      induction l with
      | nil => simp
      | cons t l ih =>
        simp only [List.flatMap_cons, List.map_append, List.sum_append, ih, triEdges, List.map_cons, List.sum_cons, List.map_nil, List.sum_nil]
        ring
    rw [e1, hsum φ hφ, hsum (fun e => φ (n, e.1) - φ (n, e.2)) (by intro a b; simp), e2]
    have := hall φ hφ
    linarith
  · intro u hu
    have hg := hu.mono
    rw [List.map_append, List.sum_append, List.map_map]
    have e1 : (H.map (chiT P u ∘ fun e => (n, e.1, e.2))).sum = ((vis.flatMap triEdges).map (chiT P u ∘ fun e => (n, e.1, e.2))).sum :=
      hsum _ (by
        intro a b
        rw [← zmod2_neg]
        exact chi_swap _ _ _ _)
    have e2 : ((vis.flatMap triEdges).map (chiT P u ∘ fun e => (n, e.1, e.2))).sum = (vis.map (chiT P u)).sum := by
      have : ∀ l : List (Nat × Nat × Nat), (∀ t ∈ l, t ∈ vis) → ((l.flatMap triEdges).map (chiT P u ∘ fun e => (n, e.1, e.2))).sum = (l.map (chiT P u)).sum := by
        intro l
        induction l with
        | nil => intro _; simp
        | cons t l ih =>
          intro hl
          rw [List.flatMap_cons, List.map_append, List.sum_append, ih (fun t ht => hl t (List.mem_cons_of_mem _ ht)), List.map_cons, List.sum_cons]
          congr 1
          have ht := hl t List.mem_cons_self
          have htp := h.pos t (mv t ht)
          have hts := hv t ht
          obtain ⟨l1, l2, l3⟩ := h.lt t (mv t ht)
          obtain ⟨a, b, c⟩ := t
          simp only [volT, sideT] at htp hts
          dsimp only at l1 l2 l3
          obtain ⟨c1, c2, c3⟩ := cross_ne_of_vol htp
          have key : ∀ x, ((P b - P a).cross (P c - P a)).dot x = side (P a) (P b) (P c) x + vol (P a) (P b) (P c) := by
            intro x; simp only [side, vol, V3.dot, V3.cross, V3.sub_x, V3.sub_y, V3.sub_z]; ring
          obtain ⟨z1, z2, z3⟩ := side_self (P a) (P b) (P c)
          have := chi_tetra (u := u) (a := P a) (b := P b) (c := P c) (p := P n) (h := (P b - P a).cross (P c - P a))
            (by rw [key, z1]; linarith) (by rw [key, z2]; linarith) (by rw [key, z3]; linarith) (by rw [key]; linarith)
            (hg a b l1 l2 c1) (hg b c l2 l3 c2) (hg c a l3 l1 c3)
            (hu n a (by omega) (by omega)) (hu n b (by omega) (by omega)) (hu n c (by omega) (by omega))
          simp only [triEdges, List.map_cons, List.map_nil, List.sum_cons, List.sum_nil, Function.comp, chiT]
          rw [← this]; ring
      exact this vis fun _ h => h
    rw [e1, e2, add_comm, ← h.parity u hg, (hp.map (chiT P u)).sum_eq, List.map_append, List.sum_append]
end
end Verif.Minkowski
