import Verif.Dbvt.Within
import Verif.Dbvt.BoxTree
/-!
# Queries of trees whose unions enclose their arguments only up to an error (C119)

With rounding, the union of two spheres can be a little too small, and the errors of the levels add up. `graded_found`: a query finds a value if, level by level, what holds of the volumes above it makes the
test succeed.
-/
namespace Verif.Dbvt
open Verif
set_option linter.unusedSectionVars false
variable {V B S : Type}

/-- A value is found below `u` if every branch above it passes the test. -/
theorem qT_mem (O : Ops V B S) (s : Dbvt V B) {Q : Type} (f : B → Option Q) (w : T) {j : Nat} {l : Leaf B} {e : Nat × V} {r : Q} (hj : j ∈ w.leaves) (hl : s.nodes[j]? = some (.leaf l)) (hv : s.values[l.value]? = some e)
    (ht : f (O.bound e.2) = some r) (habove : ∀ (i : Nat) (b : Branch B), s.nodes[i]? = some (.branch b) → ∀ u : T, (∃ p, Rep (skelAt s.nodes) p u) → u.root = i → u.height ≤ w.height → j ∈ u.leaves → (f b.bound).isSome = true) :
    (∃ p, Rep (skelAt s.nodes) p w) → (l.value, r) ∈ (qT O s (pureVisitor fun b _ => f b) w ()).1 := by
  induction w with
  | leaf i =>
    rintro ⟨p, hrep⟩
    simp only [T.leaves_leaf, List.mem_singleton] at hj
    subst hj
    simp [qT, hl, hv, pureVisitor, ht]
  | node i a c iha ihc =>
    rintro ⟨p, hrep⟩
    obtain ⟨b, hb, -⟩ := skelAt_branch hrep.1
    have h1 := habove i b hb (.node i a c) ⟨p, hrep⟩ rfl le_rfl hj
    obtain ⟨r', h1⟩ := Option.isSome_iff_exists.1 h1
    simp only [qT, hb, pureVisitor, h1]
    simp only [T.leaves_node, List.mem_append] at hj
    have ha : a.height ≤ (T.node i a c).height := by simp; omega
    have hc : c.height ≤ (T.node i a c).height := by simp; omega
    refine List.mem_append.2 ?_
    rcases hj with hj | hj
    · exact Or.inr (iha hj (fun k b' hb' u hu hr hh => habove k b' hb' u hu hr (hh.trans ha)) ⟨_, hrep.2.1⟩)
    · exact Or.inl (ihc hj (fun k b' hb' u hu hr hh => habove k b' hb' u hu hr (hh.trans hc)) ⟨_, hrep.2.2⟩)

/-- What holds of the volumes of a tree, by levels: `P` for all, `Q` for those above leaf `j`. -/
theorem graded_levels (O : Ops V B S) {s : Dbvt V B} (hok : ∀ (i : Nat) (b : Branch B), s.nodes[i]? = some (.branch b) → LocalOK O s.nodes b) (P Q : Nat → B → Prop) (N : Nat)
    (hP : ∀ n x, P n x → P (n + 1) x) (hQ : ∀ n x, Q n x → Q (n + 1) x)
    (hPU : ∀ n x y, n < N → P n x → P n y → P (n + 1) (O.union x y))
    (hQl : ∀ n x y, n < N → P n x → P n y → Q n x → Q (n + 1) (O.union x y))
    (hQr : ∀ n x y, n < N → P n x → P n y → Q n y → Q (n + 1) (O.union x y))
    (hleaf : ∀ (i : Nat) (l : Leaf B), s.nodes[i]? = some (.leaf l) → P 0 l.bound) {j : Nat} {lj : Leaf B} (hj : s.nodes[j]? = some (.leaf lj)) (hQj : Q 0 lj.bound) (w : T) :
    ∀ p, Rep (skelAt s.nodes) p w → w.height ≤ N + 1 → ∃ hb, hbAt s.nodes w.root = some hb ∧ P (w.height - 1) hb.2 ∧ (j ∈ w.leaves → Q (w.height - 1) hb.2) := by
  have upP : ∀ m n x, n ≤ m → P n x → P m x := by
    intro m n x hnm h
    induction hnm with
    | refl => exact h
    | step _ ih => exact hP _ _ ih
  have upQ : ∀ m n x, n ≤ m → Q n x → Q m x := by
    intro m n x hnm h
    induction hnm with
    | refl => exact h
    | step _ ih => exact hQ _ _ ih
  induction w with
  | leaf i =>
    intro p hrep _
    obtain ⟨l, hl, -⟩ := skelAt_leaf hrep
    refine ⟨(1, l.bound), by simp [hbAt, hl, Node.hb], hleaf i l hl, fun h => ?_⟩
    simp only [T.leaves_leaf, List.mem_singleton] at h
    subst h
    rw [hj] at hl
    cases hl
    exact hQj
  | node i a c iha ihc =>
    intro p hrep hH
    obtain ⟨b, hb, -, e1, e2⟩ := skelAt_branch hrep.1
    obtain ⟨x, y, hx, hy, -, hbd⟩ := hok i b hb
    simp only [T.height_node] at hH
    have pa := a.height_pos
    have pc := c.height_pos
    obtain ⟨u, hu, pu, qu⟩ := iha i hrep.2.1 (by omega)
    obtain ⟨v, hv, pv, qv⟩ := ihc i hrep.2.2 (by omega)
    rw [e1, hu] at hx
    rw [e2, hv] at hy
    cases hx
    cases hy
    have k1 : a.height - 1 ≤ max a.height c.height - 1 := by omega
    have k2 : c.height - 1 ≤ max a.height c.height - 1 := by omega
    have e : (T.node i a c).height - 1 = (max a.height c.height - 1) + 1 := by simp; omega
    refine ⟨(b.height, b.bound), by simp [hbAt, hb, Node.hb], ?_, ?_⟩
    · rw [e, hbd]
      exact hPU _ _ _ (by omega) (upP _ _ _ k1 pu) (upP _ _ _ k2 pv)
    · intro h
      rw [e, hbd]
      simp only [T.leaves_node, List.mem_append] at h
      rcases h with h | h
      · exact hQl _ _ _ (by omega) (upP _ _ _ k1 pu) (upP _ _ _ k2 pv) (upQ _ _ _ k1 (qu h))
      · exact hQr _ _ _ (by omega) (upP _ _ _ k1 pu) (upP _ _ _ k2 pv) (upQ _ _ _ k2 (qv h))

/-- A query with a visitor without state finds a stored value if the volumes above it pass the test, where what is known of them may get weaker from level to level. -/
theorem graded_pure (O : Ops V B S) {h : Hist V} {s : Dbvt V B} (he : Exec O h s) (hd : Disciplined O h) (hu : UpToDate O h) (hr : Refitted! h) {n : Nat} (hh : s.height = .ok n) (hn : n ≤ 256)
    {e : Nat × V} (hv : e ∈ s.values) (ok : B → Prop) (hfat : ∀ v, ok (O.bound v) → O.contains (O.fat v) (O.bound v) = true) (hok : ok (O.bound e.2)) (P Q : Nat → B → Prop)
    (hP : ∀ n x, P n x → P (n + 1) x) (hQ : ∀ n x, Q n x → Q (n + 1) x)
    (hPU : ∀ k x y, k + 1 < n → P k x → P k y → P (k + 1) (O.union x y))
    (hQl : ∀ k x y, k + 1 < n → P k x → P k y → Q k x → Q (k + 1) (O.union x y))
    (hQr : ∀ k x y, k + 1 < n → P k x → P k y → Q k y → Q (k + 1) (O.union x y))
    (hP0 : ∀ v, Given h v → P 0 (O.fat v)) (hQ0 : ∀ x, P 0 x → O.contains x (O.bound e.2) = true → Q 0 x) {Q' : Type} (f : B → Option Q') {r : Q'} (ht : f (O.bound e.2) = some r)
    (hQt : ∀ k x, k < n → P k x → Q k x → (f x).isSome = true) :
    ∃ l, s.query O (pureVisitor fun b _ => f b) () = .ok l ∧ (e.2, r) ∈ l := by
  have hi := exec_inv O he
  rcases hi.wf with hw | ⟨t, hw⟩
  · rw [hw.values] at hv
    cases hv
  have hht : n = t.height := by
    obtain ⟨m, h1, -, h2, -⟩ := c04_height O he hr
    rw [hh] at h1
    cases h1
    exact levels_unique (h2 (List.ne_nil_of_mem hv)) (by rw [hw.shape.root_eq]; exact levels_of_rep t 0 hw.shape.rep)
  have hlok := local_ok O he hr
  obtain ⟨k, hk⟩ := List.mem_iff_getElem?.1 hv
  obtain ⟨l, hl, hlv⟩ := hw.vals.toLeaf k e.1 e.2 hk
  have hjt : e.1 ∈ t.leaves := hw.shape.leaf_iff.2 ⟨l, hl⟩
  have hleaf : ∀ (i : Nat) (l : Leaf B), s.nodes[i]? = some (.leaf l) → P 0 l.bound := by
    intro i l hl
    obtain ⟨v, hg, e'⟩ := c112_leaf O he hl
    rw [e']
    exact hP0 v hg
  have hc : O.contains l.bound (O.bound e.2) = true := by
    rcases hi.cov ok hfat hd e hv hok with h | h | ⟨bd, h2, h3⟩
    · rw [hu.1] at h
      cases h
    · exact absurd h (hu.2 _)
    · rw [leafAt_of hl] at h2
      simp only [Option.map_some, Option.some.injEq] at h2
      rw [h2]
      exact h3
  have key := graded_levels O hlok P Q (n - 1) hP hQ (fun k x y hk => hPU k x y (by omega)) (fun k x y hk => hQl k x y (by omega)) (fun k x y hk => hQr k x y (by omega)) hleaf hl (hQ0 _ (hleaf _ _ hl) hc)
  have hp := t.height_pos
  have mem := qT_mem O s f t (j := e.1) (l := l) (e := e) hjt hl (by rw [hlv]; exact hk) ht (by
    rintro i b hb w ⟨p, hrep⟩ rfl hwh hjw
    obtain ⟨hb', e1, e2, e3⟩ := key w p hrep (by omega)
    have hwp := w.height_pos
    have : hb'.2 = b.bound := by
      simp only [hbAt, hb, Option.bind_some, Node.hb, Option.some.injEq] at e1
      rw [← e1]
    rw [← this]
    exact hQt _ _ (by omega) e2 (e3 hjw)) ⟨0, hw.shape.rep⟩
  rcases queryForIndices_tree O hw (pureVisitor fun b _ => f b) () with h1 | ⟨-, h0⟩
  · have hlt : ∀ p ∈ (qT O s (pureVisitor fun b _ => f b) t ()).1, p.1 < s.values.length := by
      intro p hp
      obtain ⟨-, h3⟩ := c08_query_sound O he (pureVisitor fun b _ => f b) () h1
      obtain ⟨e', st, h4, -⟩ := h3 p.1 p.2 hp
      exact (List.getElem?_eq_some_iff.1 h4).1
    refine ⟨_, query_map O h1 hlt, ?_⟩
    refine List.mem_filterMap.2 ⟨(l.value, r), mem, ?_⟩
    simp [hlv, hk]
  · omega

/-- A query finds a stored value if the volumes above it pass the test, where what is known of them may get weaker from level to level. -/
theorem graded_found (O : Ops V B S) {h : Hist V} {s : Dbvt V B} (he : Exec O h s) (hd : Disciplined O h) (hu : UpToDate O h) (hr : Refitted! h) {n : Nat} (hh : s.height = .ok n) (hn : n ≤ 256)
    {e : Nat × V} (hv : e ∈ s.values) (ok : B → Prop) (hfat : ∀ v, ok (O.bound v) → O.contains (O.fat v) (O.bound v) = true) (hok : ok (O.bound e.2)) (P Q : Nat → B → Prop)
    (hP : ∀ n x, P n x → P (n + 1) x) (hQ : ∀ n x, Q n x → Q (n + 1) x)
    (hPU : ∀ k x y, k + 1 < n → P k x → P k y → P (k + 1) (O.union x y))
    (hQl : ∀ k x y, k + 1 < n → P k x → P k y → Q k x → Q (k + 1) (O.union x y))
    (hQr : ∀ k x y, k + 1 < n → P k x → P k y → Q k y → Q (k + 1) (O.union x y))
    (hP0 : ∀ v, Given h v → P 0 (O.fat v)) (hQ0 : ∀ x, P 0 x → O.contains x (O.bound e.2) = true → Q 0 x) (test : B → Bool) (ht : test (O.bound e.2) = true)
    (hQt : ∀ k x, k < n → P k x → Q k x → test x = true) :
    ∃ l, s.query O (discreteVisitor test) () = .ok l ∧ e.2 ∈ l.map Prod.fst := by
  have ht' : ∀ k x, k < n → P k x → Q k x → (if test x then some () else none).isSome = true := fun k x hk hp hq => by simp [hQt k x hk hp hq]
  obtain ⟨l, h1, h2⟩ := graded_pure O he hd hu hr hh hn hv ok hfat hok P Q hP hQ hPU hQl hQr hP0 hQ0 (fun b => if test b then some () else none) (r := ()) (if_pos ht) ht'
  exact ⟨l, h1, List.mem_map.2 ⟨_, h2, rfl⟩⟩
end Verif.Dbvt
