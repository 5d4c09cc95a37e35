import Verif.Dbvt.Props
/-!
# Queries when only some volumes are sound

`EnclosesOn O ok enc` asks the laws of `Encloses` only of the volumes that satisfy `ok` (for instance: no coordinate is NaN). As long as the values that are
*now* in the tree have sound bounds, queries are exact, whatever volumes went through the tree before.
-/
namespace Verif.Dbvt
open Verif
variable {V B S R : Type}

/-- The laws of enclosure for the volumes that are `ok`. -/
structure EnclosesOn (O : Ops V B S) (ok : B → Prop) (enc : B → B → Prop) : Prop where
  trans : ∀ {a b c}, enc a b → enc b c → enc a c
  union : ∀ {a b}, ok a → ok b → ok (O.union a b) ∧ enc (O.union a b) a ∧ enc (O.union a b) b
  contains : ∀ {a b}, O.contains a b = true → ok a ∧ enc a b

theorem encl_of_ok_on (O : Ops V B S) {ok : B → Prop} {enc : B → B → Prop} (he : EnclosesOn O ok enc) {s : Dbvt V B}
    (hv : ValsOK s.nodes s.values)
    (hok : ∀ (i : Nat) (b : Branch B), s.nodes[i]? = some (.branch b) → LocalOK O s.nodes b)
    (hfat : ∀ (i : Nat) (l : Leaf B) (e : Nat × V), s.nodes[i]? = some (.leaf l) → s.values[l.value]? = some e →
      ok l.bound ∧ enc l.bound (O.bound e.2)) (w : T) :
    ∀ p, Rep (skelAt s.nodes) p w → ∃ hb, hbAt s.nodes w.root = some hb ∧ ok hb.2 ∧ ∀ j ∈ w.leaves, ∀ l e, s.nodes[j]? = some (.leaf l) →
      s.values[l.value]? = some e → enc hb.2 (O.bound e.2) := by
  induction w with
  | leaf i =>
    intro p hrep
    obtain ⟨l, hl, -⟩ := skelAt_leaf hrep
    obtain ⟨v, hval⟩ := hv.toVal i l hl
    refine ⟨(1, l.bound), by simp [hbAt, hl, Node.hb], (hfat i l _ hl hval).1, ?_⟩
    intro j hj l' e hl' hv'
    simp at hj; subst hj
    rw [hl] at hl'; simp at hl'; subst hl'
    exact (hfat j l e hl hv').2
  | node i a c iha ihc =>
    intro p hrep
    obtain ⟨b, hb, -, e1, e2⟩ := skelAt_branch hrep.1
    obtain ⟨x, y, hx, hy, -, hbd⟩ := hok i b hb
    obtain ⟨z, hz, oz, henz⟩ := iha i hrep.2.1
    obtain ⟨u, hu, ou, henu⟩ := ihc i hrep.2.2
    rw [e1, hz] at hx
    rw [e2, hu] at hy
    simp at hx hy; subst hx; subst hy
    obtain ⟨o1, o2, o3⟩ := he.union oz ou
    refine ⟨(b.height, b.bound), by simp [hbAt, hb, Node.hb], by rw [hbd]; exact o1, ?_⟩
    intro j hj l e hl hv'
    simp only [T.leaves_node, List.mem_append] at hj
    rw [hbd]
    rcases hj with hj | hj
    · exact he.trans o2 (henz j hj l e hl hv')
    · exact he.trans o3 (henu j hj l e hl hv')

/-- Exact queries, if every value now in the tree has a sound bound. -/
theorem query_healed (O : Ops V B S) (ok : B → Prop) (enc : B → B → Prop) (hen : EnclosesOn O ok enc)
    (hfat : ∀ v, ok (O.bound v) → O.contains (O.fat v) (O.bound v) = true)
    (f : B → Bool → Option R) (hm : MonoVisitor enc f)
    {h : Hist V} {s : Dbvt V B} (he : Exec O h s) (hd : Disciplined O h) (hu : UpToDate O h)
    (hr : Refitted! h) (hok : ∀ e ∈ s.values, ok (O.bound e.2)) {n : Nat} (hh : s.height = .ok n) :
    ((∃ l, s.queryForIndices O (pureVisitor f) () = .ok l ∧ l.Perm (exactIndices O f s)) ∧
      (∃ l, s.query O (pureVisitor f) () = .ok l ∧ l.Perm (exactValues O f s))) ∨
    (256 < n ∧ s.queryForIndices O (pureVisitor f) () = .panic ∧ s.query O (pureVisitor f) () = .panic) := by
  have hi := exec_inv O he
  have main : (∃ l, s.queryForIndices O (pureVisitor f) () = .ok l ∧ l.Perm (exactIndices O f s)) ∨
      (256 < n ∧ s.queryForIndices O (pureVisitor f) () = .panic) := by
    rcases hi.wf with hw | ⟨t, hw⟩
    · left; exact ⟨[], queryForIndices_empty O hw _ _, by simp [exactIndices, hw.values]⟩
    · have hht : n = t.height := by
        obtain ⟨m, h1, -, h2, h3, h4⟩ := c04_height O he hr
        rw [hh] at h1; simp at h1; subst h1
        have hl := (leaves_values hw).length_eq
        simp only [List.length_map] at hl
        have hp := t.leaves_pos
        have hne : s.values ≠ [] := by intro e; rw [e] at hl; simp at hl; omega
        refine levels_unique (h2 hne) ?_
        rw [hw.shape.root_eq]; exact levels_of_rep t 0 hw.shape.rep
      rcases queryForIndices_tree O hw (pureVisitor f) () with h1 | ⟨h0, h1⟩
      · left
        refine ⟨_, h1, ?_⟩
        have hcov := hi.cov ok hfat hd
        have henc : ∀ (i : Nat) (l : Leaf B) (e : Nat × V), s.nodes[i]? = some (.leaf l) →
            s.values[l.value]? = some e → ok l.bound ∧ enc l.bound (O.bound e.2) := by
          intro i l e hl hv
          rcases hcov e (List.mem_of_getElem? hv) (hok e (List.mem_of_getElem? hv)) with h | h | ⟨bd, h2, h3⟩
          · rw [hu.1] at h; simp at h
          · exact absurd h (hu.2 _)
          · obtain ⟨w, hw'⟩ := hw.vals.toVal i l hl
            rw [hv] at hw'
            simp at hw'; subst hw'
            rw [leafAt_of hl] at h2
            simp at h2; subst h2
            exact hen.contains h3
        have := qT_exact O enc s f hm hw.vals t ?_ ⟨0, hw.shape.rep⟩
        · exact this.trans (leaves_range hw (fun k => (s.values[k]?).bind fun e =>
            (f (O.bound e.2) true).map fun r => (k, r)))
        · rintro i b hb w ⟨p, hrep⟩ rfl j hj l e hl hv
          obtain ⟨z, hz, -, hez⟩ := encl_of_ok_on O hen hw.vals (local_ok O he hr) henc w p hrep
          simp [hbAt, hb, Node.hb] at hz
          have := hez j hj l e hl hv
          rw [← hz] at this
          exact this
      · right; exact ⟨by omega, h0⟩
  rcases main with ⟨l, h1, h2⟩ | ⟨h0, h1⟩
  · refine Or.inl ⟨⟨l, h1, h2⟩, ?_⟩
    refine ⟨_, query_map O h1 fun p hp => exactIndices_lt O f s p (h2.mem_iff.1 hp), ?_⟩
    exact ((h2.filterMap _).trans (List.Perm.of_eq (exactIndices_values O f s)))
  · exact Or.inr ⟨h0, h1, by unfold Dbvt.query; rw [h1]; rfl⟩

end Verif.Dbvt
