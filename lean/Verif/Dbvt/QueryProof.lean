import Verif.Dbvt.RefitProof
/-!
# Queries (proof machinery)
-/
namespace Verif.Dbvt
open Verif

variable {V B S σ R : Type}

/-- Recursive reading of the query loop over the stored tree: right child before left. -/
def qT (O : Ops V B S) (s : Dbvt V B) (vis : Visitor σ B R) : T → σ → List (Nat × R) × σ
  | .leaf i, st =>
    match s.nodes[i]? with
    | some (.leaf l) =>
      match s.values[l.value]? with
      | some e => match vis st (O.bound e.2) true with
        | (some r, st') => ([(l.value, r)], st')
        | (none, st') => ([], st')
      | none => ([], st)
    | _ => ([], st)
  | .node i l r, st =>
    match s.nodes[i]? with
    | some (.branch b) =>
      match vis st b.bound false with
      | (some _, st') =>
        let p := qT O s vis r st'
        let q := qT O s vis l p.2
        (p.1 ++ q.1, q.2)
      | (none, st') => ([], st')
    | _ => ([], st)

theorem queryLoop_tree (O : Ops V B S) (s : Dbvt V B) (hv : ValsOK s.nodes s.values)
    (vis : Visitor σ B R) (u : T) : ∀ (p : Nat), Rep (skelAt s.nodes) p u →
    ∀ (fuel : Nat) (rest : List Nat) (acc : List (Nat × R)) (st : σ), u.idxs.length ≤ fuel →
    (∃ fuel', fuel ≤ fuel' + u.idxs.length ∧
      queryLoop O s vis fuel (u.root :: rest) acc st =
        queryLoop O s vis fuel' rest (acc ++ (qT O s vis u st).1) (qT O s vis u st).2) ∨
    (queryLoop O s vis fuel (u.root :: rest) acc st = .panic ∧ 256 < rest.length + u.height) := by
  induction u with
  | leaf i =>
    intro p hrep fuel rest acc st hf
    left
    obtain ⟨l, hl, -⟩ := skelAt_leaf hrep
    obtain ⟨v, hval⟩ := hv.toVal i l hl
    cases fuel with
    | zero => simp at hf
    | succ fuel =>
      refine ⟨fuel, by simp, ?_⟩
      simp only [T.root_leaf, queryLoop, nodeAt_some hl, Res.bind_ok, hval, Res.ofOption_some, qT, hl]
      rcases vis st (O.bound v) true with ⟨_ | r, st'⟩ <;> simp
  | node i l r ihl ihr =>
    intro p hrep fuel rest acc st hf
    obtain ⟨b, hb, -, e1, e2⟩ := skelAt_branch hrep.1
    simp only [T.idxs_node, List.length_cons, List.length_append] at hf
    cases fuel with
    | zero => omega
    | succ fuel =>
      simp only [T.root_node, queryLoop, nodeAt_some hb, Res.bind_ok, qT, hb, T.idxs_node,
        List.length_cons, List.length_append, T.height_node]
      rcases hvis : vis st b.bound false with ⟨_ | r0, st'⟩
      · left; exact ⟨fuel, by omega, by simp⟩
      · simp only
        have hlp := l.height_pos
        have hrp := r.height_pos
        split
        · rename_i hstk
          rw [e1, e2]
          rcases ihr i hrep.2.2 fuel (l.root :: rest) acc st' (by omega) with ⟨f1, hf1, h1⟩ | ⟨h1, h2⟩
          · rw [h1]
            rcases ihl i hrep.2.1 f1 rest (acc ++ (qT O s vis r st').1) (qT O s vis r st').2 (by omega) with
              ⟨f2, hf2, h2⟩ | ⟨h2, h3⟩
            · left
              exact ⟨f2, by omega, by rw [h2, List.append_assoc]⟩
            · right; exact ⟨h2, by omega⟩
          · right
            simp only [List.length_cons] at h2
            exact ⟨h1, by omega⟩
        · right; exact ⟨rfl, by omega⟩

theorem queryLoop_nil (O : Ops V B S) (s : Dbvt V B) (vis : Visitor σ B R) (fuel : Nat)
    (acc : List (Nat × R)) (st : σ) : queryLoop O s vis fuel [] acc st = .ok (acc, st) := by
  cases fuel <;> rfl

/-- A query either panics because of the fixed-size stack (only possible when the tree is more than
256 levels high) or returns the results of the recursive reading. -/
theorem queryForIndices_tree (O : Ops V B S) {s : Dbvt V B} {t : T} (h : WFt s t)
    (vis : Visitor σ B R) (st : σ) :
    s.queryForIndices O vis st = .ok (qT O s vis t st).1 ∨
    (s.queryForIndices O vis st = .panic ∧ 256 < t.height) := by
  have hl := h.shape.length_le
  have hroot := h.shape.root_eq
  rcases queryLoop_tree O s h.vals vis t 0 h.shape.rep s.nodes.length [] [] st (by omega) with
    ⟨f, hf, h1⟩ | ⟨h1, h2⟩
  · left
    simp only [Dbvt.queryForIndices, hroot, h1, queryLoop_nil, Res.bind_ok, Res.pure_eq, List.nil_append]
  · right
    simp only [Dbvt.queryForIndices, hroot, h1, Res.bind_panic]
    exact ⟨trivial, by simpa using h2⟩

theorem queryForIndices_empty (O : Ops V B S) {s : Dbvt V B} (h : WFe s)
    (vis : Visitor σ B R) (st : σ) : s.queryForIndices O vis st = .ok [] := by
  simp only [Dbvt.queryForIndices, h.root, h.nodes, List.length_singleton]
  have : s.nodes[0]? = some .nil := by rw [h.nodes]; rfl
  simp [queryLoop, nodeAt_some this]

/-- Everything `qT` returns is the visitor's answer on a value of a leaf below. -/
theorem qT_sound (O : Ops V B S) (s : Dbvt V B) (vis : Visitor σ B R) (u : T) : ∀ (st : σ) (k : Nat) (r : R),
    (k, r) ∈ (qT O s vis u st).1 → ∃ (i : Nat) (l : Leaf B) (e : Nat × V) (st' : σ), i ∈ u.leaves ∧ s.nodes[i]? = some (.leaf l) ∧
      l.value = k ∧ s.values[k]? = some e ∧ (vis st' (O.bound e.2) true).1 = some r := by
  induction u with
  | leaf i =>
    intro st k r hm
    simp only [qT] at hm
    split at hm
    · rename_i l hl
      split at hm
      · rename_i e he
        split at hm
        · rename_i r' st' hvis
          simp at hm
          obtain ⟨rfl, rfl⟩ := hm
          exact ⟨i, l, e, st, by simp, hl, rfl, he, by rw [hvis]⟩
        · simp at hm
      · simp at hm
    · simp at hm
  | node i l r' ihl ihr =>
    intro st k r hm
    simp only [qT] at hm
    split at hm
    · split at hm
      · simp only [List.mem_append] at hm
        rcases hm with hm | hm
        · obtain ⟨a, b, c, d, h1, h2⟩ := ihr _ _ _ hm
          exact ⟨a, b, c, d, by simp [h1], h2⟩
        · obtain ⟨a, b, c, d, h1, h2⟩ := ihl _ _ _ hm
          exact ⟨a, b, c, d, by simp [h1], h2⟩
      · simp at hm
    · simp at hm

theorem qT_nodup (O : Ops V B S) (s : Dbvt V B) (hv : ValsOK s.nodes s.values) (vis : Visitor σ B R)
    (u : T) : ∀ (st : σ), u.idxs.Nodup → ((qT O s vis u st).1.map Prod.fst).Nodup := by
  induction u with
  | leaf i =>
    intro st _
    simp only [qT]
    split
    · split
      · split <;> simp
      · simp
    · simp
  | node i l r ihl ihr =>
    intro st hn
    simp only [T.idxs_node, List.nodup_cons, List.nodup_append] at hn
    simp only [qT]
    split
    · split
      · rename_i x st' _
        simp only [List.map_append, List.nodup_append]
        refine ⟨ihr _ hn.2.2.1, ihl _ hn.2.1, ?_⟩
        intro a ha b hb hab
        subst hab
        obtain ⟨⟨k, x1⟩, h1, e1⟩ := List.mem_map.1 ha
        obtain ⟨⟨k', x2⟩, h2, e2⟩ := List.mem_map.1 hb
        simp only at e1 e2
        subst e1; subst e2
        obtain ⟨i1, l1, v1, _, m1, n1, f1, g1, _⟩ := qT_sound O s vis r _ _ _ h1
        obtain ⟨i2, l2, v2, _, m2, n2, f2, g2, _⟩ := qT_sound O s vis l _ _ _ h2
        obtain ⟨w1, hw1⟩ := hv.toVal i1 l1 n1
        obtain ⟨w2, hw2⟩ := hv.toVal i2 l2 n2
        rw [f1] at hw1
        rw [f2, hw1] at hw2
        simp at hw2
        have := hw2.1
        subst this
        exact hn.2.2.2 _ (T.leaves_subset m2) _ (T.leaves_subset m1) rfl
      · simp
    · simp

/-! ## Exactness for monotone stateless visitors -/

/-- The visitor with a stateless test. -/
def pureVisitor (f : B → Bool → Option R) : Visitor Unit B R := fun st b isLeaf => (f b isLeaf, st)

/-- Laws tying the trait methods to an enclosure relation `enc big small`. -/
structure Encloses (O : Ops V B S) (enc : B → B → Prop) : Prop where
  trans : ∀ {a b c}, enc a b → enc b c → enc a c
  union_left : ∀ a b, enc (O.union a b) a
  union_right : ∀ a b, enc (O.union a b) b
  contains : ∀ {a b}, O.contains a b = true → enc a b

/-- A stateless visitor is monotone: whatever encloses a volume accepted as a leaf is accepted as a
branch. -/
def MonoVisitor (enc : B → B → Prop) (f : B → Bool → Option R) : Prop :=
  ∀ big small, enc big small → (f small true).isSome = true → (f big false).isSome = true

/-- All leaves below `u` have their value's bound enclosed by every branch on the way. -/
theorem qT_exact (O : Ops V B S) (enc : B → B → Prop) (s : Dbvt V B)
    (f : B → Bool → Option R) (hm : MonoVisitor enc f)
    (hv : ValsOK s.nodes s.values) (u : T) :
    (∀ (i : Nat) (b : Branch B), s.nodes[i]? = some (.branch b) → ∀ w : T, (∃ p, Rep (skelAt s.nodes) p w) → w.root = i →
      ∀ j ∈ w.leaves, ∀ l e, s.nodes[j]? = some (.leaf l) → s.values[l.value]? = some e →
        enc b.bound (O.bound e.2)) →
    (∃ p, Rep (skelAt s.nodes) p u) →
    ((qT O s (pureVisitor f) u ()).1).Perm (u.leaves.filterMap fun j =>
      (leafAt s.nodes j).bind fun d => (s.values[d.1]?).bind fun e =>
        (f (O.bound e.2) true).map fun r => (d.1, r)) := by
  intro henc
  induction u with
  | leaf i =>
    rintro ⟨p, hrep⟩
    obtain ⟨l, hl, -⟩ := skelAt_leaf hrep
    obtain ⟨v, hval⟩ := hv.toVal i l hl
    simp only [qT, hl, hval, T.leaves_leaf, List.filterMap_cons, List.filterMap_nil, leafAt_of hl,
      Option.bind_some, pureVisitor]
    cases f (O.bound v) true <;> simp
  | node i l r ihl ihr =>
    rintro ⟨p, hrep⟩
    obtain ⟨b, hb, -⟩ := skelAt_branch hrep.1
    simp only [qT, hb, T.leaves_node, List.filterMap_append]
    cases hf : f b.bound false with
    | some r0 =>
      have h1 := ihl ⟨_, hrep.2.1⟩
      have h2 := ihr ⟨_, hrep.2.2⟩
      simp only [pureVisitor, hf]
      exact (h2.append h1).trans List.perm_append_comm
    | none =>
      simp only [pureVisitor, hf]
      have : ∀ j ∈ l.leaves ++ r.leaves, ((leafAt s.nodes j).bind fun d => (s.values[d.1]?).bind fun e =>
          (f (O.bound e.2) true).map fun r => (d.1, r)) = none := by
        intro j hj
        cases hd : leafAt s.nodes j with
        | none => rfl
        | some d =>
          obtain ⟨lf, hlf, e1, e2⟩ := leafAt_eq.1 hd
          simp only [Option.bind_some]
          cases he : s.values[d.1]? with
          | none => rfl
          | some e =>
            have := henc i b hb (.node i l r) ⟨p, hrep⟩ rfl j (by simpa using hj) lf e hlf (by rw [e1]; exact he)
            simp only [Option.bind_some]
            cases hx : f (O.bound e.2) true with
            | none => rfl
            | some x =>
              have h3 := hm _ _ this (by simp [hx])
              simp [hf] at h3
      rw [← List.filterMap_append, List.filterMap_eq_nil_iff.2 this]

/-- Stored volumes enclose the values below: consequence of all branches being unions and leaves
enclosing their values. -/
theorem encl_of_ok (O : Ops V B S) {enc : B → B → Prop} (he : Encloses O enc) {s : Dbvt V B}
    (hok : ∀ (i : Nat) (b : Branch B), s.nodes[i]? = some (.branch b) → LocalOK O s.nodes b)
    (hfat : ∀ (i : Nat) (l : Leaf B) (e : Nat × V), s.nodes[i]? = some (.leaf l) → s.values[l.value]? = some e →
      enc l.bound (O.bound e.2)) (w : T) :
    ∀ p, Rep (skelAt s.nodes) p w → ∀ j ∈ w.leaves, ∀ l e, s.nodes[j]? = some (.leaf l) →
      s.values[l.value]? = some e →
      ∃ hb, hbAt s.nodes w.root = some hb ∧ enc hb.2 (O.bound e.2) := by
  induction w with
  | leaf i =>
    intro p hrep j hj l e hl hv
    simp at hj; subst hj
    exact ⟨(1, l.bound), by simp [hbAt, hl, Node.hb], hfat j l e hl hv⟩
  | node i a c iha ihc =>
    intro p hrep j hj l e hl hv
    obtain ⟨b, hb, -, e1, e2⟩ := skelAt_branch hrep.1
    obtain ⟨x, y, hx, hy, -, hbd⟩ := hok i b hb
    refine ⟨(b.height, b.bound), by simp [hbAt, hb, Node.hb], ?_⟩
    simp only [T.leaves_node, List.mem_append] at hj
    rw [hbd]
    rcases hj with hj | hj
    · obtain ⟨z, hz, henc⟩ := iha i hrep.2.1 j hj l e hl hv
      rw [e1, hz] at hx
      simp at hx; subst hx
      exact he.trans (he.union_left _ _) henc
    · obtain ⟨z, hz, henc⟩ := ihc i hrep.2.2 j hj l e hl hv
      rw [e2, hz] at hy
      simp at hy; subst hy
      exact he.trans (he.union_right _ _) henc

/-- Stored height of the root of an up-to-date (sub)tree. -/
theorem height_of_ok (O : Ops V B S) {s : Dbvt V B}
    (hok : ∀ (i : Nat) (b : Branch B), s.nodes[i]? = some (.branch b) → LocalOK O s.nodes b) (w : T) :
    ∀ p, Rep (skelAt s.nodes) p w → ∃ bd, hbAt s.nodes w.root = some (w.height, bd) := by
  induction w with
  | leaf i =>
    intro p hrep
    obtain ⟨l, hl, -⟩ := skelAt_leaf hrep
    exact ⟨l.bound, by simp [hbAt, hl, Node.hb]⟩
  | node i a c iha ihc =>
    intro p hrep
    obtain ⟨b, hb, -, e1, e2⟩ := skelAt_branch hrep.1
    obtain ⟨x, y, hx, hy, hh, hbd⟩ := hok i b hb
    obtain ⟨u, hu⟩ := iha i hrep.2.1
    obtain ⟨v, hv⟩ := ihc i hrep.2.2
    rw [e1, hu] at hx
    rw [e2, hv] at hy
    simp at hx hy
    subst hx; subst hy
    refine ⟨b.bound, ?_⟩
    simp only [hbAt, T.root_node, hb, Option.bind_some, Node.hb, T.height_node, hh]

/-- Leaves of the tree, mapped through any function, are the values. -/
theorem leaves_values {s : Dbvt V B} {t : T} (h : WFt s t) :
    (s.values.map Prod.fst).Perm t.leaves := by
  rw [List.perm_ext_iff_of_nodup]
  · intro i
    rw [h.shape.leaf_iff]
    constructor
    · intro hi
      obtain ⟨e, he, rfl⟩ := List.mem_map.1 hi
      obtain ⟨k, hk⟩ := List.mem_iff_getElem?.1 he
      obtain ⟨l, hl, -⟩ := h.vals.toLeaf k e.1 e.2 hk
      exact ⟨l, hl⟩
    · rintro ⟨l, hl⟩
      obtain ⟨v, hv⟩ := h.vals.toVal i l hl
      exact List.mem_map.2 ⟨_, List.mem_of_getElem? hv, rfl⟩
  · exact h.vals.nodup
  · exact T.leaves_nodup h.shape.nodup

end Verif.Dbvt
