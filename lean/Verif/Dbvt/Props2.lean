import Verif.Dbvt.Props
/-!
# Properties C11 (traversal stack) and C18 (rotations)
-/
namespace Verif.Dbvt
open Verif

variable {V B S σ R : Type}

/-! ## C11 -/

/-- C11 (partial): a query on a tree of at most 256 levels returns normally, for every visitor.
Missing: trees with more levels, on which it can panic (`c11_false`). -/
theorem c11_query_no_panic_partial (O : Ops V B S) {h : Hist V} {s : Dbvt V B} (he : Exec O h s)
    {n : Nat} (hl : s.values ≠ [] → Levels s.nodes s.root n) (hn : n ≤ 256)
    (vis : Visitor σ B R) (st : σ) :
    (∃ l, s.queryForIndices O vis st = .ok l) ∧ ∃ l, s.query O vis st = .ok l := by
  have main : ∃ l, s.queryForIndices O vis st = .ok l := by
    rcases (exec_inv O he).wf with hw | ⟨t, hw⟩
    · exact ⟨[], queryForIndices_empty O hw _ _⟩
    · rcases queryForIndices_tree O hw vis st with h1 | ⟨-, h1⟩
      · exact ⟨_, h1⟩
      · have hl' := (leaves_values hw).length_eq
        simp only [List.length_map] at hl'
        have hp := t.leaves_pos
        have hne : s.values ≠ [] := by intro e; rw [e] at hl'; simp at hl'; omega
        have h2 := levels_of_rep t 0 hw.shape.rep
        rw [← hw.shape.root_eq] at h2
        have := levels_unique (hl hne) h2
        omega
  refine ⟨main, ?_⟩
  obtain ⟨l, hl⟩ := main
  exact ⟨_, c08_query_values O he vis st hl⟩

/-- C11 (partial), in terms of the number of values: up to 256 values queries never panic, whatever
the insertion order, visitor and refit state. -/
theorem c11_small_tree_partial (O : Ops V B S) {h : Hist V} {s : Dbvt V B} (he : Exec O h s)
    (hn : s.values.length ≤ 256) (vis : Visitor σ B R) (st : σ) :
    (∃ l, s.queryForIndices O vis st = .ok l) ∧ ∃ l, s.query O vis st = .ok l := by
  rcases (exec_inv O he).wf with hw | ⟨t, hw⟩
  · exact c11_query_no_panic_partial O he (n := 0) (fun h => absurd hw.values h) (by omega) vis st
  · have hl' := (leaves_values hw).length_eq
    simp only [List.length_map] at hl'
    have := t.height_le_leaves
    refine c11_query_no_panic_partial O he (n := t.height) (fun _ => ?_) (by omega) vis st
    rw [hw.shape.root_eq]; exact levels_of_rep t 0 hw.shape.rep

/-- Number of branches on the right spine. -/
def T.spine : T → Nat
  | .leaf _ => 0
  | .node _ _ r => 1 + r.spine

/-- Rightmost leaf. -/
def T.rm : T → Nat
  | .leaf i => i
  | .node _ _ r => r.rm

theorem T.rm_mem (t : T) : t.rm ∈ t.idxs := by
  induction t with
  | leaf i => simp [T.rm]
  | node i l r _ ih => simp [T.rm, ih]

theorem rm_plug (c : Ctx) (u : T) (hn : (plug c u).idxs.Nodup) (h : (plug c u).rm ∈ u.idxs) :
    (plug c u).rm = u.rm := by
  induction c generalizing u with
  | nil => rfl
  | cons fr c ih =>
    cases fr with
    | left i r =>
      have h1 := ih (.node i u r) hn (by simp only [T.idxs_node, List.mem_cons, List.mem_append]; exact Or.inr (Or.inl h))
      simp only [plug] at h ⊢ hn
      rw [h1] at h
      have hp := (plug_perm c (.node i u r)).nodup_iff.1 hn
      simp only [T.idxs_node, List.cons_append, List.nodup_cons, List.nodup_append] at hp
      exact absurd rfl (hp.2.1.2.2 _ h _ r.rm_mem)
    | right i l =>
      exact ih (.node i l u) hn (by simp only [T.idxs_node, List.mem_cons, List.mem_append]; exact Or.inr (Or.inr h))

theorem spine_plug (c : Ctx) (u u' : T) (hn : (plug c u).idxs.Nodup) (h : (plug c u).rm ∈ u.idxs) :
    (plug c u').spine + u.spine = (plug c u).spine + u'.spine := by
  induction c generalizing u u' with
  | nil => simp only [plug]; omega
  | cons fr c ih =>
    cases fr with
    | left i r =>
      have h1 := rm_plug c (.node i u r) hn (by simp only [T.idxs_node, List.mem_cons, List.mem_append]; exact Or.inr (Or.inl h))
      simp only [plug] at h ⊢ hn
      rw [h1] at h
      have hp := (plug_perm c (.node i u r)).nodup_iff.1 hn
      simp only [T.idxs_node, List.cons_append, List.nodup_cons, List.nodup_append] at hp
      exact absurd rfl (hp.2.1.2.2 _ h _ r.rm_mem)
    | right i l =>
      have := ih (.node i l u) (.node i l u') hn (by simp only [T.idxs_node, List.mem_cons, List.mem_append]; exact Or.inr (Or.inr h))
      simp only [T.spine, plug] at this ⊢
      omega

/-- On a tie the insertion goes right. -/
theorem descend_right (O : Ops V B S) {ns : List (Node B)} {bd : B} (hlt : O.lt (O.area (O.union bd bd)) (O.area (O.union bd bd)) = false)
    (hall : ∀ (i : Nat) (x : Nat × B), hbAt ns i = some x → x.2 = bd) (t : T) : ∀ (p fuel : Nat),
    Rep (skelAt ns) p t → ∀ li l, descend O ns bd fuel t.root = .ok (some (li, l)) → li = t.rm := by
  have hbnd : ∀ (w : T) p, Rep (skelAt ns) p w → boundAt ns w.root = .ok bd := by
    intro w p hw
    cases w with
    | leaf i =>
      obtain ⟨l, hl, -⟩ := skelAt_leaf hw
      rw [T.root_leaf, boundAt_ok hl]
      exact congrArg Res.ok (hall i (1, l.bound) (by simp [hbAt, hl, Node.hb]))
    | node i a c =>
      obtain ⟨b, hb, -⟩ := skelAt_branch hw.1
      rw [T.root_node, boundAt_ok hb]
      exact congrArg Res.ok (hall i (b.height, b.bound) (by simp [hbAt, hb, Node.hb]))
  induction t with
  | leaf i =>
    intro p fuel hrep li l hd
    obtain ⟨l', hl, -⟩ := skelAt_leaf hrep
    cases fuel with
    | zero => simp [descend] at hd
    | succ fuel =>
      simp [descend, nodeAt_some hl] at hd
      simp [T.rm, hd.1]
  | node i a c iha ihc =>
    intro p fuel hrep li l hd
    obtain ⟨b, hb, -, e1, e2⟩ := skelAt_branch hrep.1
    cases fuel with
    | zero => simp [descend] at hd
    | succ fuel =>
      simp only [descend, T.root_node, nodeAt_some hb, Res.bind_ok, e1, e2, hbnd a _ hrep.2.1, hbnd c _ hrep.2.2,
        hlt, Bool.false_eq_true, if_false] at hd
      exact ihc _ _ hrep.2.2 li l hd

/-- Query on a tree with a long right spine, accepting everything. -/
theorem queryLoop_spine (O : Ops V B S) (s : Dbvt V B)
    (vis : Visitor σ B R) (hacc : ∀ st b f, (vis st b f).1.isSome = true) (u : T) :
    ∀ (p : Nat), Rep (skelAt s.nodes) p u →
    ∀ (fuel : Nat) (rest : List Nat) (acc : List (Nat × R)) (st : σ), u.idxs.length ≤ fuel →
    rest.length ≤ 255 → 256 ≤ rest.length + u.spine →
    queryLoop O s vis fuel (u.root :: rest) acc st = .panic := by
  induction u with
  | leaf i => intro p _ fuel rest acc st _ h1 h2; simp [T.spine] at h2; omega
  | node i l r ihl ihr =>
    intro p hrep fuel rest acc st hf h1 h2
    obtain ⟨b, hb, -, e1, e2⟩ := skelAt_branch hrep.1
    simp only [T.idxs_node, List.length_cons, List.length_append] at hf
    simp only [T.spine] at h2
    cases fuel with
    | zero => omega
    | succ fuel =>
      simp only [T.root_node, queryLoop, nodeAt_some hb, Res.bind_ok]
      have := hacc st b.bound false
      rcases hvis : vis st b.bound false with ⟨_ | r0, st'⟩
      · rw [hvis] at this; simp at this
      · simp only
        split
        · rw [e1, e2]
          exact ihr i hrep.2.2 fuel (l.root :: rest) acc st' (by omega) (by simp only [List.length_cons]; omega)
            (by simp only [List.length_cons]; omega)
        · rfl

/-- History of `n` inserts of the same value. -/
inductive SameInserts (v : V) : Nat → Hist V → Prop
  | nil : SameInserts v 0 []
  | cons {n h} (r : Ret V) : SameInserts v n h → SameInserts v (n + 1) ((.insert v, r) :: h)

/-- Equal volumes: every stored volume is the same, and the tree degenerates into a right spine. -/
theorem same_inserts_spine (O : Ops V B S) (v : V) (hidem : O.union (O.fat v) (O.fat v) = O.fat v)
    (hlt : O.lt (O.area (O.fat v)) (O.area (O.fat v)) = false) (n : Nat) :
    ∃ h s t, SameInserts v (n + 1) h ∧ Exec O h s ∧ WFt s t ∧ t.spine = n ∧ s.values.length = n + 1 ∧
      ∀ (i : Nat) (x : Nat × B), hbAt s.nodes i = some x → x.2 = O.fat v := by
  induction n with
  | zero =>
    have hrun : call O 0 (Dbvt.new : Dbvt V B) (.insert v) = .ok (.idx 1, { (Dbvt.new : Dbvt V B) with
        root := 1, nodes := [.nil, .leaf ⟨0, 0, O.fat v⟩], values := [(1, v)] }) := rfl
    have he := Exec.step (O := O) (c := .insert v) 0 .new trivial hrun
    rcases (exec_inv O he).wf with hw | ⟨t, hw⟩
    · have := hw.values; simp at this
    · refine ⟨_, _, t, .cons _ .nil, he, hw, ?_, rfl, ?_⟩
      · have hl := (leaves_values hw).length_eq
        cases t with
        | leaf i => rfl
        | node i a b =>
          have := a.leaves_pos; have := b.leaves_pos
          simp at hl; omega
      · intro i x hx
        match i with
        | 0 => simp [hbAt, Node.hb] at hx
        | 1 => simp [hbAt, Node.hb] at hx; rw [← hx]
        | (i + 2) => simp [hbAt] at hx
  | succ n ih =>
    obtain ⟨h, s, t, hs, he, hw, hsp, hvl, hall⟩ := ih
    obtain ⟨nl, nb, li, l, c, ns, fr, rf, root, m, hins, hdesc, ht, hl, hpar, d1, d2, d3, hlen, hnl, hnb, hli, hcp, hoth, -, -, hwf⟩ :=
      insert_tree O s t hw v
    have hall' : ∀ (i : Nat) (x : Nat × B), hbAt (s.nodes ++ List.replicate m (.nil : Node B)) i = some x → x.2 = O.fat v := by
      intro i x hx
      unfold hbAt at hx
      by_cases hi : i < s.nodes.length
      · rw [List.getElem?_append_left hi] at hx
        exact hall i x hx
      · rw [List.getElem?_append_right (by omega), List.getElem?_replicate] at hx
        split at hx <;> simp [Node.hb] at hx
    have hrm : li = t.rm := by
      have hsx := hw.shape.extend m
      have := hw.shape.root_eq
      rw [this] at hdesc
      exact descend_right O (by rw [hidem]; exact hlt) hall' t 0 _ hsx.rep li l hdesc
    refine ⟨_, _, plug c (.node nb (.leaf li) (.leaf nl)), .cons (.idx nl) hs,
      .step 0 he trivial (by simp only [call, hins, Res.bind_ok, Res.pure_eq]), hwf, ?_, by simp [hvl], ?_⟩
    · have hnd := hw.shape.nodup
      rw [ht] at hnd
      have := spine_plug c (.leaf li) (.node nb (.leaf li) (.leaf nl)) hnd (by rw [← ht, ← hrm]; simp)
      rw [← ht] at this
      simp only [T.spine] at this
      omega
    · intro i x hx
      simp only at hx
      unfold hbAt at hx
      by_cases e1 : i = nl
      · subst e1; rw [hnl] at hx; simp [Node.hb] at hx; rw [← hx]
      by_cases e2 : i = nb
      · subst e2; rw [hnb] at hx; simp [Node.hb] at hx; rw [← hx]
        have : l.bound = O.fat v := hall li (1, l.bound) (by simp [hbAt, hl, Node.hb])
        simp only [this, hidem]
      by_cases e3 : i = li
      · subst e3; rw [hli] at hx; simp [Node.hb] at hx; rw [← hx]
        exact hall i (1, l.bound) (by simp [hbAt, hl, Node.hb])
      by_cases e4 : c = [] ∨ i ≠ Ctx.parent c
      · rw [hoth i e1 e2 e3 e4] at hx
        exact hall' i x hx
      · have e5 : c ≠ [] ∧ i = Ctx.parent c := by tauto
        rw [e5.2, hcp e5.1] at hx
        refine hall (Ctx.parent c) x ?_
        unfold hbAt
        cases hn : s.nodes[Ctx.parent c]? with
        | none => rw [hn] at hx; simp at hx
        | some q =>
          rw [hn] at hx
          simp only [Option.map_some, Option.bind_some] at hx ⊢
          cases q with
          | branch b => simp only [Node.replaceChild] at hx; split at hx <;> exact hx
          | leaf b => exact hx
          | nil => exact hx

/-- C11 as stated is false: for every bound type with idempotent union (in particular boxes), after
inserting the same value 257 times or more, a query that accepts everything overflows the 256-slot
stack and panics. -/
theorem c11_false (O : Ops V B S) (v : V) (hidem : O.union (O.fat v) (O.fat v) = O.fat v)
    (hlt : O.lt (O.area (O.fat v)) (O.area (O.fat v)) = false) (n : Nat) (hn : 257 ≤ n)
    (vis : Visitor σ B R) (hacc : ∀ st b f, (vis st b f).1.isSome = true) (st : σ) :
    ∃ h s, SameInserts v n h ∧ Exec O h s ∧ s.queryForIndices O vis st = .panic ∧ s.query O vis st = .panic := by
  obtain ⟨n, rfl⟩ : ∃ m, n = m + 1 := ⟨n - 1, by omega⟩
  obtain ⟨h, s, t, hs, he, hw, hsp, hvl, -⟩ := same_inserts_spine O v hidem hlt n
  have hl := hw.shape.length_le
  have hq : s.queryForIndices O vis st = .panic := by
    simp only [Dbvt.queryForIndices, hw.shape.root_eq]
    rw [queryLoop_spine O s vis hacc t 0 hw.shape.rep s.nodes.length [] [] st (by omega) (by simp) (by simp; omega)]
    rfl
  exact ⟨h, s, hs, he, hq, by simp only [Dbvt.query, hq, Res.bind_panic]⟩

/-- The hypotheses of `c11_false` hold for ordinary intervals. -/
example : demo.union (demo.fat (0, 1)) (demo.fat (0, 1)) = demo.fat (0, 1) ∧
    demo.lt (demo.area (demo.fat (0, 1))) (demo.area (demo.fat (0, 1))) = false := by decide

/-! ## C18 -/

/-- C18 as stated is false: when the volumes of a branch and of its children are up to date and union
is associative and commutative, `rotate` never changes anything - every candidate "surface area" is
the area of the branch itself. -/
theorem c18_rotation_never_fires (O : Ops V B S)
    (hcomm : ∀ a b, O.union a b = O.union b a)
    (hassoc : ∀ a b c, O.union (O.union a b) c = O.union a (O.union b c))
    (hirr : ∀ x, O.lt x x = false)
    {h : Hist V} {s : Dbvt V B} (he : Exec O h s) (hr : Refitted! h)
    (i : Nat) (hi : i < s.nodes.length) : rotate O s.nodes i = .ok s.nodes := by
  rcases (exec_inv O he).wf with hw | ⟨t, hw⟩
  · rw [hw.nodes] at hi ⊢
    simp at hi; subst hi; rfl
  have hsh := hw.shape
  cases hn : s.nodes[i]? with
  | none => rw [List.getElem?_eq_none_iff] at hn; omega
  | some n =>
    cases n with
    | leaf l => simp [rotate, nodeAt_some hn]
    | nil => simp [rotate, nodeAt_some hn]
    | branch b =>
      obtain ⟨lb, rb, hlb, hrb, hbd⟩ := c06_union O he hr hn
      obtain ⟨hit, hlt, hrt, -⟩ := hsh.children hn
      obtain ⟨ln, lb', hln, hlb', hlne⟩ := hsh.nodeAt_child hlt
      obtain ⟨rn, rb', hrn, hrb', hrne⟩ := hsh.nodeAt_child hrt
      rw [boundAt_ok hln, hlb'] at hlb
      rw [boundAt_ok hrn, hrb'] at hrb
      simp at hlb hrb
      subst hlb; subst hrb
      have cb : ∀ (j : Nat) (q : Node B) (bd : B), s.nodes[j]? = some q → q ≠ .nil → q.getBound = .ok bd → q.isLeaf = false →
          ∃ x y, childBounds s.nodes j = .ok (x, y) ∧ bd = O.union x y := by
        intro j q bd hq hne hbd hl
        cases q with
        | leaf l => simp [Node.isLeaf] at hl
        | nil => exact absurd rfl hne
        | branch b' =>
          obtain ⟨x, y, hx, hy, e⟩ := c06_union O he hr hq
          simp [Node.getBound] at hbd
          exact ⟨x, y, by simp [childBounds, nodeAt_some hq, hx, hy], by rw [← hbd, e]⟩
      have hbet : ∀ (r : Rotation) (x : S), x = O.area b.bound →
          better O r x (Rotation.none, O.area b.bound) = (Rotation.none, O.area b.bound) := by
        intro r x hx; simp [better, hx, hirr]
      have hba1 : boundAt s.nodes b.left = .ok lb' := by rw [boundAt_ok hln, hlb']
      have hba2 : boundAt s.nodes b.right = .ok rb' := by rw [boundAt_ok hrn, hrb']
      have hbest : bestRotation O s.nodes b.left b.right (O.area b.bound) ln.isLeaf rn.isLeaf =
          .ok (Rotation.none, O.area b.bound) := by
        have perm : ∀ a b c, O.union a (O.union b c) = O.union b (O.union a c) := fun a b c => by
          rw [← hassoc, hcomm a b, hassoc]
        cases hll : ln.isLeaf <;> cases hrl : rn.isLeaf
        · obtain ⟨x, y, hc1, e1⟩ := cb _ _ _ hln hlne hlb' hll
          obtain ⟨z, w, hc2, e2⟩ := cb _ _ _ hrn hrne hrb' hrl
          simp only [bestRotation, hba1, hba2, hc1, hc2, Res.bind_ok, Bool.not_false, if_true, Res.pure_eq]
          rw [hbet, hbet, hbet, hbet, hbet, hbet]
          all_goals
            simp only [sa, hbd, e1, e2, hassoc]
            congr 1
            simp only [hcomm, perm]
        · obtain ⟨x, y, hc1, e1⟩ := cb _ _ _ hln hlne hlb' hll
          simp only [bestRotation, hba1, hba2, hc1, Res.bind_ok, Bool.not_false, Bool.not_true, if_true, Res.pure_eq]
          simp only [Bool.false_eq_true, if_false]
          simp only [Res.bind_ok]
          rw [hbet, hbet]
          all_goals
            simp only [sa, hbd, e1, hassoc]
            congr 1
            simp only [hcomm, perm]
        · obtain ⟨z, w, hc2, e2⟩ := cb _ _ _ hrn hrne hrb' hrl
          simp only [bestRotation, hba1, hba2, hc2, Res.bind_ok, Bool.not_false, Bool.not_true, if_true, Res.pure_eq]
          simp only [Bool.false_eq_true, if_false]
          simp only [Res.bind_ok]
          rw [hbet, hbet]
          all_goals
            simp only [sa, hbd, e2, hassoc]
            congr 1
            simp only [hcomm, perm]
        · simp only [bestRotation, hba1, hba2, Res.bind_ok, Bool.not_true, Res.pure_eq, Bool.false_eq_true, if_false]
      simp only [rotate, nodeAt_some hn, nodeAt_some hln, nodeAt_some hrn, Res.bind_ok, hbest, doRotation,
        Res.pure_eq, ite_self]

example : (∀ a b, demo.union a b = demo.union b a) ∧
    (∀ a b c, demo.union (demo.union a b) c = demo.union a (demo.union b c)) ∧ (∀ x, demo.lt x x = false) := by
  refine ⟨?_, ?_, ?_⟩ <;> intros <;> simp [demo] <;> omega

end Verif.Dbvt
