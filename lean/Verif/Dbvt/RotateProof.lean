import Verif.Dbvt.SimpleProof
/-!
# `recalculate_node`, `swap`, `rotate` (proof machinery)
-/
namespace Verif.Dbvt
open Verif

variable {V B S : Type}

/-! ## recalculate_node -/

theorem recalc_nonbranch (O : Ops V B S) {ns : List (Node B)} {i : Nat} (hi : i < ns.length)
    (h : ∀ b : Branch B, ns[i]? ≠ some (.branch b)) : recalc O ns i = .ok (none, ns) := by
  unfold recalc
  cases hn : ns[i]? with
  | none => rw [List.getElem?_eq_none_iff] at hn; omega
  | some n =>
    rw [nodeAt_some hn]
    cases n with
    | branch b => exact absurd hn (h b)
    | leaf l => rfl
    | nil => rfl

theorem recalc_branch (O : Ops V B S) {ns : List (Node B)} {root : Nat} {t : T}
    (hsh : Shape ns root t) {i : Nat} {b : Branch B} (hb : ns[i]? = some (.branch b)) :
    ∃ h ns', recalc O ns i = .ok (some (b.parent, h), ns') ∧ Shape ns' root t ∧
      ns'.length = ns.length ∧ skelAt ns' = skelAt ns ∧ (∀ j, leafAt ns' j = leafAt ns j) ∧
      (∀ M, OKExcept O M ns → OKExcept O (fun j => (M j ∧ j ≠ i) ∨ j = b.parent) ns') := by
  obtain ⟨hi, hlt, hrt, hlr, hli, hri, -, -⟩ := hsh.children hb
  obtain ⟨ln, lb, hln, hlb, hlne⟩ := hsh.nodeAt_child hlt
  obtain ⟨rn, rb, hrn, hrb, hrne⟩ := hsh.nodeAt_child hrt
  have hil := hsh.mem_lt hi
  have hsk : skelAt (ns.modify i (Node.setHB (1 + max ln.getHeight rn.getHeight) (O.union lb rb))) = skelAt ns :=
    skelAt_modify_id _ _ _ (by simp)
  have hhb : ∀ j, j ≠ i → hbAt (ns.modify i (Node.setHB (1 + max ln.getHeight rn.getHeight) (O.union lb rb))) j = hbAt ns j := by
    intro j hj
    unfold hbAt
    rw [getElem?_modify', if_neg (Ne.symm hj)]
  have hbof : ∀ (n : Node B) (bd : B), n.getBound = .ok bd → n.hb = some (n.getHeight, bd) := by
    intro n bd hbd
    cases n <;> simp [Node.getBound, Node.hb, Node.getHeight] at hbd ⊢ <;> exact hbd
  refine ⟨1 + max ln.getHeight rn.getHeight, ns.modify i (Node.setHB (1 + max ln.getHeight rn.getHeight) (O.union lb rb)), ?_, hsh.congr hsk (by simp), by simp, hsk, ?_, ?_⟩
  · unfold recalc
    simp only [nodeAt_some hb, Res.bind_ok, nodeAt_some hln, nodeAt_some hrn, hlb, hrb, modNode_ok _ hil,
      Res.pure_eq]
  · intro j
    unfold leafAt
    rw [getElem?_modify']
    split
    · rename_i e; subst e; rw [hb]; rfl
    · rfl
  · intro M hok
    refine OKExcept.transfer hok ?_
    intro j b' hb'
    rw [getElem?_modify'] at hb'
    by_cases hij : i = j
    · subst hij
      rw [if_pos rfl, hb] at hb'
      simp [Node.setHB] at hb'
      subst hb'
      refine Or.inr (Or.inl ⟨(ln.getHeight, lb), (rn.getHeight, rb), ?_, ?_, rfl, rfl⟩)
      · simp only; rw [hhb _ hli]; simp [hbAt, hln, hbof ln lb hlb]
      · simp only; rw [hhb _ hri]; simp [hbAt, hrn, hbof rn rb hrb]
    · rw [if_neg hij] at hb'
      by_cases hm : M j
      · exact Or.inl (Or.inl ⟨hm, Ne.symm hij⟩)
      · by_cases hp : j = b.parent
        · exact Or.inl (Or.inr hp)
        · right; right
          refine ⟨b', hb', hm, rfl, rfl, hhb _ ?_, hhb _ ?_⟩
          · intro e
            have := hsh.child_parent hb' (Or.inl e) hb
            exact hp this.symm
          · intro e
            have := hsh.child_parent hb' (Or.inr e) hb
            exact hp this.symm

theorem recalc'_branch (O : Ops V B S) {ns : List (Node B)} {root : Nat} {t : T}
    (hsh : Shape ns root t) {i q x y : Nat} (hb : skelAt ns i = some (.branch q x y)) :
    ∃ ns', recalc' O ns i = .ok ns' ∧ Shape ns' root t ∧
      ns'.length = ns.length ∧ skelAt ns' = skelAt ns ∧ (∀ j, leafAt ns' j = leafAt ns j) ∧
      (∀ M, OKExcept O M ns → OKExcept O (fun j => (M j ∧ j ≠ i) ∨ j = q) ns') := by
  obtain ⟨b, hb', hq, -⟩ := skelAt_branch hb
  obtain ⟨h, ns', h1, h2, h3, h4, h5, h6⟩ := recalc_branch O hsh hb'
  exact ⟨ns', by simp [recalc', h1], h2, h3, h4, h5, hq ▸ h6⟩

/-! ## swap -/

theorem swapNodes_spec {ns : List (Node B)} {ls rs lp rp : Nat}
    (h1 : ls < ns.length) (h2 : rs < ns.length) (h3 : lp < ns.length) (h4 : rp < ns.length)
    (d1 : lp ≠ rp) (d2 : lp ≠ ls) (d3 : lp ≠ rs) (d4 : rp ≠ ls) (d5 : rp ≠ rs) (d6 : ls ≠ rs) :
    ∃ ns', swapNodes ns ls rs lp rp = .ok ns' ∧ ns'.length = ns.length ∧
      skelAt ns' lp = (skelAt ns lp).map (Skel.replaceChild ls rs) ∧
      skelAt ns' rp = (skelAt ns rp).map (Skel.replaceChild rs ls) ∧
      skelAt ns' ls = (skelAt ns ls).map (Skel.setParent rp) ∧
      skelAt ns' rs = (skelAt ns rs).map (Skel.setParent lp) ∧
      (∀ j, j ≠ lp → j ≠ rp → j ≠ ls → j ≠ rs → skelAt ns' j = skelAt ns j) ∧
      (∀ j, hbAt ns' j = hbAt ns j) ∧ (∀ j, leafAt ns' j = leafAt ns j) ∧
      (∀ (O : Ops V B S) M, OKExcept O M ns → OKExcept O (fun j => M j ∨ j = lp ∨ j = rp) ns') := by
  let ns1 := ns.modify lp (Node.replaceChild ls rs)
  let ns2 := ns1.modify rp (Node.replaceChild rs ls)
  let ns3 := ns2.modify ls (Node.setParent rp)
  let ns4 := ns3.modify rs (Node.setParent lp)
  have hhb : ∀ j, hbAt ns4 j = hbAt ns j := by
    intro j
    unfold hbAt
    simp only [ns4, ns3, ns2, ns1, getElem?_modify']
    cases ns[j]? with
    | none => repeat' split
              all_goals rfl
    | some n =>
      repeat' split
      all_goals simp [hb_setParent, hb_replaceChild]
  have hleaf : ∀ j, leafAt ns4 j = leafAt ns j := by
    intro j
    unfold leafAt
    simp only [ns4, ns3, ns2, ns1, getElem?_modify']
    cases ns[j]? with
    | none => repeat' split
              all_goals rfl
    | some n =>
      repeat' split
      all_goals simp [leafData_setParent, leafData_replaceChild]
  have hsk : ∀ j, skelAt ns4 j = if rs = j then (skelAt ns j).map (Skel.setParent lp)
      else if ls = j then (skelAt ns j).map (Skel.setParent rp)
      else if rp = j then (skelAt ns j).map (Skel.replaceChild rs ls)
      else if lp = j then (skelAt ns j).map (Skel.replaceChild ls rs) else skelAt ns j := by
    intro j
    simp only [ns4, ns3, ns2, ns1]
    rw [skelAt_modify_of _ _ _ _ (Skel.setParent lp) (by simp),
      skelAt_modify_of _ _ _ _ (Skel.setParent rp) (by simp),
      skelAt_modify_of _ _ _ _ (Skel.replaceChild rs ls) (by simp),
      skelAt_modify_of _ _ _ _ (Skel.replaceChild ls rs) (by simp)]
    by_cases e1 : rs = j
    · subst e1; simp [d6, d5, d3]
    · by_cases e2 : ls = j
      · subst e2; simp [e1, d4, d2]
      · by_cases e3 : rp = j
        · subst e3; simp [e1, e2, d1]
        · simp [e1, e2, e3]
  refine ⟨ns4, ?_, by simp [ns4, ns3, ns2, ns1], ?_, ?_, ?_, ?_, ?_, hhb, hleaf, ?_⟩
  · simp only [swapNodes, modNode_ok _ h3, Res.bind_ok]
    rw [modNode_ok _ (by simpa using h4)]
    simp only [Res.bind_ok]
    rw [modNode_ok _ (by simpa using h1)]
    simp only [Res.bind_ok]
    rw [modNode_ok _ (by simpa using h2)]
  · rw [hsk, if_neg (Ne.symm d3), if_neg (Ne.symm d2), if_neg (Ne.symm d1), if_pos rfl]
  · rw [hsk, if_neg (Ne.symm d5), if_neg (Ne.symm d4), if_pos rfl]
  · rw [hsk, if_neg (Ne.symm d6), if_pos rfl]
  · rw [hsk, if_pos rfl]
  · intro j e1 e2 e3 e4
    rw [hsk, if_neg (Ne.symm e4), if_neg (Ne.symm e3), if_neg (Ne.symm e2), if_neg (Ne.symm e1)]
  · intro O M hok
    refine OKExcept.transfer hok ?_
    intro j b hb
    by_cases hm : M j
    · exact Or.inl (Or.inl hm)
    by_cases e1 : j = lp
    · exact Or.inl (Or.inr (Or.inl e1))
    by_cases e2 : j = rp
    · exact Or.inl (Or.inr (Or.inr e2))
    right; right
    simp only [ns4, ns3, ns2, ns1, getElem?_modify', if_neg (Ne.symm e1), if_neg (Ne.symm e2)] at hb
    have key : ∃ b0 : Branch B, ns[j]? = some (.branch b0) ∧ b.height = b0.height ∧ b.bound = b0.bound ∧
        b.left = b0.left ∧ b.right = b0.right := by
      cases hn : ns[j]? with
      | none => rw [hn] at hb; repeat' split at hb
                all_goals simp at hb
      | some n =>
        rw [hn] at hb
        cases n with
        | branch b0 =>
          refine ⟨b0, rfl, ?_⟩
          repeat' split at hb
          all_goals simp [Node.setParent] at hb; subst hb; exact ⟨rfl, rfl, rfl, rfl⟩
        | leaf l =>
          repeat' split at hb
          all_goals simp [Node.setParent] at hb
        | nil =>
          repeat' split at hb
          all_goals simp [Node.setParent] at hb
    obtain ⟨b0, h0, e3, e4, e5, e6⟩ := key
    exact ⟨b0, h0, hm, e3, e4, by rw [hhb, e5], by rw [hhb, e6]⟩

/-! ## Rotations on trees -/

/-- The six rotations, on trees. -/
inductive Rot : T → T → Prop
  | lrl (i r : Nat) (l rl rr : T) : Rot (.node i l (.node r rl rr)) (.node i rl (.node r l rr))
  | lrr (i r : Nat) (l rl rr : T) : Rot (.node i l (.node r rl rr)) (.node i rr (.node r rl l))
  | rll (i l : Nat) (ll lr r : T) : Rot (.node i (.node l ll lr) r) (.node i (.node l r lr) ll)
  | rlr (i l : Nat) (ll lr r : T) : Rot (.node i (.node l ll lr) r) (.node i (.node l ll r) lr)
  | llrl (i l r : Nat) (ll lr rl rr : T) :
      Rot (.node i (.node l ll lr) (.node r rl rr)) (.node i (.node l rl lr) (.node r ll rr))
  | llrr (i l r : Nat) (ll lr rl rr : T) :
      Rot (.node i (.node l ll lr) (.node r rl rr)) (.node i (.node l rr lr) (.node r rl ll))

theorem Rot.root {s s' : T} (h : Rot s s') : s'.root = s.root := by cases h <;> rfl

theorem Rot.count {s s' : T} (h : Rot s s') (a : Nat) : s'.idxs.count a = s.idxs.count a := by
  cases h <;> simp only [T.idxs_node, List.count_cons, List.count_append] <;> omega

theorem Rot.perm {s s' : T} (h : Rot s s') : s'.idxs.Perm s.idxs :=
  List.perm_iff_count.2 h.count

theorem Rot.leaves_perm {s s' : T} (h : Rot s s') : s'.leaves.Perm s.leaves := by
  refine List.perm_iff_count.2 fun a => ?_
  cases h <;> simp only [T.leaves_node, List.count_append] <;> omega

theorem Rot.dep_le {s s' : T} (h : Rot s s') (hn : s.idxs.Nodup) (j : Nat) :
    s'.dep j ≤ s.dep j + 1 := by
  have hd : ∀ {a b : List Nat}, (∀ x ∈ a, ∀ y ∈ b, x ≠ y) → j ∈ a → j ∈ b → False :=
    fun h h1 h2 => h j h1 j h2 rfl
  cases h with
  | lrl i r l rl rr =>
    simp only [T.idxs_node, List.nodup_cons, List.nodup_append, List.mem_cons, List.mem_append] at hn
    simp only [T.dep, T.idxs_node, List.mem_cons, List.mem_append]
    grind
  | lrr i r l rl rr =>
    simp only [T.idxs_node, List.nodup_cons, List.nodup_append, List.mem_cons, List.mem_append] at hn
    simp only [T.dep, T.idxs_node, List.mem_cons, List.mem_append]
    grind
  | rll i l ll lr r =>
    simp only [T.idxs_node, List.nodup_cons, List.nodup_append, List.mem_cons, List.mem_append] at hn
    simp only [T.dep, T.idxs_node, List.mem_cons, List.mem_append]
    grind
  | rlr i l ll lr r =>
    simp only [T.idxs_node, List.nodup_cons, List.nodup_append, List.mem_cons, List.mem_append] at hn
    simp only [T.dep, T.idxs_node, List.mem_cons, List.mem_append]
    grind
  | llrl i l r ll lr rl rr =>
    simp only [T.idxs_node, List.nodup_cons, List.nodup_append, List.mem_cons, List.mem_append] at hn
    simp only [T.dep, T.idxs_node, List.mem_cons, List.mem_append]
    grind
  | llrr i l r ll lr rl rr =>
    simp only [T.idxs_node, List.nodup_cons, List.nodup_append, List.mem_cons, List.mem_append] at hn
    simp only [T.dep, T.idxs_node, List.mem_cons, List.mem_append]
    grind

end Verif.Dbvt
