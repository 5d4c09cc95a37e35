import Verif.Dbvt.InsertProof
/-!
# `remove` preserves the invariants (proof machinery)
-/
namespace Verif.Dbvt
open Verif

variable {V B S : Type}

theorem swapRemove_ok {α : Type} {l : List α} {k : Nat} {x : α} (h : l[k]? = some x) :
    ∃ vs, swapRemove l k = .ok (x, vs) ∧ vs.length + 1 = l.length ∧
      (∀ j, j < vs.length → j ≠ k → vs[j]? = l[j]?) ∧
      (k < vs.length → vs[k]? = l[vs.length]?) := by
  have hk := lt_of_getElem? h
  have hne : l ≠ [] := by rintro rfl; simp at hk
  have hlast : l.getLast? = some l[l.length - 1] := by
    rw [List.getLast?_eq_getElem?, List.getElem?_eq_getElem (by omega)]
  refine ⟨(l.set k l[l.length - 1]).dropLast, by simp [swapRemove, h, hlast], by simp; omega, ?_, ?_⟩
  · intro j hj hjk
    simp only [List.length_dropLast, List.length_set] at hj
    rw [List.getElem?_dropLast, if_pos (by simpa using hj), List.getElem?_set, if_neg (Ne.symm hjk)]
  · intro hk'
    simp only [List.length_dropLast, List.length_set] at hk' ⊢
    rw [List.getElem?_dropLast, if_pos (by simpa using hk'), List.getElem?_set, if_pos rfl,
      if_pos hk, ← List.getElem?_eq_getElem]

/-- ValsOK implies that keys are distinct. -/
theorem ValsOK.inj {ns : List (Node B)} {vs : List (Nat × V)} (h : ValsOK ns vs) {k k' i : Nat}
    {v v' : V} (h1 : vs[k]? = some (i, v)) (h2 : vs[k']? = some (i, v')) : k = k' := by
  obtain ⟨l, hl, e⟩ := h.toLeaf k i v h1
  obtain ⟨l', hl', e'⟩ := h.toLeaf k' i v' h2
  rw [hl] at hl'
  simp at hl'
  rw [← e, ← e', hl']

theorem hb_setValue (k : Nat) (n : Node B) : (n.setValue k).hb = n.hb := by cases n <;> rfl
theorem hb_setParent (k : Nat) (n : Node B) : (n.setParent k).hb = n.hb := by cases n <;> rfl
theorem leafData_setParent (k : Nat) (n : Node B) : (n.setParent k).leafData = n.leafData := by
  cases n <;> rfl
theorem leafData_setValue (k : Nat) (n : Node B) :
    (n.setValue k).leafData = n.leafData.map (fun d => (k, d.2)) := by cases n <;> rfl

/-- Splicing the parent of a leaf out of the tree, on skeletons. -/
theorem splice_rep {f g : Nat → Option Skel} {c : Ctx} {p i : Nat} {sib u : T}
    (hu : u = .node p (.leaf i) sib ∨ u = .node p sib (.leaf i))
    (hnd : (plug c u).idxs.Nodup)
    (hr : Rep f 0 (plug c u))
    (hsib : g sib.root = (f sib.root).map (Skel.setParent (Ctx.parent c)))
    (hgp : c ≠ [] → g (Ctx.parent c) = (f (Ctx.parent c)).map (Skel.replaceChild p sib.root))
    (ho : ∀ j, j ≠ p → j ≠ i → j ≠ sib.root → (c = [] ∨ j ≠ Ctx.parent c) → g j = f j) :
    Rep g 0 (plug c sib) := by
  rw [rep_plug] at hr ⊢
  have hp := (plug_perm c u).nodup_iff.1 hnd
  obtain ⟨hc, hru⟩ := hr
  have hroot : u.root = p := by rcases hu with rfl | rfl <;> rfl
  have hsibr : Rep f p sib := by rcases hu with rfl | rfl; exacts [hru.2.2, hru.2.1]
  have hmem : ∀ j, j ∈ u.idxs ↔ j = p ∨ j = i ∨ j ∈ sib.idxs := by
    intro j; rcases hu with rfl | rfl <;> simp; tauto
  have hnsib : sib.idxs.Nodup ∧ p ∉ sib.idxs ∧ i ∉ sib.idxs := by
    rw [List.nodup_append] at hp
    rcases hu with rfl | rfl
    · have := hp.1; simp [List.nodup_cons] at this; exact ⟨this.2.2, this.1.2, this.2.1⟩
    · have := hp.1; simp [List.nodup_cons, List.nodup_append] at this
      exact ⟨this.2.1, this.1.1, fun h => this.2.2 i h rfl⟩
  rw [List.nodup_append] at hp
  have hdis : ∀ j ∈ Ctx.idxs c, j ≠ p ∧ j ≠ i ∧ j ∉ sib.idxs := by
    intro j hj
    refine ⟨?_, ?_, ?_⟩
    · rintro rfl; exact hp.2.2 j ((hmem j).2 (Or.inl rfl)) j hj rfl
    · rintro rfl; exact hp.2.2 j ((hmem j).2 (Or.inr (Or.inl rfl))) j hj rfl
    · intro h; exact hp.2.2 j ((hmem j).2 (Or.inr (Or.inr h))) j hj rfl
  refine ⟨?_, ?_⟩
  · rw [hroot] at hc
    refine hc.retarget hp.2.1 (fun h => (hdis p h).1 rfl) hgp ?_
    intro j hj hjp
    obtain ⟨h1, h2, h3⟩ := hdis j hj
    exact ho j h1 h2 (fun e => h3 (e ▸ sib.root_mem)) (Or.inr hjp)
  · refine hsibr.reparent hnsib.1 ?_ hsib
    intro j hj hjr
    refine ho j (fun e => hnsib.2.1 (e ▸ hj)) (fun e => hnsib.2.2 (e ▸ hj)) hjr ?_
    by_cases hcn : c = []
    · exact Or.inl hcn
    · exact Or.inr fun e => (hdis _ (Ctx.parent_mem hcn)).2.2 (e ▸ hj)

/-- Everything `remove` guarantees about a leaf. -/
structure RemoveLeaf (O : Ops V B S) (s : Dbvt V B) (i : Nat) (v : V) (s' : Dbvt V B) : Prop where
  run : s.remove i = .ok (some v, s')
  wf : WF s'
  mem : (i, v) ∈ s.values
  values : ∀ e, e ∈ s'.values ↔ e ∈ s.values ∧ e.1 ≠ i
  length : s'.values.length + 1 = s.values.length
  updated : s'.updated = s.updated
  leaves : ∀ j, j ≠ i → (leafAt s'.nodes j).map Prod.snd = (leafAt s.nodes j).map Prod.snd
  gone : leafAt s'.nodes i = none
  len : s'.nodes.length = s.nodes.length ∨ s'.values = []
  refitOK : RefitOK O s → RefitOK O s'

theorem swap_values_mem {vs vs' : List (Nat × V)} {ns : List (Node B)} {k i : Nat} {v : V}
    (hv : ValsOK ns vs) (hk : vs[k]? = some (i, v)) (hlen : vs'.length + 1 = vs.length)
    (h1 : ∀ j, j < vs'.length → j ≠ k → vs'[j]? = vs[j]?)
    (h2 : k < vs'.length → vs'[k]? = vs[vs'.length]?) (e : Nat × V) :
    e ∈ vs' ↔ e ∈ vs ∧ e.1 ≠ i := by
  simp only [List.mem_iff_getElem?]
  constructor
  · rintro ⟨j, hj⟩
    have hjl := lt_of_getElem? hj
    by_cases hjk : j = k
    · subst hjk
      rw [h2 hjl] at hj
      refine ⟨⟨_, hj⟩, ?_⟩
      rintro rfl
      have := hv.inj (v := e.2) (v' := v) hj hk
      omega
    · rw [h1 j hjl hjk] at hj
      refine ⟨⟨_, hj⟩, ?_⟩
      rintro rfl
      exact hjk (hv.inj (v := e.2) (v' := v) hj hk)
  · rintro ⟨⟨j, hj⟩, hne⟩
    have hjl := lt_of_getElem? hj
    have hjk : j ≠ k := by
      rintro rfl; rw [hk] at hj; simp at hj; rw [← hj] at hne; exact hne rfl
    by_cases hjx : j < vs'.length
    · exact ⟨j, by rw [h1 j hjx hjk]; exact hj⟩
    · have : j = vs'.length := by omega
      subst this
      have hkl := lt_of_getElem? hk
      exact ⟨k, by rw [h2 (by omega)]; exact hj⟩

set_option maxHeartbeats 1000000 in
open Classical in
theorem remove_leaf (O : Ops V B S) (s : Dbvt V B) (t : T) (h : WFt s t) (i : Nat) (l : Leaf B)
    (hl : s.nodes[i]? = some (.leaf l)) : ∃ v s', RemoveLeaf O s i v s' := by
  have hsh := h.shape
  have hit : i ∈ t.idxs := hsh.mem_of (skelAt_of_leaf hl) (by simp)
  obtain ⟨v, hv⟩ := h.vals.toVal i l hl
  obtain ⟨vs, hsw, hvl, hv1, hv2⟩ := swapRemove_ok hv
  have hmem := swap_values_mem h.vals hv hvl hv1 hv2
  obtain ⟨c0, s0, hts, hroot⟩ := exists_focus t i hit
  have hs0 : s0 = .leaf i := by
    have hrp := ((rep_plug c0 s0).1 (hts ▸ hsh.rep)).2
    cases s0 with
    | leaf j => simp at hroot; rw [hroot]
    | node j a b =>
      simp at hroot; subst hroot
      have := hrp.1
      rw [skelAt_of_leaf hl] at this; simp at this
  subst hs0
  -- the first renaming step
  obtain ⟨ns1, hns1, hlen1, hsk1, hget1⟩ : ∃ ns1, fixMoved s.nodes vs l.value = .ok ns1 ∧ ns1.length = s.nodes.length ∧
      skelAt ns1 = skelAt s.nodes ∧
      (∀ (j : Nat), ns1[j]? = (s.nodes[j]?).map (fun n => if ∃ w, vs[l.value]? = some (j, w) then
          n.setValue l.value else n)) := by
    unfold fixMoved
    cases hvk : vs[l.value]? with
    | none =>
      refine ⟨s.nodes, rfl, rfl, rfl, fun j => ?_⟩
      simp
    | some e' =>
      have hb : e'.1 < s.nodes.length := by
        have := (hmem e').1 (List.mem_of_getElem? hvk)
        obtain ⟨k', hk'⟩ := List.mem_iff_getElem?.1 this.1
        obtain ⟨l', hl', _⟩ := h.vals.toLeaf k' e'.1 e'.2 hk'
        exact lt_of_getElem? hl'
      refine ⟨s.nodes.modify e'.1 (Node.setValue l.value), modNode_ok _ hb, by simp,
        skelAt_modify_id _ _ _ (by simp), fun j => ?_⟩
      rw [getElem?_modify']
      by_cases hj : e'.1 = j
      · subst hj
        rw [if_pos rfl]
        have : ∃ w, some e' = some (e'.1, w) := ⟨e'.2, rfl⟩
        simp only [this, if_true]
      · rw [if_neg hj]
        have : ¬ ∃ w, some e' = some (j, w) := by
          rintro ⟨w, hw⟩; simp at hw; exact hj (by rw [hw])
        simp only [this, if_false, Option.map_id']
  -- data of nodes after the first step
  have hleaf1 : ∀ j, leafAt ns1 j = if ∃ w, vs[l.value]? = some (j, w) then
      (leafAt s.nodes j).map (fun d => (l.value, d.2)) else leafAt s.nodes j := by
    intro j
    unfold leafAt
    rw [hget1]
    cases s.nodes[j]? with
    | none => simp
    | some n =>
      simp only [Option.map_some, Option.bind_some]
      split
      · exact leafData_setValue _ _
      · rfl
  have hhb1 : ∀ j, hbAt ns1 j = hbAt s.nodes j := by
    intro j
    unfold hbAt
    rw [hget1]
    cases s.nodes[j]? with
    | none => simp
    | some n =>
      simp only [Option.map_some, Option.bind_some]
      split
      · exact hb_setValue _ _
      · rfl
  have hbr1 : ∀ (j : Nat) (b : Branch B), ns1[j]? = some (.branch b) ↔ s.nodes[j]? = some (.branch b) := by
    intro j b
    rw [hget1]
    cases s.nodes[j]? with
    | none => simp
    | some n =>
      simp only [Option.map_some]
      split
      · cases n <;> simp [Node.setValue]
      · rfl
  have hilen : i < s.nodes.length := hsh.mem_lt hit
  cases c0 with
  | nil =>
    -- the last value
    have ht : t = .leaf i := hts
    subst ht
    have hl0 : l.parent = 0 := by
      have := hsh.rep; rw [Rep, skelAt_of_leaf hl] at this; simpa using this
    have honly : ∀ e ∈ s.values, e.1 = i := by
      intro e he
      obtain ⟨k', hk'⟩ := List.mem_iff_getElem?.1 he
      obtain ⟨l', hl', _⟩ := h.vals.toLeaf k' e.1 e.2 hk'
      have := hsh.mem_of (skelAt_of_leaf hl') (by simp)
      simpa using this
    have hvs : vs = [] := by
      cases hvs : vs with
      | nil => rfl
      | cons e rest =>
        have := (hmem e).1 (by rw [hvs]; simp)
        exact absurd (honly e this.1) this.2
    refine ⟨v, ({ s with values := vs, nodes := ns1.modify i (fun _ => .nil), free := s.free ++ [i] } : Dbvt V B).clear, ?_, Or.inl ⟨rfl, rfl, rfl, rfl, rfl⟩, List.mem_of_getElem? hv, ?_, ?_, rfl, ?_, ?_, Or.inr rfl, ?_⟩
    · unfold Dbvt.remove
      rw [nodeAt_some hl]
      simp only [Res.bind_ok, hsw]
      rw [hns1]
      simp only [Res.bind_ok]
      rw [modNode_ok _ (by omega)]
      simp [hl0]
    · intro e
      simp only [Dbvt.clear, List.not_mem_nil, false_iff]
      rintro ⟨h1, h2⟩; exact h2 (honly e h1)
    · simp only [Dbvt.clear]; rw [← hvl, hvs]
    · intro j hj
      have : leafAt s.nodes j = none := by
        by_contra hc
        obtain ⟨d, hd⟩ := Option.ne_none_iff_exists'.1 hc
        obtain ⟨l', hl', _⟩ := leafAt_eq.1 hd
        have := hsh.mem_of (skelAt_of_leaf hl') (by simp)
        simp at this; exact hj this
      rw [this]
      match j with
      | 0 => rfl
      | (j + 1) => rfl
    · match i with
      | 0 => rfl
      | (j + 1) => rfl
    · intro _ j b hb
      match j with
      | 0 => simp [Dbvt.clear] at hb
      | (j + 1) => simp [Dbvt.clear] at hb
  | cons frm c =>
    -- generic: parent p, sibling sib
    obtain ⟨p, sib, u, htu, hu⟩ : ∃ p sib u, t = plug c u ∧
        (u = .node p (.leaf i) sib ∨ u = .node p sib (.leaf i)) := by
      cases frm with
      | left q r => exact ⟨q, r, _, hts, Or.inl rfl⟩
      | right q r => exact ⟨q, r, _, hts, Or.inr rfl⟩
    clear hts hroot
    subst htu
    have hrp := (rep_plug c u).1 hsh.rep
    have hpm := (plug_perm c u).nodup_iff.1 hsh.nodup
    have humem : ∀ j, j ∈ u.idxs ↔ j = p ∨ j = i ∨ j ∈ sib.idxs := by
      intro j; rcases hu with rfl | rfl <;> simp; tauto
    have htmem : ∀ j, j ∈ (plug c u).idxs ↔ (j = p ∨ j = i ∨ j ∈ sib.idxs) ∨ j ∈ Ctx.idxs c := by
      intro j; rw [mem_plug, humem]
    have hnu : p ≠ i ∧ p ∉ sib.idxs ∧ i ∉ sib.idxs ∧ sib.idxs.Nodup := by
      rw [List.nodup_append] at hpm
      rcases hu with rfl | rfl
      · have := hpm.1; simp [List.nodup_cons] at this; exact ⟨this.1.1, this.1.2, this.2.1, this.2.2⟩
      · have := hpm.1; simp [List.nodup_cons, List.nodup_append] at this
        exact ⟨this.1.2, this.1.1, fun h => this.2.2 i h rfl, this.2.1⟩
    obtain ⟨hpi, hpsib, hisib, hsibn⟩ := hnu
    have hdis : ∀ j ∈ Ctx.idxs c, j ≠ p ∧ j ≠ i ∧ j ∉ sib.idxs := by
      rw [List.nodup_append] at hpm
      intro j hj
      refine ⟨?_, ?_, ?_⟩
      · rintro rfl; exact hpm.2.2 j ((humem j).2 (Or.inl rfl)) j hj rfl
      · rintro rfl; exact hpm.2.2 j ((humem j).2 (Or.inr (Or.inl rfl))) j hj rfl
      · intro h; exact hpm.2.2 j ((humem j).2 (Or.inr (Or.inr h))) j hj rfl
    have hpt : p ∈ (plug c u).idxs := (htmem p).2 (Or.inl (Or.inl rfl))
    have hsibt : sib.root ∈ (plug c u).idxs := (htmem _).2 (Or.inl (Or.inr (Or.inr sib.root_mem)))
    have hp0 : p ≠ 0 := fun e => hsh.pos (e ▸ hpt)
    have hplen := hsh.mem_lt hpt
    have hsiblen := hsh.mem_lt hsibt
    have hlp : l.parent = p := by
      have h1 := hrp.2
      rcases hu with rfl | rfl
      · have := h1.2.1; rw [Rep, skelAt_of_leaf hl] at this; simpa using this
      · have := h1.2.2; rw [Rep, skelAt_of_leaf hl] at this; simpa using this
    obtain ⟨b, hb, hbp, hbsib, hbch⟩ : ∃ b : Branch B, s.nodes[p]? = some (.branch b) ∧
        b.parent = Ctx.parent c ∧ (if b.left = i then b.right else b.left) = sib.root ∧
        ((b.left = i ∧ b.right = sib.root) ∨ (b.left = sib.root ∧ b.right = i)) := by
      have h1 := hrp.2
      rcases hu with rfl | rfl
      · obtain ⟨b, hb, e1, e2, e3⟩ := skelAt_branch h1.1
        simp only [T.root_leaf] at e2
        exact ⟨b, hb, e1, by rw [if_pos e2, e3], Or.inl ⟨e2, e3⟩⟩
      · obtain ⟨b, hb, e1, e2, e3⟩ := skelAt_branch h1.1
        simp only [T.root_leaf] at e3
        refine ⟨b, hb, e1, ?_, Or.inr ⟨e2, e3⟩⟩
        rw [if_neg (by rw [e2]; intro e; exact hisib (e ▸ sib.root_mem)), e2]
    have hgp0 : c ≠ [] → Ctx.parent c ≠ 0 := fun hc e =>
      hsh.pos (e ▸ (htmem _).2 (Or.inr (Ctx.parent_mem hc)))
    have hgplen : c ≠ [] → Ctx.parent c < s.nodes.length := fun hc =>
      hsh.mem_lt ((htmem _).2 (Or.inr (Ctx.parent_mem hc)))
    let ns2 := ns1.modify i (fun _ => (.nil : Node B))
    let ns3 := ns2.modify p (fun _ => (.nil : Node B))
    let ns4 := ns3.modify sib.root (Node.setParent (Ctx.parent c))
    let ns5 := if c = [] then ns4 else ns4.modify (Ctx.parent c) (Node.replaceChild p sib.root)
    have hlen5 : ns5.length = s.nodes.length := by
      simp only [ns5]; split <;> simp [ns4, ns3, ns2, hlen1]
    have hrun : ∃ rf, s.remove i = .ok (some v, { s with
        nodes := ns5, values := vs, free := s.free ++ [i] ++ [p],
        root := if c = [] then sib.root else s.root, refit := rf }) ∧
        (∀ x ∈ s.refit, x ∈ rf) ∧ (c ≠ [] → Ctx.parent c ∈ rf.map Prod.snd) ∧
        RefitListOK s.nodes.length rf := by
      unfold Dbvt.remove
      rw [nodeAt_some hl]
      simp only [Res.bind_ok, hsw]
      rw [hns1]
      simp only [Res.bind_ok]
      rw [modNode_ok _ (by omega)]
      simp only [Res.bind_ok, hlp, ne_eq, hp0, not_false_eq_true, if_true]
      have h2 : (ns1.modify i (fun _ => (.nil : Node B)))[p]? = some (.branch b) := by
        rw [getElem?_modify', if_neg (Ne.symm hpi)]; exact (hbr1 p b).2 hb
      rw [nodeAt_some h2]
      simp only [Res.bind_ok, hbsib, hbp]
      rw [modNode_ok _ (by simp; omega)]
      simp only [Res.bind_ok]
      rw [modNode_ok _ (by simp; omega)]
      simp only [Res.bind_ok]
      by_cases hc : c = []
      · subst hc
        simp only [Ctx.parent, if_true]
        refine ⟨s.refit, rfl, fun x hx => hx, fun hc => absurd trivial hc, h.refit⟩
      · simp only [hgp0 hc, if_false]
        rw [modNode_ok _ (by have := hgplen hc; simp; omega)]
        simp only [Res.bind_ok]
        have e5 : ns5 = ns4.modify (Ctx.parent c) (Node.replaceChild p sib.root) := by
          simp only [ns5, hc, if_false]
        obtain ⟨k, hk⟩ := markForRefit_ok (s := ({ s with
          nodes := ns5, values := vs, free := s.free ++ [i] ++ [p] } : Dbvt V B))
          (i := Ctx.parent c) (m := 0) (by simp only [hlen5]; exact hgplen hc)
        have hk' := hk
        rw [e5] at hk'
        simp only [ns4, ns3, ns2] at hk'
        rw [hk']
        refine ⟨sortedInsert (k, Ctx.parent c) s.refit, ?_, fun x hx => sortedInsert_mem.2 (Or.inr hx),
          fun _ => refit_snd_insert.2 (Or.inl rfl), h.refit.insert (hgplen hc)⟩
        simp only [Res.bind_ok, Res.pure_eq, e5, ns4, ns3, ns2, hc, if_false]
    obtain ⟨rf, hrun, hrf1, hrf2, hrf3⟩ := hrun
    have hsr_i : sib.root ≠ i := fun e => hisib (e ▸ sib.root_mem)
    have hsr_p : sib.root ≠ p := fun e => hpsib (e ▸ sib.root_mem)
    have hget5 : ∀ j, ns5[j]? = if c ≠ [] ∧ Ctx.parent c = j then (ns1[j]?).map (Node.replaceChild p sib.root)
        else if sib.root = j then (ns1[j]?).map (Node.setParent (Ctx.parent c))
        else if p = j then (ns1[j]?).map (fun _ => .nil)
        else if i = j then (ns1[j]?).map (fun _ => .nil) else ns1[j]? := by
      intro j
      by_cases hc : c = []
      · simp only [ns5, hc, if_true, ns4, ns3, ns2, getElem?_modify', ne_eq, not_true_eq_false,
          false_and, if_false]
        by_cases h1 : sib.root = j
        · have h2 : ¬ p = j := fun e => hsr_p (h1.trans e.symm)
          have h3 : ¬ i = j := fun e => hsr_i (h1.trans e.symm)
          rw [if_pos h1, if_neg h2, if_neg h3, if_pos h1]
        · rw [if_neg h1, if_neg h1]
          by_cases h2 : p = j
          · have h3 : ¬ i = j := fun e => hpi (h2.trans e.symm)
            rw [if_pos h2, if_neg h3, if_pos h2]
          · rw [if_neg h2, if_neg h2]
      · simp only [ns5, hc, if_false, ns4, ns3, ns2, getElem?_modify', ne_eq, not_false_eq_true, true_and]
        obtain ⟨d1, d2, d3⟩ := hdis _ (Ctx.parent_mem hc)
        by_cases h0 : Ctx.parent c = j
        · have h1 : ¬ sib.root = j := fun e => d3 (by rw [h0, ← e]; exact sib.root_mem)
          have h2 : ¬ p = j := fun e => d1 (h0.trans e.symm)
          have h3 : ¬ i = j := fun e => d2 (h0.trans e.symm)
          rw [if_pos h0, if_pos h0, if_neg h1, if_neg h2, if_neg h3]
        · rw [if_neg h0, if_neg h0]
          by_cases h1 : sib.root = j
          · have h2 : ¬ p = j := fun e => hsr_p (h1.trans e.symm)
            have h3 : ¬ i = j := fun e => hsr_i (h1.trans e.symm)
            rw [if_pos h1, if_neg h2, if_neg h3, if_pos h1]
          · rw [if_neg h1, if_neg h1]
            by_cases h2 : p = j
            · have h3 : ¬ i = j := fun e => hpi (h2.trans e.symm)
              rw [if_pos h2, if_neg h3, if_pos h2]
            · rw [if_neg h2, if_neg h2]
    clear_value ns5
    clear ns4 ns3 ns2
    -- pointwise facts
    have g_par : c ≠ [] → ns5[Ctx.parent c]? = (ns1[Ctx.parent c]?).map (Node.replaceChild p sib.root) := by
      intro hc; rw [hget5, if_pos ⟨hc, rfl⟩]
    have g_sib : ns5[sib.root]? = (ns1[sib.root]?).map (Node.setParent (Ctx.parent c)) := by
      rw [hget5, if_neg, if_pos rfl]
      rintro ⟨hc, e⟩
      exact (hdis _ (Ctx.parent_mem hc)).2.2 (e ▸ sib.root_mem)
    have g_p : ns5[p]? = some .nil := by
      rw [hget5, if_neg, if_neg hsr_p, if_pos rfl, List.getElem?_eq_getElem (by omega)]
      · rfl
      · rintro ⟨hc, e⟩
        exact (hdis _ (Ctx.parent_mem hc)).1 e
    have g_i : ns5[i]? = some .nil := by
      rw [hget5, if_neg, if_neg hsr_i, if_neg hpi, if_pos rfl, List.getElem?_eq_getElem (by omega)]
      · rfl
      · rintro ⟨hc, e⟩
        exact (hdis _ (Ctx.parent_mem hc)).2.1 e
    have g_o : ∀ j, j ≠ p → j ≠ i → j ≠ sib.root → (c = [] ∨ j ≠ Ctx.parent c) → ns5[j]? = ns1[j]? := by
      intro j h1 h2 h3 h4
      rw [hget5, if_neg, if_neg (Ne.symm h3), if_neg (Ne.symm h1), if_neg (Ne.symm h2)]
      rintro ⟨hc, e⟩
      rcases h4 with h4 | h4
      · exact hc h4
      · exact h4 e.symm
    -- data of surviving nodes
    have hold : ∀ j, j ≠ p → j ≠ i → (∀ n, ns1[j]? = some n → ∃ n' : Node B, ns5[j]? = some n' ∧
        n'.hb = n.hb ∧ n'.leafData = n.leafData) := by
      intro j h1 h2 n hn
      by_cases h3 : j = sib.root
      · subst h3
        exact ⟨n.setParent (Ctx.parent c), by rw [g_sib, hn]; rfl, hb_setParent _ _, leafData_setParent _ _⟩
      · by_cases h4 : c = [] ∨ j ≠ Ctx.parent c
        · exact ⟨n, by rw [g_o j h1 h2 h3 h4, hn], rfl, rfl⟩
        · simp only [not_or, ne_eq, Classical.not_not] at h4
          obtain ⟨hc, rfl⟩ := h4
          exact ⟨n.replaceChild p sib.root, by rw [g_par hc, hn]; rfl, hb_replaceChild _ _ _,
            leafData_replaceChild _ _ _⟩
    have hleaf5 : ∀ j, leafAt ns5 j = if j = i then none else leafAt ns1 j := by
      intro j
      by_cases h2 : j = i
      · subst h2; rw [if_pos rfl]; simp [leafAt, g_i, Node.leafData]
      · rw [if_neg h2]
        by_cases h1 : j = p
        · subst h1
          unfold leafAt
          rw [g_p, (hbr1 _ b).2 hb]; rfl
        · cases hn : ns1[j]? with
          | none =>
            have : ns5[j]? = none := by
              rw [List.getElem?_eq_none_iff] at hn ⊢; omega
            unfold leafAt; rw [hn, this]
          | some n =>
            obtain ⟨n', hn', _, e⟩ := hold j h1 h2 n hn
            unfold leafAt; rw [hn', hn, Option.bind_some, Option.bind_some, e]
    refine ⟨v, _, hrun, Or.inr ⟨plug c sib, ?_, ?_, ?_, ?_⟩, List.mem_of_getElem? hv, hmem, hvl, rfl,
      ?_, ?_, Or.inl hlen5, ?_⟩
    · -- shape
      have hnewmem : ∀ j, j ∈ (plug c sib).idxs ↔ j ∈ sib.idxs ∨ j ∈ Ctx.idxs c := fun j => mem_plug
      refine ⟨?_, ?_, ?_, ?_, ?_⟩
      · refine splice_rep hu hsh.nodup hsh.rep ?_ ?_ ?_
        · rw [← hsk1]; unfold skelAt; rw [g_sib]; cases ns1[sib.root]? <;> simp
        · intro hc; rw [← hsk1]; unfold skelAt; rw [g_par hc]; cases ns1[Ctx.parent c]? <;> simp
        · intro j h1 h2 h3 h4
          rw [← hsk1]; unfold skelAt; rw [g_o j h1 h2 h3 h4]
      · simp only
        cases c with
        | nil => simp [plug]
        | cons fr' c' => rw [if_neg (by simp), hsh.root_eq]; exact plug_root_cons fr' c' _ _
      · rw [(plug_perm c sib).nodup_iff, List.nodup_append]
        rw [List.nodup_append] at hpm
        exact ⟨hsibn, hpm.2.1, fun a ha b' hb' e => (hdis b' hb').2.2 (e ▸ ha)⟩
      · rw [hnewmem]
        rintro (h0 | h0)
        · exact hsh.pos ((htmem 0).2 (Or.inl (Or.inr (Or.inr h0))))
        · exact hsh.pos ((htmem 0).2 (Or.inr h0))
      · intro j hj hn
        rw [hnewmem] at hn
        simp only [not_or] at hn
        simp only at hj ⊢
        by_cases h1 : j = p
        · subst h1; exact skelAt_of_nil g_p
        by_cases h2 : j = i
        · subst h2; exact skelAt_of_nil g_i
        have e : skelAt ns5 j = skelAt ns1 j := by
          unfold skelAt
          rw [g_o j h1 h2 (fun e => hn.1 (e ▸ sib.root_mem)) ?_]
          by_cases hc : c = []
          · exact Or.inl hc
          · exact Or.inr fun e => hn.2 (e ▸ Ctx.parent_mem hc)
        rw [e, hsk1]
        refine hsh.others j (by rw [hlen5] at hj; exact hj) ?_
        rw [htmem]
        rintro ((h | h | h) | h)
        · exact h1 h
        · exact h2 h
        · exact hn.1 h
        · exact hn.2 h
    · -- free
      simp only [hlen5]
      have hf := h.free
      refine ⟨?_, ?_⟩
      · rw [List.nodup_append, List.nodup_append]
        refine ⟨⟨hf.nodup, by simp, ?_⟩, by simp, ?_⟩
        · intro a ha b' hb' e
          simp at hb'
          have := ((hf.mem a).1 ha).2.2
          apply this; rw [e, hb']; exact hit
        · intro a ha b' hb' e
          simp at hb'
          subst hb'
          subst e
          rw [List.mem_append] at ha
          rcases ha with ha | ha
          · exact ((hf.mem a).1 ha).2.2 hpt
          · simp at ha; exact hpi ha
      · intro j
        have hnewmem : j ∈ (plug c sib).idxs ↔ j ∈ sib.idxs ∨ j ∈ Ctx.idxs c := mem_plug
        simp only [List.mem_append, List.mem_singleton, hf.mem, hnewmem, htmem]
        constructor
        · rintro ((⟨h1, h2, h3⟩ | rfl) | rfl)
          · refine ⟨h1, h2, ?_⟩
            rintro (h | h)
            · exact h3 (Or.inl (Or.inr (Or.inr h)))
            · exact h3 (Or.inr h)
          · refine ⟨?_, hilen, ?_⟩
            · exact Nat.pos_of_ne_zero fun e => hsh.pos (e ▸ hit)
            · rintro (h | h)
              · exact hisib h
              · exact (hdis _ h).2.1 rfl
          · refine ⟨Nat.pos_of_ne_zero hp0, hplen, ?_⟩
            rintro (h | h)
            · exact hpsib h
            · exact (hdis _ h).1 rfl
        · rintro ⟨h1, h2, h3⟩
          by_cases hjp : j = p
          · exact Or.inr hjp
          by_cases hji : j = i
          · exact Or.inl (Or.inr hji)
          refine Or.inl (Or.inl ⟨h1, h2, ?_⟩)
          rintro ((h | h | h) | h)
          · exact hjp h
          · exact hji h
          · exact h3 (Or.inl h)
          · exact h3 (Or.inr h)
    · -- values
      simp only
      rw [valsOK_iff]
      have hvo := valsOK_iff.1 h.vals
      refine ⟨fun k j w hw => ?_, fun j d hd => ?_⟩
      · have hkl := lt_of_getElem? hw
        have hji : j ≠ i := ((hmem (j, w)).1 (List.mem_of_getElem? hw)).2
        rw [hleaf5, if_neg hji, hleaf1]
        by_cases hk : k = l.value
        · subst hk
          rw [if_pos ⟨w, hw⟩]
          have hw' := hw
          rw [hv2 hkl] at hw'
          obtain ⟨d, hd, _⟩ := hvo.1 _ _ _ hw'
          exact ⟨_, by rw [hd]; rfl, rfl⟩
        · rw [if_neg]
          · rw [hv1 k hkl hk] at hw
            exact hvo.1 _ _ _ hw
          · rintro ⟨w', hw'⟩
            have hkl' := lt_of_getElem? hw'
            rw [hv2 hkl'] at hw'
            rw [hv1 k hkl hk] at hw
            have := h.vals.inj hw hw'
            omega
      · rw [hleaf5] at hd
        split at hd
        · simp at hd
        · rename_i hji
          rw [hleaf1] at hd
          split at hd
          · rename_i hex
            obtain ⟨w, hw⟩ := hex
            obtain ⟨a, ha, rfl⟩ := Option.map_eq_some_iff.1 hd
            exact ⟨w, hw⟩
          · rename_i hnex
            obtain ⟨w, hw⟩ := hvo.2 j d hd
            have hdl := lt_of_getElem? hw
            have hdk : d.1 ≠ l.value := by
              intro e; rw [e, hv] at hw; simp at hw; exact hji hw.1.symm
            have hlv := lt_of_getElem? hv
            by_cases hdl' : d.1 < vs.length
            · exact ⟨w, by rw [hv1 d.1 hdl' hdk]; exact hw⟩
            · exfalso
              apply hnex
              refine ⟨w, ?_⟩
              rw [hv2 (by omega)]
              have : vs.length = d.1 := by omega
              rw [this]; exact hw
    · simp only [hlen5]; exact hrf3
    · intro j hj
      simp only
      rw [hleaf5, if_neg hj, hleaf1]
      split
      · cases leafAt s.nodes j <;> rfl
      · rfl
    · simp only; rw [hleaf5, if_pos rfl]
    · intro hok
      refine OKExcept.transfer hok ?_
      intro j b' hb'
      simp only at hb' ⊢
      by_cases h1 : j = p
      · subst h1; rw [g_p] at hb'; simp at hb'
      by_cases h2 : j = i
      · subst h2; rw [g_i] at hb'; simp at hb'
      by_cases h4 : c ≠ [] ∧ j = Ctx.parent c
      · obtain ⟨hc, rfl⟩ := h4
        exact Or.inl (hrf2 hc)
      have hcj : c = [] ∨ j ≠ Ctx.parent c := by
        by_cases hc : c = []
        · exact Or.inl hc
        · exact Or.inr fun e => h4 ⟨hc, e⟩
      by_cases hm : j ∈ s.refit.map Prod.snd
      · left
        obtain ⟨x, hx, rfl⟩ := List.mem_map.1 hm
        exact List.mem_map.2 ⟨x, hrf1 x hx, rfl⟩
      · right; right
        obtain ⟨b0, hb0, eh, eb, el, er⟩ : ∃ b0 : Branch B, ns1[j]? = some (.branch b0) ∧
            b'.height = b0.height ∧ b'.bound = b0.bound ∧ b'.left = b0.left ∧ b'.right = b0.right := by
          by_cases h3 : j = sib.root
          · subst h3
            rw [g_sib] at hb'
            obtain ⟨n, hn, e⟩ := Option.map_eq_some_iff.1 hb'
            cases n with
            | branch b0 => simp [Node.setParent] at e; exact ⟨b0, hn, by rw [← e], by rw [← e], by rw [← e], by rw [← e]⟩
            | leaf b0 => simp [Node.setParent] at e
            | nil => simp [Node.setParent] at e
          · rw [g_o j h1 h2 h3 hcj] at hb'
            exact ⟨b', hb', rfl, rfl, rfl, rfl⟩
        have hb0' := (hbr1 j b0).1 hb0
        refine ⟨b0, hb0', hm, eh, eb, ?_, ?_⟩
        all_goals
          rw [← hhb1]
        · rw [el]
          obtain ⟨-, hcl, -⟩ := hsh.children hb0'
          obtain ⟨n, hn, hnn⟩ := hsh.mem_iff.1 hcl
          have hx1 : b0.left ≠ p := by
            intro e
            have := hsh.child_parent hb0' (Or.inl e) hb
            simp only [Node.skel, Skel.parent] at this
            rw [hbp] at this
            rcases hcj with hcj | hcj
            · subst hcj
              apply hsh.pos
              rw [show (0 : Nat) = j from this]
              exact (hsh.children hb0').1
            · exact hcj this.symm
          have hx2 : b0.left ≠ i := by
            intro e
            have := hsh.child_parent hb0' (Or.inl e) hl
            simp only [Node.skel, Skel.parent] at this
            exact h1 (this.symm.trans hlp)
          obtain ⟨n1, hn1⟩ : ∃ n1, ns1[b0.left]? = some n1 := by rw [hget1, hn]; exact ⟨_, rfl⟩
          obtain ⟨n', hn', e, _⟩ := hold _ hx1 hx2 n1 hn1
          simp [hbAt, hn1, hn', e]
        · rw [er]
          obtain ⟨-, -, hcl, -⟩ := hsh.children hb0'
          obtain ⟨n, hn, hnn⟩ := hsh.mem_iff.1 hcl
          have hx1 : b0.right ≠ p := by
            intro e
            have := hsh.child_parent hb0' (Or.inr e) hb
            simp only [Node.skel, Skel.parent] at this
            rw [hbp] at this
            rcases hcj with hcj | hcj
            · subst hcj
              apply hsh.pos
              rw [show (0 : Nat) = j from this]
              exact (hsh.children hb0').1
            · exact hcj this.symm
          have hx2 : b0.right ≠ i := by
            intro e
            have := hsh.child_parent hb0' (Or.inr e) hl
            simp only [Node.skel, Skel.parent] at this
            exact h1 (this.symm.trans hlp)
          obtain ⟨n1, hn1⟩ : ∃ n1, ns1[b0.right]? = some n1 := by rw [hget1, hn]; exact ⟨_, rfl⟩
          obtain ⟨n', hn', e, _⟩ := hold _ hx1 hx2 n1 hn1
          simp [hbAt, hn1, hn', e]

end Verif.Dbvt
