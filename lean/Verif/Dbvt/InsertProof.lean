import Verif.Dbvt.Inv
/-!
# `insert` preserves the invariants (proof machinery)
-/
namespace Verif.Dbvt
open Verif

variable {V B S : Type}

theorem takeFree_spec (s : Dbvt V B) (used : Nat → Prop)
    (hf : FreeOK s.nodes.length s.free used) (hlen : 0 < s.nodes.length)
    (hu : ∀ i, used i → i < s.nodes.length) :
    ∃ i m fr, s.takeFree = (i, { s with nodes := s.nodes ++ List.replicate m .nil, free := fr }) ∧
      0 < i ∧ ¬ used i ∧ i < s.nodes.length + m ∧
      FreeOK (s.nodes.length + m) fr (fun j => used j ∨ j = i) := by
  unfold Dbvt.takeFree
  cases hfr : s.free with
  | nil =>
    refine ⟨s.nodes.length, 1, [], ?_, hlen, fun h => by have := hu _ h; omega, by omega, ?_⟩
    · simp [List.replicate]
    · refine ⟨by simp, fun i => ?_⟩
      have := hf.mem i
      rw [hfr] at this
      simp only [List.not_mem_nil, false_iff] at this ⊢
      rintro ⟨h1, h2, h3⟩
      simp only [not_or] at h3
      exact this ⟨h1, by omega, h3.1⟩
  | cons i rest =>
    have hm := (hf.mem i).1 (by rw [hfr]; simp)
    refine ⟨i, 0, rest, by simp, hm.1, hm.2.2, by omega, ?_⟩
    have hnd := hf.nodup
    rw [hfr, List.nodup_cons] at hnd
    refine ⟨hnd.2, fun j => ?_⟩
    have := hf.mem j
    rw [hfr, List.mem_cons] at this
    constructor
    · intro hj
      have h2 := this.1 (Or.inr hj)
      refine ⟨h2.1, by omega, ?_⟩
      rintro (h | rfl)
      · exact h2.2.2 h
      · exact hnd.1 hj
    · rintro ⟨h1, h2, h3⟩
      simp only [not_or] at h3
      rcases this.2 ⟨h1, by omega, h3.1⟩ with h | h
      · exact absurd h h3.2
      · exact h

theorem nextFree_spec (s : Dbvt V B) (used : Nat → Prop)
    (hf : FreeOK s.nodes.length s.free used) (hlen : 0 < s.nodes.length)
    (hu : ∀ i, used i → i < s.nodes.length) :
    ∃ nb nl m fr, s.nextFree = ((nb, nl),
        { s with nodes := s.nodes ++ List.replicate m .nil, free := fr }) ∧
      0 < nb ∧ 0 < nl ∧ nb ≠ nl ∧ ¬ used nb ∧ ¬ used nl ∧
      nb < s.nodes.length + m ∧ nl < s.nodes.length + m ∧
      FreeOK (s.nodes.length + m) fr (fun j => (used j ∨ j = nb) ∨ j = nl) := by
  obtain ⟨i, m, fr, he, hi0, hiu, hil, hf1⟩ := takeFree_spec s used hf hlen hu
  obtain ⟨j, m', fr', he', hj0, hju, hjl, hf2⟩ := takeFree_spec
    { s with nodes := s.nodes ++ List.replicate m .nil, free := fr } (fun j => used j ∨ j = i)
    (by simpa using hf1) (by simp; omega)
    (by intro k hk; simp; rcases hk with hk | rfl
        · have := hu _ hk; omega
        · exact hil)
  simp only [not_or] at hju
  simp only [List.length_append, List.length_replicate] at hjl hf2
  refine ⟨i, j, m + m', fr', ?_, hi0, hj0, fun e => hju.2 e.symm, hiu, hju.1, by omega, by omega, ?_⟩
  · simp only [Dbvt.nextFree, he, he', List.append_assoc, ← List.replicate_add]
  · rw [← Nat.add_assoc]; exact hf2

theorem skelAt_append {ns : List (Node B)} {m j : Nat} :
    skelAt (ns ++ List.replicate m .nil) j =
      if j < ns.length then skelAt ns j else if j < ns.length + m then some .nil else none := by
  unfold skelAt
  rw [List.getElem?_append]
  split
  · rfl
  · rw [List.getElem?_replicate]
    split
    · rw [if_pos (by omega)]; rfl
    · rw [if_neg (by omega)]; rfl

theorem Shape.extend {ns : List (Node B)} {root : Nat} {t : T} (h : Shape ns root t) (m : Nat) :
    Shape (ns ++ List.replicate m .nil) root t := by
  refine ⟨h.rep.congr fun i hi => ?_, h.root_eq, h.nodup, h.pos, fun i hi hn => ?_⟩
  · rw [skelAt_append, if_pos (h.mem_lt hi)]
  · rw [skelAt_append]
    split
    · rename_i h'; exact h.others i h' hn
    · simp at hi; rw [if_pos hi]

theorem descend_spec (O : Ops V B S) {ns : List (Node B)} (nb : B) (t : T) (p fuel : Nat)
    (hr : Rep (skelAt ns) p t) (hf : t.height ≤ fuel) :
    ∃ li l, descend O ns nb fuel t.root = .ok (some (li, l)) ∧ li ∈ t.leaves ∧
      ns[li]? = some (.leaf l) := by
  induction t generalizing p fuel with
  | leaf i =>
    obtain ⟨l, hl, _⟩ := skelAt_leaf hr
    cases fuel with
    | zero => simp at hf
    | succ fuel => exact ⟨i, l, by simp [descend, nodeAt_some hl], by simp, hl⟩
  | node i l r ihl ihr =>
    obtain ⟨h1, h2, h3⟩ := hr
    obtain ⟨b, hb, _, hbl, hbr⟩ := skelAt_branch h1
    cases fuel with
    | zero => simp at hf
    | succ fuel =>
      simp only [T.height_node] at hf
      have hx : ∀ (u : T), Rep (skelAt ns) i u → ∃ bd, boundAt ns u.root = .ok bd := by
        intro u hu
        cases u with
        | leaf x => obtain ⟨l, hl, _⟩ := skelAt_leaf hu; exact ⟨l.bound, by rw [T.root_leaf, boundAt_ok hl]; rfl⟩
        | node x _ _ => obtain ⟨l, hl, _⟩ := skelAt_branch hu.1; exact ⟨l.bound, by rw [T.root_node, boundAt_ok hl]; rfl⟩
      obtain ⟨lb, hlb⟩ := hx l h2
      obtain ⟨rb, hrb⟩ := hx r h3
      simp only [descend, T.root_node, nodeAt_some hb, Res.bind_ok, hbl, hbr, hlb, hrb]
      split
      · obtain ⟨li, lf, e, hm, hn⟩ := ihl i fuel h2 (by omega)
        exact ⟨li, lf, e, by simp [hm], hn⟩
      · obtain ⟨li, lf, e, hm, hn⟩ := ihr i fuel h3 (by omega)
        exact ⟨li, lf, e, by simp [hm], hn⟩

theorem RepCtx.retarget {f g : Nat → Option Skel} {c : Ctx} {h h' : Nat} (hr : RepCtx f c h)
    (hn : (Ctx.idxs c).Nodup) (hh : h ∉ Ctx.idxs c)
    (hg : c ≠ [] → g (Ctx.parent c) = (f (Ctx.parent c)).map (Skel.replaceChild h h'))
    (ho : ∀ i ∈ Ctx.idxs c, i ≠ Ctx.parent c → g i = f i) : RepCtx g c h' := by
  cases c with
  | nil => trivial
  | cons fr c =>
    have hg := hg (by simp)
    cases fr with
    | left i r =>
      simp only [Ctx.idxs, Frame.idxs, Ctx.parent, Frame.idx, List.cons_append, List.nodup_cons,
        List.mem_append, not_or, List.mem_cons] at *
      obtain ⟨h1, h2, h3⟩ := hr
      refine ⟨by rw [hg, h1]; simp [Skel.replaceChild], h2.congr fun j hj => ho j (by simp [hj]) ?_,
        h3.congr fun j hj => ho j (by simp [hj]) ?_⟩
      · rintro rfl; exact hn.1.1 hj
      · rintro rfl; exact hn.1.2 hj
    | right i l =>
      simp only [Ctx.idxs, Frame.idxs, Ctx.parent, Frame.idx, List.cons_append, List.nodup_cons,
        List.mem_append, not_or, List.mem_cons] at *
      obtain ⟨h1, h2, h3⟩ := hr
      have hne : l.root ≠ h := fun e => hh.2.1 (e ▸ l.root_mem)
      refine ⟨by rw [hg, h1]; simp [Skel.replaceChild, hne], h2.congr fun j hj => ho j (by simp [hj]) ?_,
        h3.congr fun j hj => ho j (by simp [hj]) ?_⟩
      · rintro rfl; exact hn.1.1 hj
      · rintro rfl; exact hn.1.2 hj

theorem Ctx.parent_mem {c : Ctx} (h : c ≠ []) : Ctx.parent c ∈ Ctx.idxs c := by
  cases c with
  | nil => exact absurd rfl h
  | cons fr c => cases fr <;> simp [Ctx.parent, Ctx.idxs, Frame.idx, Frame.idxs]

theorem mem_plug_insert (c : Ctx) (nb li nl j : Nat) :
    j ∈ (plug c (.node nb (.leaf li) (.leaf nl))).idxs ↔
      (j ∈ (plug c (.leaf li)).idxs ∨ j = nb) ∨ j = nl := by
  rw [mem_plug, mem_plug]; simp; tauto

set_option maxHeartbeats 1000000 in
/-- The whole effect of inserting into a nonempty tree, node by node. -/
theorem insert_tree (O : Ops V B S) (s : Dbvt V B) (t : T) (h : WFt s t) (v : V) :
    ∃ (nl nb li : Nat) (l : Leaf B) (c : Ctx) (ns : List (Node B)) (fr : List Nat)
      (rf : List (Nat × Nat)) (root : Nat) (m : Nat),
      s.insert O v = .ok (nl, { s with nodes := ns, free := fr, refit := rf, root := root, values := s.values ++ [(nl, v)] }) ∧
      descend O (s.nodes ++ List.replicate m .nil) (O.fat v)
        ((s.nodes ++ List.replicate m (.nil : Node B)).length + 1) s.root = .ok (some (li, l)) ∧
      t = plug c (.leaf li) ∧ s.nodes[li]? = some (.leaf l) ∧ l.parent = Ctx.parent c ∧
      nl ≠ nb ∧ nl ∉ t.idxs ∧ nb ∉ t.idxs ∧
      ns.length = s.nodes.length + m ∧
      ns[nl]? = some (.leaf { parent := nb, value := s.values.length, bound := O.fat v }) ∧
      ns[nb]? = some (.branch ⟨l.parent, li, nl, 2, O.union l.bound (O.fat v)⟩) ∧
      ns[li]? = some (.leaf { l with parent := nb }) ∧
      (c ≠ [] → ns[Ctx.parent c]? = (s.nodes[Ctx.parent c]?).map (Node.replaceChild li nb)) ∧
      (∀ j, j ≠ nl → j ≠ nb → j ≠ li → (c = [] ∨ j ≠ Ctx.parent c) →
        ns[j]? = (s.nodes ++ List.replicate m .nil)[j]?) ∧
      (∀ x ∈ s.refit, x ∈ rf) ∧ (c ≠ [] → Ctx.parent c ∈ rf.map Prod.snd) ∧
      WFt { s with nodes := ns, free := fr, refit := rf, root := root, values := s.values ++ [(nl, v)] }
        (plug c (.node nb (.leaf li) (.leaf nl))) := by
  have hsh := h.shape
  obtain ⟨nb, nl, m, fr, he, hb0, hl0, hne, hbu, hlu, hbl, hll, hfr⟩ :=
    nextFree_spec s (· ∈ t.idxs) h.free hsh.len_pos (fun i hi => hsh.mem_lt hi)
  have hsx := hsh.extend m
  have hroot0 : s.root ≠ 0 := by
    rw [hsh.root_eq]; intro e; exact hsh.pos (e ▸ t.root_mem)
  have hfuel : t.height ≤ (s.nodes ++ List.replicate m (.nil : Node B)).length + 1 := by
    have h1 := t.height_le_leaves
    have h2 := t.idxs_length
    have h3 := hsh.length_le
    simp; omega
  obtain ⟨li, l, hd, hlm, hln⟩ := descend_spec O (O.fat v) t 0 _ hsx.rep hfuel
  rw [← hsh.root_eq] at hd
  have hlt : li ∈ t.idxs := T.leaves_subset hlm
  have hlilen := hsh.mem_lt hlt
  have hln' : s.nodes[li]? = some (.leaf l) := by
    rw [List.getElem?_append_left hlilen] at hln; exact hln
  obtain ⟨c, s0, hts, hroot⟩ := exists_focus t li hlt
  have hs0 : s0 = .leaf li := by
    have hrp := ((rep_plug c s0).1 (hts ▸ hsh.rep)).2
    cases s0 with
    | leaf j => simp at hroot; rw [hroot]
    | node j a b =>
      simp at hroot; subst hroot
      have := hrp.1
      rw [skelAt_of_leaf hln'] at this; simp at this
  subst hs0
  subst hts
  have hrep := (rep_plug c _).1 hsx.rep
  have hrepc := hrep.1
  have hlp : l.parent = Ctx.parent c := by
    have := hrep.2
    rw [Rep, skelAt_of_leaf hln] at this
    simpa using this
  have hperm := (plug_perm c (.leaf li)).nodup_iff.1 hsh.nodup
  simp only [T.idxs_leaf, List.singleton_append, List.nodup_cons] at hperm
  have hlic := hperm.1
  have hmemc : ∀ j ∈ Ctx.idxs c, j ∈ (plug c (.leaf li)).idxs := fun j hj => mem_plug.2 (Or.inr hj)
  have hpos : ∀ j ∈ Ctx.idxs c, j ≠ 0 := fun j hj e => hsh.pos (e ▸ hmemc j hj)
  have hparc : c ≠ [] → Ctx.parent c ≠ 0 := fun hc => hpos _ (Ctx.parent_mem hc)
  have hlinb : li ≠ nb := fun e => hbu (e ▸ hlt)
  have hlinl : li ≠ nl := fun e => hlu (e ▸ hlt)
  have hpli : c ≠ [] → Ctx.parent c ≠ li := fun hc e => hlic (e ▸ Ctx.parent_mem hc)
  have hpnb : c ≠ [] → Ctx.parent c ≠ nb := fun hc e => hbu (e ▸ hmemc _ (Ctx.parent_mem hc))
  have hpnl : c ≠ [] → Ctx.parent c ≠ nl := fun hc e => hlu (e ▸ hmemc _ (Ctx.parent_mem hc))
  have hplen : c ≠ [] → Ctx.parent c < s.nodes.length := fun hc =>
    hsh.mem_lt (hmemc _ (Ctx.parent_mem hc))
  -- the new node vector
  let nx := s.nodes ++ List.replicate m (.nil : Node B)
  have hnxlen : nx.length = s.nodes.length + m := by simp [nx]
  let br : Branch B := ⟨l.parent, li, nl, 2, O.union l.bound (O.fat v)⟩
  let lf : Leaf B := { parent := nb, value := s.values.length, bound := O.fat v }
  let ns1 := nx.modify li (Node.setLeafParent nb)
  let ns2 := if l.parent ≠ 0 then ns1.modify l.parent (Node.replaceChild li nb) else ns1
  let ns3 := ns2.modify nb (fun _ => .branch br)
  let ns4 := ns3.modify nl (fun _ => .leaf lf)
  have hl2 : ns2.length = nx.length := by
    simp only [ns2]; split <;> simp [ns1]
  have hl4 : ns4.length = s.nodes.length + m := by simp [ns4, ns3, hl2, hnxlen]
  have hget2 : ∀ j, ns2[j]? = if l.parent ≠ 0 ∧ l.parent = j then (ns1[j]?).map (Node.replaceChild li nb)
      else ns1[j]? := by
    intro j
    simp only [ns2]
    by_cases hp : l.parent = 0
    · simp [hp]
    · simp only [ne_eq, hp, not_false_eq_true, if_true, getElem?_modify', true_and]
  have hget : ∀ j, ns4[j]? = if nl = j then (nx[j]?).map (fun _ => .leaf lf)
      else if nb = j then (nx[j]?).map (fun _ => .branch br)
      else if l.parent ≠ 0 ∧ l.parent = j then (nx[j]?).map (Node.replaceChild li nb ∘
        (if li = j then Node.setLeafParent nb else id))
      else if li = j then (nx[j]?).map (Node.setLeafParent nb) else nx[j]? := by
    intro j
    simp only [ns4, ns3, getElem?_modify', hget2, ns1]
    split
    · rename_i e; subst e
      rw [if_neg hne]
      cases nx[nl]? <;> (repeat' split) <;> simp
    · split
      · cases nx[j]? <;> (repeat' split) <;> simp
      · split
        · split
          · cases nx[j]? <;> simp
          · cases nx[j]? <;> simp
        · rfl
  have hins : ∃ rf, s.insert O v = .ok (nl, { s with
        nodes := ns4, free := fr, refit := rf, root := if li = s.root then nb else s.root, values := s.values ++ [(nl, v)] }) ∧
      (∀ x ∈ s.refit, x ∈ rf) ∧ (c ≠ [] → Ctx.parent c ∈ rf.map Prod.snd) ∧
      RefitListOK (s.nodes.length + m) rf := by
    unfold Dbvt.insert
    simp only [hroot0, if_false, he]
    rw [hd]
    simp only [Res.bind_ok]
    rw [modNode_ok _ (show li < nx.length by omega)]
    simp only [Res.bind_ok]
    by_cases hp : l.parent = 0
    · have hcn : c = [] := by
        by_contra hc; exact hparc hc (hlp ▸ hp)
      simp only [hp, ne_eq, not_true_eq_false, if_false, Res.bind_ok]
      rw [modNode_ok _ (show nb < (nx.modify li (Node.setLeafParent nb)).length by simp; omega)]
      simp only [Res.bind_ok]
      rw [modNode_ok _ (show nl < ((nx.modify li (Node.setLeafParent nb)).modify nb _).length by simp; omega)]
      refine ⟨s.refit, ?_, fun x hx => hx, fun hc => absurd hcn hc, h.refit.mono (by omega)⟩
      simp [ns4, ns3, ns2, hp, ns1, br, lf, nx]
    · have hcn : c ≠ [] := by
        rintro rfl; exact hp hlp
      simp only [hp, ne_eq, not_false_eq_true, if_true]
      rw [modNode_ok _ (show l.parent < (nx.modify li (Node.setLeafParent nb)).length by
        have := hplen hcn; simp; omega)]
      simp only [Res.bind_ok]
      rw [modNode_ok _ (show nb < ((nx.modify li (Node.setLeafParent nb)).modify l.parent _).length by simp; omega)]
      simp only [Res.bind_ok]
      rw [modNode_ok _ (show nl < (((nx.modify li (Node.setLeafParent nb)).modify l.parent _).modify nb _).length by simp; omega)]
      simp only [Res.bind_ok]
      have e4 : ((((nx.modify li (Node.setLeafParent nb)).modify l.parent (Node.replaceChild li nb)).modify nb
          (fun _ => .branch br)).modify nl (fun _ => .leaf lf)) = ns4 := by
        simp [ns4, ns3, ns2, hp, ns1]
      obtain ⟨k, hk⟩ := markForRefit_ok (s := ({ s with
          nodes := ns4, free := fr, values := s.values ++ [(nl, v)],
          root := if li = s.root then nb else s.root } : Dbvt V B)) (i := l.parent) (m := 3)
          (by simp only [hl4]; rw [hlp]; have := hplen hcn; omega)
      have hk' := hk
      rw [← e4] at hk'
      simp only [br, lf, nx] at hk'
      simp only [nx]
      rw [hk']
      refine ⟨sortedInsert (k, l.parent) s.refit, ?_, fun x hx => sortedInsert_mem.2 (Or.inr hx),
        fun _ => refit_snd_insert.2 (Or.inl hlp.symm), (h.refit.mono (by omega)).insert ?_⟩
      · simp only [Res.bind_ok, Res.pure_eq]
        rw [← e4]
      · rw [hlp]; have := hplen hcn; omega
  obtain ⟨rf, hins, hrf1, hrf2, hrf3⟩ := hins
  have hnxs : ∀ j, j < s.nodes.length → nx[j]? = s.nodes[j]? := fun j hj =>
    List.getElem?_append_left hj
  have hgnl : ns4[nl]? = some (.leaf lf) := by
    rw [hget, if_pos rfl, List.getElem?_eq_getElem (by omega)]; rfl
  have hgnb : ns4[nb]? = some (.branch br) := by
    rw [hget, if_neg (Ne.symm hne), if_pos rfl, List.getElem?_eq_getElem (by omega)]; rfl
  have hgli : ns4[li]? = some (.leaf { l with parent := nb }) := by
    rw [hget, if_neg (Ne.symm hlinl), if_neg (Ne.symm hlinb), if_neg, if_pos rfl, hnxs li hlilen, hln']
    · rfl
    · rintro ⟨h1, h2⟩
      by_cases hc : c = []
      · subst hc; exact h1 hlp
      · exact hpli hc (hlp ▸ h2)
  have hgpar : c ≠ [] → ns4[Ctx.parent c]? = (s.nodes[Ctx.parent c]?).map (Node.replaceChild li nb) := by
    intro hc
    rw [hget, if_neg (Ne.symm (hpnl hc)), if_neg (Ne.symm (hpnb hc)), if_pos ⟨hlp ▸ hparc hc, hlp⟩,
      if_neg (Ne.symm (hpli hc)), hnxs _ (hplen hc)]
    rfl
  have hgo : ∀ j, j ≠ nl → j ≠ nb → j ≠ li → (c = [] ∨ j ≠ Ctx.parent c) → ns4[j]? = nx[j]? := by
    intro j h1 h2 h3 h4
    rw [hget, if_neg (Ne.symm h1), if_neg (Ne.symm h2), if_neg, if_neg (Ne.symm h3)]
    rintro ⟨h5, h6⟩
    rcases h4 with rfl | h4
    · exact h5 hlp
    · exact h4 (hlp ▸ h6).symm
  have hnewperm := plug_perm c (.node nb (.leaf li) (.leaf nl))
  have hnewmem : ∀ j, j ∈ (plug c (.node nb (.leaf li) (.leaf nl))).idxs ↔
      (j ∈ (plug c (.leaf li)).idxs ∨ j = nb) ∨ j = nl := by
    exact mem_plug_insert c nb li nl
  refine ⟨nl, nb, li, l, c, ns4, fr, rf, _, m, hins, hd, rfl, hln', hlp, Ne.symm hne, hlu, hbu, hl4, hgnl,
    hgnb, hgli, hgpar, hgo, hrf1, hrf2, ?_⟩
  have hskc : ∀ j ∈ Ctx.idxs c, j ≠ Ctx.parent c → skelAt ns4 j = skelAt nx j := by
    intro j hj hjp
    unfold skelAt
    rw [hgo j (fun e => hlu (e ▸ hmemc j hj)) (fun e => hbu (e ▸ hmemc j hj))
      (fun e => hlic (e ▸ hj)) (Or.inr hjp)]
  refine ⟨⟨?_, ?_, ?_, ?_, ?_⟩, ?_, ?_, ?_⟩
  · -- rep
    rw [rep_plug]
    refine ⟨?_, ?_, ?_, ?_⟩
    · refine hrepc.retarget hperm.2 hlic ?_ hskc
      intro hc
      unfold skelAt
      simp only [T.root_leaf, T.root_node]
      rw [hgpar hc]
      rw [List.getElem?_append_left (hplen hc)]
      cases s.nodes[Ctx.parent c]? <;> simp
    · simp only [T.root_leaf]; rw [skelAt_of_branch hgnb, ← hlp]
    · exact skelAt_of_leaf hgli
    · exact skelAt_of_leaf hgnl
  · -- root
    simp only
    cases c with
    | nil => simp [plug, hsh.root_eq]
    | cons fr' c' =>
      rw [if_neg, hsh.root_eq]
      · exact (plug_root_cons fr' c' _ _).symm
      · intro e
        -- li is the root, so its depth is 0, but it is below a frame
        have h1 := dep_plug_in (fr' :: c') (.leaf li) li (by simp) hsh.nodup
        rw [hsh.root_eq] at e
        have h2 := T.dep_root (plug (fr' :: c') (.leaf li))
        rw [← e] at h2
        rw [h2] at h1
        simp [T.dep] at h1
  · -- nodup
    rw [hnewperm.nodup_iff]
    simp only [T.idxs_node, T.idxs_leaf, List.singleton_append, List.cons_append, List.nil_append,
      List.nodup_cons, List.mem_cons, not_or]
    refine ⟨⟨Ne.symm hlinb, hne, fun e => hbu (hmemc _ e)⟩, ⟨hlinl, hlic⟩,
      fun e => hlu (hmemc _ e), hperm.2⟩
  · rw [hnewmem]
    rintro ((h0 | h0) | h0)
    · exact hsh.pos h0
    · omega
    · omega
  · -- others
    intro j hj hn
    rw [hnewmem] at hn
    simp only [not_or] at hn
    simp only at hj ⊢
    unfold skelAt
    rw [hgo j hn.2 hn.1.2 (fun e => hn.1.1 (e ▸ hlt)) ?_]
    · exact hsx.others j (by rw [hl4] at hj; simpa using hj) hn.1.1
    · by_cases hc : c = []
      · exact Or.inl hc
      · exact Or.inr fun e => hn.1.1 (e ▸ hmemc _ (Ctx.parent_mem hc))
  · -- free
    simp only [hl4]
    refine ⟨hfr.nodup, fun j => ?_⟩
    rw [hfr.mem, hnewmem]
  · -- values
    have hvl := h.vals
    have hleaf : ∀ j, (leafAt ns4 j).map Prod.fst = if j = nl then some s.values.length
        else (leafAt s.nodes j).map Prod.fst := by
      intro j
      by_cases h1 : j = nl
      · subst h1; rw [if_pos rfl, leafAt_of hgnl]; rfl
      · rw [if_neg h1]
        by_cases h2 : j = nb
        · subst h2
          have : s.nodes[j]? = none ∨ s.nodes[j]? = some .nil := by
            by_cases hjl : j < s.nodes.length
            · right; exact skelAt_nil (hsh.others j hjl hbu)
            · left; exact List.getElem?_eq_none (by omega)
          unfold leafAt
          rw [hgnb]
          rcases this with e | e <;> rw [e] <;> rfl
        · by_cases h3 : j = li
          · subst h3; rw [leafAt_of hgli, leafAt_of hln']
          · by_cases h4 : c ≠ [] ∧ j = Ctx.parent c
            · obtain ⟨hc, rfl⟩ := h4
              unfold leafAt
              rw [hgpar hc]
              cases hn : s.nodes[Ctx.parent c]? with
              | none => rfl
              | some n =>
                cases n with
                | leaf l => rfl
                | nil => rfl
                | branch b =>
                  simp only [Option.map_some, Node.replaceChild, Option.bind_some]
                  split <;> rfl
            · have : c = [] ∨ j ≠ Ctx.parent c := by
                by_cases hc : c = []
                · exact Or.inl hc
                · exact Or.inr fun e => h4 ⟨hc, e⟩
              unfold leafAt
              rw [hgo j h1 h2 h3 this]
              simp only [nx]
              rw [List.getElem?_append]
              split
              · rfl
              · rw [List.getElem?_replicate, List.getElem?_eq_none (by omega)]
                split <;> rfl
    simp only
    rw [valsOK_iff] at hvl ⊢
    refine ⟨fun k i w hw => ?_, fun i d hd => ?_⟩
    · rw [List.getElem?_append] at hw
      split at hw
      · obtain ⟨d, hd, e⟩ := hvl.1 k i w hw
        have h1 : i ≠ nl := by
          rintro rfl
          obtain ⟨l', hl', _⟩ := leafAt_eq.1 hd
          exact hlu (hsh.mem_of (skelAt_of_leaf hl') (by simp))
        have := hleaf i
        rw [if_neg h1, hd] at this
        obtain ⟨a, ha, ea⟩ := Option.map_eq_some_iff.1 this
        exact ⟨a, ha, ea.trans e⟩
      · rename_i hk
        have hk2 : k - s.values.length = 0 := by
          by_contra hc
          rw [List.getElem?_eq_none (by simp; omega)] at hw; simp at hw
        rw [hk2] at hw
        simp at hw
        refine ⟨_, by rw [← hw.1]; exact leafAt_of hgnl, ?_⟩
        simp [lf]; omega
    · have := hleaf i
      rw [hd] at this
      split at this
      · rename_i e; subst e
        simp at this
        refine ⟨v, ?_⟩
        rw [this]; simp
      · obtain ⟨a, ha, ea⟩ := Option.map_eq_some_iff.1 this.symm
        obtain ⟨w, hw⟩ := hvl.2 i a ha
        refine ⟨w, ?_⟩
        rw [← ea, List.getElem?_append_left (lt_of_getElem? hw)]
        exact hw
  · -- refit
    simp only [hl4]; exact hrf3

theorem hb_replaceChild (a b : Nat) (n : Node B) : (n.replaceChild a b).hb = n.hb := by
  cases n with
  | branch br => simp only [Node.replaceChild]; split <;> rfl
  | leaf l => rfl
  | nil => rfl

theorem leafData_replaceChild (a b : Nat) (n : Node B) : (n.replaceChild a b).leafData = n.leafData := by
  cases n with
  | branch br => simp only [Node.replaceChild]; split <;> rfl
  | leaf l => rfl
  | nil => rfl

theorem getElem?_append_nil {ns : List (Node B)} {m j : Nat} {n : Node B}
    (h : (ns ++ List.replicate m (.nil : Node B))[j]? = some n) (hn : n ≠ .nil) : ns[j]? = some n := by
  rw [List.getElem?_append] at h
  split at h
  · exact h
  · rw [List.getElem?_replicate] at h
    split at h
    · simp at h; exact absurd h.symm hn
    · simp at h

/-- `insert` in one statement. -/
theorem insert_spec (O : Ops V B S) (s : Dbvt V B) (h : WF s) (v : V) :
    ∃ i s', s.insert O v = .ok (i, s') ∧ WF s' ∧ s'.values = s.values ++ [(i, v)] ∧
      s'.updated = s.updated ∧ i ≠ 0 ∧ (∀ e ∈ s.values, e.1 ≠ i) ∧
      (∀ j d, leafAt s.nodes j = some d → leafAt s'.nodes j = some d) ∧
      (∃ k, leafAt s'.nodes i = some (k, O.fat v)) ∧
      s.nodes.length ≤ s'.nodes.length ∧ (RefitOK O s → RefitOK O s') := by
  rcases h with h | ⟨t, h⟩
  · -- empty tree
    obtain ⟨h1, h2, h3, h4, h5⟩ := h
    refine ⟨1, { s with root := 1, nodes := [.nil, .leaf ⟨0, 0, O.fat v⟩], values := [(1, v)] }, ?_, ?_,
      ?_, rfl, by simp, ?_, ?_, ?_, ?_, ?_⟩
    · simp [Dbvt.insert, h1, h2, h4]
    · refine Or.inr ⟨.leaf 1, ⟨?_, rfl, by simp, by simp, ?_⟩, ?_, ?_, ?_⟩
      · rfl
      · intro i hi hn
        simp at hi hn
        have : i = 0 := by omega
        subst this; rfl
      · refine ⟨by simp [h3], fun i => ?_⟩
        simp [h3]; omega
      · refine ⟨?_, ?_⟩
        · intro k i w hw
          cases k with
          | zero => simp at hw; refine ⟨⟨0, 0, O.fat v⟩, ?_, rfl⟩; rw [← hw.1]; rfl
          | succ k => simp at hw
        · intro i l hl
          match i with
          | 0 => simp at hl
          | 1 => simp at hl; subst hl; exact ⟨v, rfl⟩
          | (i + 2) => simp at hl
      · simp [h5]; exact ⟨by simp, by simp⟩
    · simp [h2]
    · simp [h2]
    · intro j d hj
      rw [h1] at hj
      match j with
      | 0 => simp [leafAt, Node.leafData] at hj
      | (j + 1) => simp [leafAt] at hj
    · exact ⟨0, rfl⟩
    · simp [h1]
    · intro _ i b hb
      match i with
      | 0 => simp at hb
      | 1 => simp at hb
      | (i + 2) => simp at hb
  · obtain ⟨nl, nb, li, l, c, ns, fr, rf, root, m, hins, hd, ht, hli, hlp, hne, hlu, hbu, hlen, hgnl, hgnb,
      hgli, hgpar, hgo, hrf1, hrf2, hwf⟩ := insert_tree O s t h v
    have hsh := h.shape
    have hlt : li ∈ t.idxs := hsh.mem_of (skelAt_of_leaf hli) (by simp)
    -- data of old nodes is unchanged
    have hold : ∀ (j : Nat) (n : Node B), s.nodes[j]? = some n → n ≠ .nil →
        ∃ n' : Node B, ns[j]? = some n' ∧ n'.hb = n.hb ∧ n'.leafData = n.leafData := by
      intro j n hn hnn
      have hj : j ∈ t.idxs := hsh.mem_iff.2 ⟨n, hn, hnn⟩
      by_cases h3 : j = li
      · subst h3; rw [hli] at hn; simp at hn; subst hn
        exact ⟨_, hgli, rfl, rfl⟩
      · by_cases h4 : c ≠ [] ∧ j = Ctx.parent c
        · obtain ⟨hc, rfl⟩ := h4
          refine ⟨n.replaceChild li nb, by rw [hgpar hc, hn]; rfl, hb_replaceChild _ _ _,
            leafData_replaceChild _ _ _⟩
        · have hcj : c = [] ∨ j ≠ Ctx.parent c := by
            by_cases hc : c = []
            · exact Or.inl hc
            · exact Or.inr fun e => h4 ⟨hc, e⟩
          refine ⟨n, ?_, rfl, rfl⟩
          rw [hgo j (fun e => hlu (e ▸ hj)) (fun e => hbu (e ▸ hj)) h3 hcj,
            List.getElem?_append_left (hsh.mem_lt hj), hn]
    refine ⟨nl, _, hins, Or.inr ⟨_, hwf⟩, rfl, rfl, ?_, ?_, ?_, ?_, ?_, ?_⟩
    · intro e
      apply hwf.shape.pos
      rw [mem_plug_insert, e]; right; rfl
    · rintro ⟨j, w⟩ he rfl
      obtain ⟨k, hk⟩ := List.mem_iff_getElem?.1 he
      obtain ⟨l', hl', _⟩ := h.vals.toLeaf k j w hk
      exact hlu (hsh.mem_of (skelAt_of_leaf hl') (by simp))
    · intro j d hj
      obtain ⟨l', hl', e1, e2⟩ := leafAt_eq.1 hj
      obtain ⟨n', hn', _, e⟩ := hold j _ hl' (by simp)
      simp only [leafAt] at hj ⊢
      rw [hl'] at hj
      rw [hn', Option.bind_some, e]; exact hj
    · exact ⟨_, leafAt_of hgnl⟩
    · simp only [hlen]; omega
    · intro hok
      refine OKExcept.transfer hok ?_
      intro i b hb
      simp only at hb ⊢
      by_cases h1 : i = nl
      · subst h1; rw [hgnl] at hb; simp at hb
      by_cases h2 : i = nb
      · subst h2; rw [hgnb] at hb; simp at hb; subst hb
        refine Or.inr (Or.inl ⟨(1, l.bound), (1, O.fat v), ?_, ?_, rfl, rfl⟩)
        · simp [hbAt, hgli, Node.hb]
        · simp [hbAt, hgnl, Node.hb]
      by_cases h3 : i = li
      · subst h3; rw [hgli] at hb; simp at hb
      by_cases h4 : c ≠ [] ∧ i = Ctx.parent c
      · obtain ⟨hc, rfl⟩ := h4
        exact Or.inl (hrf2 hc)
      have hcj : c = [] ∨ i ≠ Ctx.parent c := by
        by_cases hc : c = []
        · exact Or.inl hc
        · exact Or.inr fun e => h4 ⟨hc, e⟩
      rw [hgo i h1 h2 h3 hcj] at hb
      have hb' := getElem?_append_nil hb (by simp)
      by_cases hm : i ∈ s.refit.map Prod.snd
      · left
        obtain ⟨x, hx, rfl⟩ := List.mem_map.1 hm
        exact List.mem_map.2 ⟨x, hrf1 x hx, rfl⟩
      · right; right
        refine ⟨b, hb', hm, rfl, rfl, ?_, ?_⟩
        · obtain ⟨-, hcl, -⟩ := hsh.children hb'
          obtain ⟨n, hn, hnn⟩ := hsh.mem_iff.1 hcl
          obtain ⟨n', hn', e, _⟩ := hold _ n hn hnn
          simp [hbAt, hn, hn', e]
        · obtain ⟨-, -, hcl, -⟩ := hsh.children hb'
          obtain ⟨n, hn, hnn⟩ := hsh.mem_iff.1 hcl
          obtain ⟨n', hn', e, _⟩ := hold _ n hn hnn
          simp [hbAt, hn, hn', e]

end Verif.Dbvt
