import Verif.Dbvt.RemoveProof
/-!
# `update`, `update_node`, `flag_updated`, `clear`, `values_mut`+`reindex_values` (proof machinery)
-/
namespace Verif.Dbvt
open Verif

variable {V B S : Type}

theorem mapRes_ok {α β : Type} {f : α → Res β} {g : α → β} {l : List α}
    (h : ∀ a ∈ l, f a = .ok (g a)) : mapRes f l = .ok (l.map g) := by
  induction l with
  | nil => rfl
  | cons a l ih =>
    simp only [mapRes, h a (by simp), Res.bind_ok, ih fun x hx => h x (by simp [hx]), Res.pure_eq,
      List.map_cons]

theorem Shape.hb_child {ns : List (Node B)} {root : Nat} {t : T} (h : Shape ns root t)
    {i : Nat} (hi : i ∈ t.idxs) : ∃ x, hbAt ns i = some x := by
  obtain ⟨n, hn, hne⟩ := h.mem_iff.1 hi
  unfold hbAt; rw [hn]
  cases n with
  | branch b => exact ⟨_, rfl⟩
  | leaf b => exact ⟨_, rfl⟩
  | nil => exact absurd rfl hne

/-- One write of a fat bound into leaf `i`, then marking its parent. -/
theorem setLeafBound_OK (O : Ops V B S) {ns : List (Node B)} {root : Nat} {t : T}
    (hsh : Shape ns root t) {i : Nat} {l : Leaf B} (hl : ns[i]? = some (.leaf l)) (fb : B)
    {M : Nat → Prop} (hok : OKExcept O M ns) :
    OKExcept O (fun j => M j ∨ j = l.parent) (ns.modify i (Node.setLeafBound fb)) := by
  refine OKExcept.transfer hok ?_
  intro j b hb
  rw [getElem?_modify'] at hb
  by_cases hij : i = j
  · subst hij; rw [if_pos rfl, hl] at hb; simp [Node.setLeafBound] at hb
  · rw [if_neg hij] at hb
    by_cases hm : M j
    · exact Or.inl (Or.inl hm)
    by_cases hp : j = l.parent
    · exact Or.inl (Or.inr hp)
    right; right
    refine ⟨b, hb, hm, rfl, rfl, ?_, ?_⟩
    · unfold hbAt
      rw [getElem?_modify', if_neg]
      intro e
      have := hsh.child_parent hb (Or.inl e.symm) hl
      exact hp this.symm
    · unfold hbAt
      rw [getElem?_modify', if_neg]
      intro e
      have := hsh.child_parent hb (Or.inr e.symm) hl
      exact hp this.symm

theorem updateLoop_spec (O : Ops V B S) (t : T) (es : List (Nat × Nat × B)) (s : Dbvt V B)
    (h : WFt s t)
    (hes : ∀ e ∈ es, skelAt s.nodes e.1 = some (.leaf e.2.1)) :
    ∃ s', updateLoop es s = .ok s' ∧ WFt s' t ∧ s'.values = s.values ∧
      s'.nodes.length = s.nodes.length ∧ s'.updated = s.updated ∧
      skelAt s'.nodes = skelAt s.nodes ∧
      (∀ j, (leafAt s'.nodes j).map Prod.fst = (leafAt s.nodes j).map Prod.fst) ∧
      (∀ j d, leafAt s'.nodes j = some d → (∃ p, (j, p, d.2) ∈ es) ∨
        ((∀ e ∈ es, e.1 ≠ j) ∧ leafAt s.nodes j = some d)) ∧
      (RefitOK O s → RefitOK O s') := by
  induction es generalizing s with
  | nil =>
    exact ⟨s, rfl, h, rfl, rfl, rfl, rfl, fun _ => rfl, fun j d hd => Or.inr ⟨by simp, hd⟩, id⟩
  | cons e es ih =>
    obtain ⟨i, p, fb⟩ := e
    have hi := hes (i, p, fb) (by simp)
    simp only at hi
    obtain ⟨l, hl, hlp⟩ := skelAt_leaf hi
    have hil := lt_of_getElem? hl
    have hsk : skelAt (s.nodes.modify i (Node.setLeafBound fb)) = skelAt s.nodes :=
      skelAt_modify_id _ _ _ (by simp)
    have hplen : p < s.nodes.length := by
      have hit : i ∈ t.idxs := h.shape.mem_of hi (by simp)
      obtain ⟨c, u, rfl, hroot⟩ := exists_focus t i hit
      have hr := ((rep_plug c u).1 h.shape.rep).2
      have : p = Ctx.parent c := by
        cases u with
        | leaf j => simp at hroot; subst hroot; rw [Rep, hi] at hr; simpa using hr
        | node j a b => simp at hroot; subst hroot; have := hr.1; rw [hi] at this; simp at this
      rw [this]
      cases hc : c with
      | nil => exact h.shape.len_pos
      | cons f c' =>
        rw [← hc]
        exact h.shape.mem_lt (mem_plug.2 (Or.inr (Ctx.parent_mem (by simp [hc]))))
    have hleaf : ∀ j, leafAt (s.nodes.modify i (Node.setLeafBound fb)) j =
        if i = j then (leafAt s.nodes j).map (fun d => (d.1, fb)) else leafAt s.nodes j := by
      intro j
      unfold leafAt
      rw [getElem?_modify']
      split
      · cases s.nodes[j]? with
        | none => rfl
        | some n => cases n <;> rfl
      · rfl
    obtain ⟨k, hk⟩ := markForRefit_ok (s := { s with nodes := s.nodes.modify i (Node.setLeafBound fb) })
      (i := p) (m := 2) (by simpa using hplen)
    have hwf1 : WFt { s with nodes := s.nodes.modify i (Node.setLeafBound fb), refit := sortedInsert (k, p) s.refit } t := by
      refine ⟨h.shape.congr hsk (by simp), ?_, ?_, ?_⟩
      · simpa using h.free
      · refine h.vals.congr fun j => ?_
        simp only [hleaf]
        split
        · cases leafAt s.nodes j <;> rfl
        · rfl
      · simp only [List.length_modify]
        exact h.refit.insert hplen
    obtain ⟨s', hrun, hwf, hv, hln, hu, hsk', hfst, hd, hok⟩ := ih _ hwf1 (by
      intro e he; simp only [hsk]; exact hes e (by simp [he]))
    refine ⟨s', ?_, hwf, hv, by simpa using hln, hu, hsk'.trans hsk, ?_, ?_, ?_⟩
    · simp only [updateLoop, modNode_ok _ hil, Res.bind_ok, hk]
      exact hrun
    · intro j
      rw [hfst, hleaf]
      split
      · cases leafAt s.nodes j <;> rfl
      · rfl
    · intro j d hjd
      rcases hd j d hjd with ⟨q, hq⟩ | ⟨hne, hle⟩
      · exact Or.inl ⟨q, by simp [hq]⟩
      · rw [hleaf] at hle
        split at hle
        · rename_i hij; subst hij
          obtain ⟨a, ha, rfl⟩ := Option.map_eq_some_iff.1 hle
          exact Or.inl ⟨p, by simp⟩
        · rename_i hij
          exact Or.inr ⟨by intro e he; rcases List.mem_cons.1 he with rfl | he; exacts [hij, hne e he], hle⟩
    · intro h0
      apply hok
      have := setLeafBound_OK O h.shape hl fb h0
      intro j b hb
      rcases this j b hb with (h1 | h1) | h1
      · exact Or.inl (refit_snd_insert.2 (Or.inr h1))
      · exact Or.inl (refit_snd_insert.2 (Or.inl (h1.trans hlp)))
      · exact Or.inr h1

/-- `update` in one statement. -/
theorem update_spec (O : Ops V B S) (s : Dbvt V B) (h : WF s)
    (hu : ∀ i ∈ s.updated, i < s.nodes.length) :
    ∃ s', s.update O = .ok s' ∧ WF s' ∧ s'.values = s.values ∧ s'.updated = [] ∧
      s'.nodes.length = s.nodes.length ∧ skelAt s'.nodes = skelAt s.nodes ∧ s'.root = s.root ∧
      (∀ j, (leafAt s'.nodes j).map Prod.fst = (leafAt s.nodes j).map Prod.fst) ∧
      (RefitOK O s → RefitOK O s') ∧
      (∀ ok : B → Prop, (∀ v, ok (O.bound v) → O.contains (O.fat v) (O.bound v) = true) → FatOK O ok s → FatOK O ok s') ∧
      (∀ j d, leafAt s'.nodes j = some d → leafAt s.nodes j = some d ∨ ∃ v, (j, v) ∈ s.values ∧ d.2 = O.fat v) := by
  rcases h with h | ⟨t, h⟩
  · refine ⟨{ s with updated := [] }, ?_, Or.inl ⟨h.nodes, h.values, h.free, h.root, h.refit⟩, rfl, rfl, rfl, rfl, rfl, fun _ => rfl,
      id, fun _ _ _ => ?_, fun _ _ h => Or.inl h⟩
    · unfold Dbvt.update
      have hx : mapRes (updateEntry O s) s.updated = .ok (s.updated.map fun _ => none) := by
        refine mapRes_ok fun i hi => ?_
        have := hu i hi
        rw [h.nodes] at this
        simp at this
        subst this
        have : s.nodes[0]? = some .nil := by rw [h.nodes]; rfl
        simp [updateEntry, nodeAt_some this]
      have hy : ∀ l : List Nat, (l.map fun _ => (none : Option (Nat × Nat × B))).filterMap id = [] := by
        intro l; induction l with
        | nil => rfl
        | cons a l ih => simp [ih]
      rw [hx]
      simp only [Res.bind_ok, hy, updateLoop, Res.pure_eq]
    · intro k i v hv _
      simp [h.values] at hv
  · let g : Nat → Option (Nat × Nat × B) := fun i =>
      match s.nodes[i]? with
      | some (.leaf l) =>
        match s.values[l.value]? with
        | some e => if !(O.contains l.bound (O.bound e.2)) then some (i, l.parent, O.fat e.2) else none
        | none => none
      | _ => none
    have hx : mapRes (updateEntry O s) s.updated = .ok (s.updated.map g) := by
      refine mapRes_ok fun i hi => ?_
      have hil := hu i hi
      simp only [updateEntry, g]
      cases hn : s.nodes[i]? with
      | none => rw [List.getElem?_eq_none_iff] at hn; omega
      | some n =>
        rw [nodeAt_some hn]
        cases n with
        | branch b => rfl
        | nil => rfl
        | leaf l =>
          obtain ⟨v, hv⟩ := h.vals.toVal i l hn
          simp only [Res.bind_ok, hv, Res.ofOption_some]
          split <;> rfl
    have hg : ∀ e ∈ (s.updated.map g).filterMap id, ∃ l : Leaf B, ∃ v, s.nodes[e.1]? = some (.leaf l) ∧
        e.2.1 = l.parent ∧ s.values[l.value]? = some (e.1, v) ∧ e.2.2 = O.fat v ∧ e.1 ∈ s.updated := by
      intro e he
      simp only [List.mem_filterMap, List.mem_map, id_eq] at he
      obtain ⟨_, ⟨i, hi, rfl⟩, hgi⟩ := he
      simp only [g] at hgi
      split at hgi
      · rename_i l hl
        split at hgi
        · rename_i e' he'
          split at hgi
          · simp at hgi
            obtain ⟨v, hv⟩ := h.vals.toVal i l hl
            rw [he'] at hv
            simp at hv
            subst hv
            subst hgi
            exact ⟨l, v, hl, rfl, he', rfl, hi⟩
          · simp at hgi
        · simp at hgi
      · simp at hgi
    obtain ⟨s', hrun, hwf, hv, hln, hup, hsk, hfst, hd, hok⟩ := updateLoop_spec O t
      ((s.updated.map g).filterMap id) s h (by
        intro e he
        obtain ⟨l, v, hl, e1, _⟩ := hg e he
        rw [skelAt_of_leaf hl, e1])
    refine ⟨{ s' with updated := [] }, ?_, Or.inr ⟨t, hwf.1, hwf.2, hwf.3, hwf.4⟩, hv, rfl, hln, hsk, ?_, hfst, hok, ?_, fun j d hj => ?_⟩
    rotate_left 3
    · rcases hd j d hj with ⟨p, hp⟩ | ⟨-, h⟩
      · obtain ⟨l, w, -, -, hw, e2, -⟩ := hg _ hp
        exact Or.inr ⟨w, List.mem_of_getElem? hw, e2⟩
      · exact Or.inl h
    · unfold Dbvt.update
      rw [hx]
      simp only [Res.bind_ok, hrun, Res.pure_eq]
    · simp only [hwf.shape.root_eq, h.shape.root_eq]
    · intro ok hfat hf k i v hkv hgv
      right
      simp only at hkv ⊢
      rw [hv] at hkv
      have hvs' := valsOK_iff.1 hwf.vals
      obtain ⟨d, hdd, hdk⟩ := hvs'.1 k i v (by rw [hv]; exact hkv)
      refine ⟨d, hdd, ?_⟩
      rcases hd i d hdd with ⟨p, hp⟩ | ⟨hne, hold⟩
      · obtain ⟨l, w, hl, _, hw, e2, _⟩ := hg _ hp
        simp only at hw e2 hl
        have := h.vals.inj hkv hw
        rw [← this, hkv] at hw
        simp at hw
        rw [e2, ← hw]; exact hfat v hgv
      · rcases hf k i v hkv hgv with hiu | ⟨d', hd', hc⟩
        · -- flagged but not rewritten: it was contained
          obtain ⟨l, hl, e1, e2⟩ := leafAt_eq.1 hold
          by_contra hnc
          have hlv : l.value = k := by rw [e1, hdk]
          have : g i = some (i, l.parent, O.fat v) := by
            simp only [g, hl, hlv, hkv]
            rw [e2]
            simp [hnc]
          refine hne (i, l.parent, O.fat v) ?_ rfl
          simp only [List.mem_filterMap, List.mem_map, id_eq]
          exact ⟨_, ⟨i, hiu, this⟩, rfl⟩
        · rw [hold] at hd'; simp at hd'; rw [hd']; exact hc

/-- `update_node` on a live or dead in-range index. -/
theorem updateNode_spec (O : Ops V B S) (s : Dbvt V B) (h : WF s) (i : Nat) (w : V)
    (hi : i < s.nodes.length) :
    ∃ s', s.updateNode i w = .ok s' ∧ WF s' ∧ s'.nodes = s.nodes ∧ s'.updated = s.updated ++ [i] ∧
      s'.refit = s.refit ∧ s'.root = s.root ∧ s'.free = s.free ∧
      s'.values = s.values.map (fun e => if e.1 = i then (i, w) else e) := by
  rcases h with h | ⟨t, h⟩
  · rw [h.nodes] at hi
    simp at hi; subst hi
    refine ⟨s.flagUpdated 0, ?_, Or.inl ⟨h.nodes, h.values, h.free, h.root, h.refit⟩, rfl, rfl, rfl,
      rfl, rfl, ?_⟩
    · have : s.nodes[0]? = some .nil := by rw [h.nodes]; rfl
      simp [Dbvt.updateNode, nodeAt_some this]
    · simp [Dbvt.flagUpdated, h.values]
  · cases hn : s.nodes[i]? with
    | none => rw [List.getElem?_eq_none_iff] at hn; omega
    | some n =>
      have hnl : (∀ l, n ≠ .leaf l) → s.values = s.values.map (fun e => if e.1 = i then (i, w) else e) := by
        intro hnl
        symm
        conv_rhs => rw [← List.map_id s.values]
        refine List.map_congr_left fun e he => ?_
        rw [if_neg]
        · rfl
        · rintro rfl
          obtain ⟨k, hk⟩ := List.mem_iff_getElem?.1 he
          obtain ⟨l, hl, _⟩ := h.vals.toLeaf k e.1 e.2 hk
          rw [hn] at hl; simp at hl; exact hnl _ hl
      cases n with
      | branch b =>
        exact ⟨s.flagUpdated i, by simp [Dbvt.updateNode, nodeAt_some hn],
          Or.inr ⟨t, h.1, h.2, h.3, h.4⟩, rfl, rfl, rfl, rfl, rfl, hnl (by simp)⟩
      | nil =>
        exact ⟨s.flagUpdated i, by simp [Dbvt.updateNode, nodeAt_some hn],
          Or.inr ⟨t, h.1, h.2, h.3, h.4⟩, rfl, rfl, rfl, rfl, rfl, hnl (by simp)⟩
      | leaf l =>
        obtain ⟨v, hv⟩ := h.vals.toVal i l hn
        have hvl := lt_of_getElem? hv
        have hvals : s.values.modify l.value (fun e => (e.1, w)) =
            s.values.map (fun e => if e.1 = i then (i, w) else e) := by
          apply List.ext_getElem?
          intro k
          rw [List.getElem?_modify, List.getElem?_map]
          cases hk : s.values[k]? with
          | none => rfl
          | some e =>
            simp only [Option.map_some]
            by_cases hkl : l.value = k
            · subst hkl
              rw [hv] at hk; simp at hk; subst hk
              simp
            · have : e.1 ≠ i := by
                rintro rfl
                exact hkl (h.vals.inj (v := v) (v' := e.2) hv hk)
              simp [this, hkl]
        refine ⟨({ s with values := s.values.modify l.value (fun e => (e.1, w)) }).flagUpdated i,
          by simp [Dbvt.updateNode, nodeAt_some hn, hvl], Or.inr ⟨t, h.1, h.2, ?_, h.4⟩, rfl, rfl, rfl,
          rfl, rfl, hvals⟩
        simp only [Dbvt.flagUpdated]
        refine ⟨fun k j x hx => ?_, fun j l' hl' => ?_⟩
        · rw [List.getElem?_modify] at hx
          obtain ⟨e, he, e'⟩ := Option.map_eq_some_iff.1 hx
          have hj : e.1 = j := by split at e' <;> simp_all
          exact h.vals.toLeaf k j e.2 (by rw [he, ← hj])
        · obtain ⟨x, hx⟩ := h.vals.toVal j l' hl'
          rw [List.getElem?_modify, hx]
          simp only [Option.map_eq_map, Option.map_some]
          split <;> simp

/-! ## values_mut + reindex_values -/

theorem reindexLoop_spec (vs : List (Nat × V)) (k0 : Nat) (ns : List (Node B))
    (hlt : ∀ e ∈ vs, e.1 < ns.length) :
    ∃ ns', reindexLoop vs k0 ns = .ok ns' ∧ ns'.length = ns.length ∧ skelAt ns' = skelAt ns ∧
      (∀ j, hbAt ns' j = hbAt ns j) ∧
      (∀ (j : Nat) (b : Branch B), ns'[j]? = some (.branch b) ↔ ns[j]? = some (.branch b)) ∧
      (∀ j, (leafAt ns' j).map Prod.snd = (leafAt ns j).map Prod.snd) ∧
      (∀ j, (∀ e ∈ vs, e.1 ≠ j) → leafAt ns' j = leafAt ns j) ∧
      ((vs.map Prod.fst).Nodup → ∀ k i v, vs[k]? = some (i, v) →
        leafAt ns' i = (leafAt ns i).map (fun d => (k0 + k, d.2))) := by
  induction vs generalizing k0 ns with
  | nil =>
    exact ⟨ns, rfl, rfl, rfl, fun _ => rfl, fun _ _ => Iff.rfl, fun _ => rfl, fun _ _ => rfl,
      fun _ k i v h => by simp at h⟩
  | cons e vs ih =>
    obtain ⟨i0, v0⟩ := e
    have hi0 := hlt (i0, v0) (by simp)
    simp only at hi0
    obtain ⟨ns', h1, h2, h3, h4, h5, h6, h7, h8⟩ := ih (k0 + 1) (ns.modify i0 (Node.setValue k0))
      (by intro e he; simpa using hlt e (by simp [he]))
    have hleaf : ∀ j, leafAt (ns.modify i0 (Node.setValue k0)) j =
        if i0 = j then (leafAt ns j).map (fun d => (k0, d.2)) else leafAt ns j := by
      intro j
      unfold leafAt
      rw [getElem?_modify']
      split
      · cases ns[j]? with
        | none => rfl
        | some n => cases n <;> rfl
      · rfl
    refine ⟨ns', by simp [reindexLoop, modNode_ok _ hi0, h1], by simpa using h2,
      h3.trans (skelAt_modify_id _ _ _ (by simp)), ?_, ?_, ?_, ?_, ?_⟩
    · intro j
      rw [h4]
      unfold hbAt
      rw [getElem?_modify']
      split
      · cases ns[j]? with
        | none => rfl
        | some n => cases n <;> rfl
      · rfl
    · intro j b
      rw [h5, getElem?_modify']
      split
      · cases ns[j]? with
        | none => simp
        | some n => cases n <;> simp [Node.setValue]
      · rfl
    · intro j
      rw [h6, hleaf]
      split
      · cases leafAt ns j <;> rfl
      · rfl
    · intro j hj
      rw [h7 j fun e he => hj e (by simp [he]), hleaf, if_neg]
      exact hj (i0, v0) (by simp)
    · intro hnd k i v hkv
      simp only [List.map_cons, List.nodup_cons, List.mem_map, not_exists, not_and] at hnd
      cases k with
      | zero =>
        simp at hkv
        obtain ⟨rfl, rfl⟩ := hkv
        rw [h7 i0 fun e he => hnd.1 e he, hleaf, if_pos rfl]
        simp
      | succ k =>
        simp at hkv
        rw [h8 hnd.2 k i v hkv, hleaf, if_neg]
        · have : k0 + 1 + k = k0 + (k + 1) := by omega
          rw [this]
        · rintro rfl
          exact hnd.1 (i0, v) (List.mem_of_getElem? hkv) rfl

theorem ValsOK.nodup {ns : List (Node B)} {vs : List (Nat × V)} (h : ValsOK ns vs) :
    (vs.map Prod.fst).Nodup := by
  rw [List.nodup_iff_getElem?_ne_getElem?]
  intro a b hab hb
  simp only [List.length_map] at hb
  intro he
  rw [List.getElem?_map, List.getElem?_map] at he
  rw [List.getElem?_eq_getElem (by omega), List.getElem?_eq_getElem hb] at he
  simp at he
  have h1 : vs[a]? = some (vs[a].1, vs[a].2) := by rw [List.getElem?_eq_getElem (by omega)]
  have h2 : vs[b]? = some (vs[a].1, vs[b].2) := by rw [List.getElem?_eq_getElem hb, he]
  have := h.inj h1 h2
  omega

/-- Replacing the value vector by one with the same node indices (any order), then reindexing. -/
theorem reindex_spec (O : Ops V B S) (s : Dbvt V B) (h : WF s) (vs : List (Nat × V))
    (hp : (vs.map Prod.fst).Perm (s.values.map Prod.fst)) :
    ∃ s', ({ s with values := vs }).reindexValues = .ok s' ∧ WF s' ∧ s'.values = vs ∧
      s'.updated = s.updated ∧ s'.nodes.length = s.nodes.length ∧ s'.root = s.root ∧
      s'.refit = s.refit ∧ s'.free = s.free ∧ skelAt s'.nodes = skelAt s.nodes ∧
      (∀ j, (leafAt s'.nodes j).map Prod.snd = (leafAt s.nodes j).map Prod.snd) ∧
      (RefitOK O s → RefitOK O s') := by
  rcases h with h | ⟨t, h⟩
  · have : vs = [] := by
      rw [h.values] at hp; simpa using hp
    subst this
    refine ⟨{ s with values := [] }, rfl, Or.inl ⟨h.nodes, rfl, h.free, h.root, h.refit⟩, rfl, rfl, rfl,
      rfl, rfl, rfl, rfl, fun _ => rfl, id⟩
  · have hmemfst : ∀ i, i ∈ vs.map Prod.fst ↔ i ∈ s.values.map Prod.fst := fun i => hp.mem_iff
    have hkey : ∀ e ∈ vs, ∃ l : Leaf B, s.nodes[e.1]? = some (.leaf l) := by
      intro e he
      have := (hmemfst e.1).1 (List.mem_map.2 ⟨e, he, rfl⟩)
      obtain ⟨e', he', hee⟩ := List.mem_map.1 this
      obtain ⟨k, hk⟩ := List.mem_iff_getElem?.1 he'
      obtain ⟨l, hl, _⟩ := h.vals.toLeaf k e'.1 e'.2 hk
      exact ⟨l, hee ▸ hl⟩
    obtain ⟨ns', h1, h2, h3, h4, h5, h6, h7, h8⟩ := reindexLoop_spec vs 0 s.nodes
      (by intro e he; obtain ⟨l, hl⟩ := hkey e he; exact lt_of_getElem? hl)
    have hnd : (vs.map Prod.fst).Nodup := hp.nodup_iff.2 h.vals.nodup
    have h8 := h8 hnd
    refine ⟨{ s with values := vs, nodes := ns' }, by simp [Dbvt.reindexValues, h1],
      Or.inr ⟨t, h.shape.congr h3 h2, ?_, ?_, ?_⟩, rfl, rfl, h2, rfl, rfl, rfl, h3, h6, ?_⟩
    · simp only [h2]; exact h.free
    · simp only
      rw [valsOK_iff]
      refine ⟨fun k i v hkv => ?_, fun i d hd => ?_⟩
      · obtain ⟨l, hl⟩ := hkey (i, v) (List.mem_of_getElem? hkv)
        rw [h8 k i v hkv, leafAt_of hl]
        exact ⟨_, rfl, by simp⟩
      · have hex : ∃ d', leafAt s.nodes i = some d' := by
          have := h6 i
          rw [hd] at this
          obtain ⟨a, ha, _⟩ := Option.map_eq_some_iff.1 this.symm
          exact ⟨a, ha⟩
        obtain ⟨d', hd'⟩ := hex
        obtain ⟨l, hl, _⟩ := leafAt_eq.1 hd'
        obtain ⟨v, hv⟩ := h.vals.toVal i l hl
        have hin := (hmemfst i).2 (List.mem_map.2 ⟨_, List.mem_of_getElem? hv, rfl⟩)
        obtain ⟨e, he, hei⟩ := List.mem_map.1 hin
        obtain ⟨k, hk⟩ := List.mem_iff_getElem?.1 he
        have hk' : vs[k]? = some (i, e.2) := by rw [hk, ← hei]
        have := h8 k i e.2 hk'
        rw [hd, hd'] at this
        simp at this
        refine ⟨e.2, ?_⟩
        rw [this]; exact hk'
    · simp only [h2]; exact h.refit
    · intro hok
      refine OKExcept.transfer hok ?_
      intro j b hb
      simp only at hb ⊢
      rw [h5] at hb
      by_cases hm : j ∈ s.refit.map Prod.snd
      · exact Or.inl hm
      · exact Or.inr (Or.inr ⟨b, hb, hm, rfl, rfl, h4 _, h4 _⟩)

end Verif.Dbvt
