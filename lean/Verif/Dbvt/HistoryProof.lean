import Verif.Dbvt.QueryProof
import Verif.Dbvt.History
/-!
# Every execution keeps the invariants (proof machinery)
-/
namespace Verif.Dbvt
open Verif

variable {V B S : Type}

theorem lookup_mem {vs : List (Nat × V)} (hn : (vs.map Prod.fst).Nodup) {i : Nat} {v : V} :
    lookup vs i = some v ↔ (i, v) ∈ vs := by
  induction vs with
  | nil => simp [lookup]
  | cons e vs ih =>
    obtain ⟨a, w⟩ := e
    simp only [List.map_cons, List.nodup_cons] at hn
    have ih := ih hn.2
    unfold lookup at ih ⊢
    simp only [List.find?_cons, List.mem_cons, Prod.mk.injEq]
    by_cases h : a = i
    · subst h
      simp only [beq_self_eq_true, Option.map_some, Option.some.injEq, true_and]
      constructor
      · intro h; exact Or.inl h.symm
      · rintro (h | h)
        · exact h.symm
        · exact absurd (List.mem_map.2 ⟨_, h, rfl⟩) hn.1
    · have : (a == i) = false := by simpa using h
      simp only [this, ih]
      constructor
      · exact Or.inr
      · rintro (⟨h1, -⟩ | h1)
        · exact absurd h1.symm h
        · exact h1

theorem lookup_none {vs : List (Nat × V)} {i : Nat} : lookup vs i = none ↔ ∀ e ∈ vs, e.1 ≠ i := by
  simp [lookup, List.find?_eq_none]

theorem WF.nodup {s : Dbvt V B} (h : WF s) : (s.values.map Prod.fst).Nodup := by
  rcases h with h | ⟨t, h⟩
  · simp [h.values]
  · exact h.vals.nodup

theorem lookup_ext {vs vs' : List (Nat × V)} {f : Nat → Option V} (hn : (vs'.map Prod.fst).Nodup)
    (h : ∀ i v, (i, v) ∈ vs' ↔ f i = some v) : ∀ i, lookup vs' i = f i := by
  intro i
  ext v
  rw [lookup_mem hn, h]

theorem doRefit_mono (O : Ops V B S) : ∀ (n m : Nat) (rng : Nat → Nat) (s s' : Dbvt V B),
    n ≤ m → s.doRefit O rng n = .ok s' → s.doRefit O rng m = .ok s' := by
  intro n
  induction n with
  | zero =>
    intro m rng s s' _ h
    rw [Dbvt.doRefit.eq_def] at h ⊢
    cases hr : s.refit with
    | nil => simp only [hr] at h ⊢; exact h
    | cons x xs => simp only [hr] at h; simp at h
  | succ n ih =>
    intro m rng s s' hm h
    obtain ⟨m, rfl⟩ : ∃ k, m = k + 1 := ⟨m - 1, by omega⟩
    rw [Dbvt.doRefit.eq_def] at h ⊢
    cases hr : s.refit with
    | nil => simp only [hr] at h ⊢; exact h
    | cons x xs =>
      simp only [hr] at h ⊢
      rw [Res.bind_eq_ok] at h ⊢
      obtain ⟨a, h1, h2⟩ := h
      exact ⟨a, h1, ih m _ _ _ (by omega) h2⟩

/-- What `do_refit` guarantees on any well-formed state. -/
structure RefitDone' (O : Ops V B S) (s s' : Dbvt V B) : Prop where
  wf : WF s'
  values : s'.values = s.values
  updated : s'.updated = s.updated
  len : s'.nodes.length = s.nodes.length
  free : s'.free = s.free
  leaf : ∀ j, leafAt s'.nodes j = leafAt s.nodes j
  refit : s'.refit = []
  ok : RefitOK O s → RefitOK O s'

theorem doRefit_wf (O : Ops V B S) {s : Dbvt V B} (h : WF s) (rng : Nat → Nat) (n : Nat)
    (hn : s.refitFuel ≤ n) : ∃ s', s.doRefit O rng n = .ok s' ∧ RefitDone' O s s' := by
  rcases h with h | ⟨t, h⟩
  · refine ⟨s, ?_, Or.inl h, rfl, rfl, rfl, rfl, fun _ => rfl, h.refit, id⟩
    rw [Dbvt.doRefit.eq_def]; simp only [h.refit]
  · obtain ⟨s', t', hrun, hd⟩ := doRefit_spec O h rng n hn
    exact ⟨s', hrun, Or.inr ⟨t', hd.wf⟩, hd.values, hd.updated, hd.len, hd.free, hd.leaf, hd.refit, hd.ok⟩

theorem doRefit_of_ok (O : Ops V B S) {s s' : Dbvt V B} (h : WF s) {rng : Nat → Nat} {n : Nat}
    (hr : s.doRefit O rng n = .ok s') : RefitDone' O s s' := by
  obtain ⟨s1, h1, h2⟩ := doRefit_wf O h rng (n + s.refitFuel) (by omega)
  have := doRefit_mono O n (n + s.refitFuel) rng s s' (by omega) hr
  rw [h1] at this
  simp at this
  exact this ▸ h2

theorem mapRes_mem_ok {α β : Type} {f : α → Res β} {l : List α} {bs : List β}
    (h : mapRes f l = .ok bs) : ∀ a ∈ l, ∃ b, f a = .ok b := by
  induction l generalizing bs with
  | nil => simp
  | cons a l ih =>
    simp only [mapRes, Res.bind_eq_ok] at h
    obtain ⟨b, hb, bs', hbs, -⟩ := h
    intro x hx
    rcases List.mem_cons.1 hx with rfl | hx
    · exact ⟨b, hb⟩
    · exact ih hbs x hx

theorem update_range (O : Ops V B S) {s s' : Dbvt V B} (h : s.update O = .ok s') :
    ∀ i ∈ s.updated, i < s.nodes.length := by
  intro i hi
  simp only [Dbvt.update, Res.bind_eq_ok] at h
  obtain ⟨l, hl, -⟩ := h
  obtain ⟨b, hb⟩ := mapRes_mem_ok hl i hi
  simp only [updateEntry, Res.bind_eq_ok] at hb
  obtain ⟨n, hn, -⟩ := hb
  unfold nodeAt at hn
  by_contra hc
  rw [List.getElem?_eq_none (by omega)] at hn
  simp at hn

theorem remove_nonleaf {s : Dbvt V B} {i : Nat} {n : Node B} (hn : s.nodes[i]? = some n)
    (hl : ∀ l, n ≠ .leaf l) : s.remove i = .ok (none, s) := by
  cases n with
  | branch b => simp [Dbvt.remove, nodeAt_some hn]
  | nil => simp [Dbvt.remove, nodeAt_some hn]
  | leaf l => exact absurd rfl (hl l)

/-- A bound index is exactly a leaf slot. -/
theorem WF.mem_iff_leaf {s : Dbvt V B} (h : WF s) {i : Nat} :
    (∃ v, (i, v) ∈ s.values) ↔ ∃ l : Leaf B, s.nodes[i]? = some (.leaf l) := by
  rcases h with h | ⟨t, h⟩
  · simp only [h.values, h.nodes]
    constructor
    · rintro ⟨v, hv⟩; simp at hv
    · rintro ⟨l, hl⟩
      rw [List.getElem?_singleton] at hl
      split at hl <;> simp at hl
  · constructor
    · rintro ⟨v, hv⟩
      obtain ⟨k, hk⟩ := List.mem_iff_getElem?.1 hv
      obtain ⟨l, hl, -⟩ := h.vals.toLeaf k i v hk
      exact ⟨l, hl⟩
    · rintro ⟨l, hl⟩
      obtain ⟨v, hv⟩ := h.vals.toVal i l hl
      exact ⟨v, List.mem_of_getElem? hv⟩

theorem remove_spec (O : Ops V B S) {s : Dbvt V B} (h : WF s) {i : Nat} (hi : i < s.nodes.length) :
    (∃ v s', RemoveLeaf O s i v s') ∨
    (s.remove i = .ok (none, s) ∧ ∀ e ∈ s.values, e.1 ≠ i) := by
  by_cases hl : ∃ l : Leaf B, s.nodes[i]? = some (.leaf l)
  · obtain ⟨l, hl⟩ := hl
    rcases h with h | ⟨t, h⟩
    · rw [h.nodes, List.getElem?_singleton] at hl
      split at hl <;> simp at hl
    · exact Or.inl (remove_leaf O s t h i l hl)
  · right
    refine ⟨?_, ?_⟩
    · cases hn : s.nodes[i]? with
      | none => rw [List.getElem?_eq_none_iff] at hn; omega
      | some n => exact remove_nonleaf hn (fun l e => hl ⟨l, by rw [hn, e]⟩)
    · rintro ⟨j, v⟩ he rfl
      exact hl (h.mem_iff_leaf.1 ⟨v, he⟩)

theorem remove_range {s s' : Dbvt V B} {i : Nat} {o : Option V} (h : s.remove i = .ok (o, s')) :
    i < s.nodes.length := by
  simp only [Dbvt.remove, Res.bind_eq_ok] at h
  obtain ⟨n, hn, -⟩ := h
  unfold nodeAt at hn
  by_contra hc
  rw [List.getElem?_eq_none (by omega)] at hn
  simp at hn

theorem updateNode_range {s s' : Dbvt V B} {i : Nat} {v : V} (h : s.updateNode i v = .ok s') :
    i < s.nodes.length := by
  simp only [Dbvt.updateNode, Res.bind_eq_ok] at h
  obtain ⟨n, hn, -⟩ := h
  unfold nodeAt at hn
  by_contra hc
  rw [List.getElem?_eq_none (by omega)] at hn
  simp at hn

/-- Every value with an `ok` bound is covered: flagged, changed behind the tree's back, or enclosed by its leaf. -/
def Cov (O : Ops V B S) (ok : B → Prop) (h : Hist V) (s : Dbvt V B) : Prop :=
  ∀ e ∈ s.values, ok (O.bound e.2) → e.1 ∈ pending h ∨ Stale O h e.1 ∨
    ∃ bd, (leafAt s.nodes e.1).map Prod.snd = some bd ∧ O.contains bd (O.bound e.2) = true

theorem FatOK_of_cov {O : Ops V B S} {ok : B → Prop} {s : Dbvt V B}
    (h : ∀ e ∈ s.values, ok (O.bound e.2) → e.1 ∈ s.updated ∨
      ∃ bd, (leafAt s.nodes e.1).map Prod.snd = some bd ∧ O.contains bd (O.bound e.2) = true) : FatOK O ok s := by
  intro k i v hv hg
  rcases h (i, v) (List.mem_of_getElem? hv) hg with h | ⟨bd, h1, h2⟩
  · exact Or.inl h
  · obtain ⟨d, hd, rfl⟩ := Option.map_eq_some_iff.1 h1
    exact Or.inr ⟨d, hd, h2⟩

theorem cov_of_FatOK {O : Ops V B S} {ok : B → Prop} {s : Dbvt V B} (h : FatOK O ok s) (hu : s.updated = []) :
    ∀ e ∈ s.values, ok (O.bound e.2) → ∃ bd, (leafAt s.nodes e.1).map Prod.snd = some bd ∧ O.contains bd (O.bound e.2) = true := by
  intro e he hg
  obtain ⟨k, hk⟩ := List.mem_iff_getElem?.1 he
  rcases h k e.1 e.2 hk hg with h | ⟨d, h1, h2⟩
  · simp [hu] at h
  · exact ⟨d.2, by simp [h1], h2⟩

/-- The invariants of an execution. -/
structure Inv (O : Ops V B S) (h : Hist V) (s : Dbvt V B) : Prop where
  wf : WF s
  refit : RefitOK O s
  upd : s.updated = pending h
  map : ∀ j, lookup s.values j = mapOf h j
  cov : ∀ ok : B → Prop, (∀ v, ok (O.bound v) → O.contains (O.fat v) (O.bound v) = true) → Disciplined O h → Cov O ok h s

theorem Inv.mem {O : Ops V B S} {h : Hist V} {s : Dbvt V B} (hi : Inv O h s) {i : Nat} {v : V} :
    (i, v) ∈ s.values ↔ mapOf h i = some v := by
  rw [← hi.map, lookup_mem hi.wf.nodup]

theorem update_inv {O : Ops V B S} {h : Hist V} {s s' : Dbvt V B} (hi : Inv O h s)
    (hr : s.update O = .ok s') : WF s' ∧ RefitOK O s' ∧ s'.updated = [] ∧ s'.values = s.values ∧
      (∀ ok : B → Prop, (∀ v, ok (O.bound v) → O.contains (O.fat v) (O.bound v) = true) → Disciplined O h → (∀ i, Stale O h i → i ∈ pending h) →
        FatOK O ok s') ∧ s'.nodes.length = s.nodes.length := by
  obtain ⟨s1, h1, h2, h3, h4, h5, h6, h7, h8, h9, h10, -⟩ := update_spec O s hi.wf (update_range O hr)
  rw [h1] at hr
  simp at hr; subst hr
  refine ⟨h2, h9 hi.refit, h4, h3, fun ok hf hd hst => h10 ok hf ?_, h5⟩
  refine FatOK_of_cov fun e he hg => ?_
  rw [hi.upd]
  rcases hi.cov ok hf hd e he hg with h | h | h
  · exact Or.inl h
  · exact Or.inl (hst _ h)
  · exact Or.inr h

theorem exec_inv (O : Ops V B S) {h : Hist V} {s : Dbvt V B} (he : Exec O h s) : Inv O h s := by
  induction he with
  | new =>
    refine ⟨Or.inl ⟨rfl, rfl, rfl, rfl, rfl⟩, ?_, rfl, fun _ => rfl, fun _ _ _ e he => ?_⟩
    · intro i b hb
      simp only [Dbvt.new, List.getElem?_singleton] at hb
      split at hb <;> simp at hb
    · simp [Dbvt.new] at he
  | @step h s c r s' fuel _ hleg hrun hi =>
    have hnd := hi.wf.nodup
    cases c with
    | insert v =>
      obtain ⟨i, s1, h1, h2, h3, h4, h5, h6, h7, ⟨k, h8⟩, h9, h10⟩ := insert_spec O s hi.wf v
      simp only [call, h1, Res.bind_ok, Res.pure_eq, Res.ok.injEq, Prod.mk.injEq] at hrun
      obtain ⟨rfl, rfl⟩ := hrun
      refine ⟨h2, h10 hi.refit, by rw [h4, hi.upd]; rfl, ?_, fun ok hf hd e he hg => ?_⟩
      · refine lookup_ext (vs := []) h2.nodup fun j w => ?_
        rw [h3]
        simp only [List.mem_append, List.mem_singleton, Prod.mk.injEq, mapOf, hi.mem]
        split
        · rename_i e; subst e
          constructor
          · rintro (h | ⟨-, rfl⟩)
            · exact absurd rfl (h6 _ (hi.mem.2 h))
            · rfl
          · intro h; simp at h; exact Or.inr ⟨rfl, h.symm⟩
        · rename_i e
          constructor
          · rintro (h | ⟨h, -⟩)
            · exact h
            · exact absurd h e
          · exact Or.inl
      · rw [h3] at he
        simp only [List.mem_append, List.mem_singleton] at he
        rcases he with he | rfl
        · rcases hi.cov ok hf hd e he hg with h | h | ⟨bd, h, hc⟩
          · exact Or.inl h
          · exact Or.inr (Or.inl h)
          · obtain ⟨d, hd', rfl⟩ := Option.map_eq_some_iff.1 h
            exact Or.inr (Or.inr ⟨d.2, by rw [h7 _ _ hd']; rfl, hc⟩)
        · exact Or.inr (Or.inr ⟨O.fat v, by rw [h8]; rfl, hf v hg⟩)
    | remove i =>
      simp only [call, Res.bind_eq_ok] at hrun
      obtain ⟨⟨o, s1⟩, hrm, hrun⟩ := hrun
      simp only [Res.pure_eq, Res.ok.injEq, Prod.mk.injEq] at hrun
      obtain ⟨rfl, rfl⟩ := hrun
      rcases remove_spec O hi.wf (remove_range hrm) with ⟨v, s2, hl⟩ | ⟨h1, h2⟩
      · have := hl.run
        rw [hrm] at this
        simp at this
        obtain ⟨rfl, rfl⟩ := this
        refine ⟨hl.wf, hl.refitOK hi.refit, by rw [hl.updated, hi.upd]; rfl, ?_, fun ok hf hd e he hg => ?_⟩
        · refine lookup_ext (vs := []) hl.wf.nodup fun j w => ?_
          rw [hl.values]
          simp only [mapOf, hi.mem]
          split
          · rename_i e; subst e; simp
          · rename_i e; simp [e]
        · rw [hl.values] at he
          rcases hi.cov ok hf hd e he.1 hg with h | h | h
          · exact Or.inl h
          · exact Or.inr (Or.inl h)
          · rw [← hl.leaves _ he.2] at h; exact Or.inr (Or.inr h)
      · rw [hrm] at h1
        simp at h1
        obtain ⟨rfl, rfl⟩ := h1
        refine ⟨hi.wf, hi.refit, by rw [hi.upd]; rfl, fun j => ?_, fun ok hf hd => ?_⟩
        · simp only [mapOf]
          split
          · rename_i e; subst e; exact lookup_none.2 h2
          · exact hi.map j
        · exact hi.cov ok hf hd
    | updateNode i w =>
      simp only [call, Res.bind_eq_ok] at hrun
      obtain ⟨s1, hup, hrun⟩ := hrun
      simp only [Res.pure_eq, Res.ok.injEq, Prod.mk.injEq] at hrun
      obtain ⟨rfl, rfl⟩ := hrun
      obtain ⟨s2, h1, h2, h3, h4, h5, h6, h7, h8⟩ := updateNode_spec O s hi.wf i w (updateNode_range hup)
      rw [hup] at h1
      simp at h1; subst h1
      refine ⟨h2, ?_, by rw [h4, hi.upd]; rfl, ?_, fun ok hf hd e he hg => ?_⟩
      · unfold RefitOK; rw [h3, h5]; exact hi.refit
      · refine lookup_ext (vs := []) h2.nodup fun j x => ?_
        rw [h8]
        simp only [List.mem_map, mapOf]
        constructor
        · rintro ⟨⟨a, y⟩, hm, hx⟩
          rw [hi.mem] at hm
          split at hx
          · rename_i e
            simp only at e hx
            simp only [Prod.mk.injEq] at hx
            obtain ⟨rfl, rfl⟩ := hx
            subst e
            simp [hm]
          · rename_i e
            simp only [Prod.mk.injEq] at hx
            obtain ⟨rfl, rfl⟩ := hx
            simp only at e
            simp [e, hm]
        · split
          · rename_i e; subst e
            intro h
            obtain ⟨y, hy, rfl⟩ := Option.map_eq_some_iff.1 h
            exact ⟨(j, y), hi.mem.2 hy, by simp⟩
          · rename_i e
            intro h
            exact ⟨(j, x), hi.mem.2 h, by simp [e]⟩
      · rw [h8] at he
        obtain ⟨⟨a, y⟩, hm, hx⟩ := List.mem_map.1 he
        simp only [pending, List.mem_append, List.mem_singleton]
        split at hx
        · subst hx; exact Or.inl (Or.inr rfl)
        · subst hx
          rw [h3]
          rcases hi.cov ok hf hd _ hm hg with h | h | h
          · exact Or.inl (Or.inl h)
          · exact Or.inr (Or.inl h)
          · exact Or.inr (Or.inr h)
    | flagUpdated i =>
      simp only [call, Res.ok.injEq, Prod.mk.injEq] at hrun
      obtain ⟨rfl, rfl⟩ := hrun
      refine ⟨?_, hi.refit, by simp only [Dbvt.flagUpdated, hi.upd]; rfl, hi.map, fun ok hf hd e he hg => ?_⟩
      · rcases hi.wf with h | ⟨t, h⟩
        · exact Or.inl ⟨h.nodes, h.values, h.free, h.root, h.refit⟩
        · exact Or.inr ⟨t, h.shape, h.free, h.vals, h.refit⟩
      · rcases hi.cov ok hf hd e he hg with h | h | h
        · exact Or.inl (by simp [pending, h])
        · exact Or.inr (Or.inl h)
        · exact Or.inr (Or.inr h)
    | update =>
      simp only [call, Res.bind_eq_ok] at hrun
      obtain ⟨s1, hup, hrun⟩ := hrun
      simp only [Res.pure_eq, Res.ok.injEq, Prod.mk.injEq] at hrun
      obtain ⟨rfl, rfl⟩ := hrun
      obtain ⟨h1, h2, h3, h4, h5, -⟩ := update_inv hi hup
      refine ⟨h1, h2, by rw [h3]; rfl, fun j => by rw [h4]; exact hi.map j, fun ok hf hd e he hg => ?_⟩
      exact Or.inr (Or.inr (cov_of_FatOK (h5 ok hf hd.1 hd.2) h3 e he hg))
    | doRefit rng =>
      simp only [call, Res.bind_eq_ok] at hrun
      obtain ⟨s1, hup, hrun⟩ := hrun
      simp only [Res.pure_eq, Res.ok.injEq, Prod.mk.injEq] at hrun
      obtain ⟨rfl, rfl⟩ := hrun
      have hd := doRefit_of_ok O hi.wf hup
      refine ⟨hd.wf, hd.ok hi.refit, by rw [hd.updated, hi.upd]; rfl, fun j => by rw [hd.values]; exact hi.map j,
        fun ok hf hdi e he hg => ?_⟩
      rw [hd.values] at he
      rw [hd.leaf]
      exact hi.cov ok hf hdi e he hg
    | tick rng =>
      simp only [call, Dbvt.tick, Res.bind_eq_ok] at hrun
      obtain ⟨s1, ⟨s2, hup, hrf⟩, hrun⟩ := hrun
      simp only [Res.pure_eq, Res.ok.injEq, Prod.mk.injEq] at hrun
      obtain ⟨rfl, rfl⟩ := hrun
      obtain ⟨h1, h2, h3, h4, h5, -⟩ := update_inv hi hup
      have hd := doRefit_of_ok O h1 hrf
      refine ⟨hd.wf, hd.ok h2, by rw [hd.updated, h3]; rfl, fun j => by rw [hd.values, h4]; exact hi.map j,
        fun ok hf hdi e he hg => ?_⟩
      rw [hd.values] at he
      rw [hd.leaf]
      exact Or.inr (Or.inr (cov_of_FatOK (h5 ok hf hdi.1 hdi.2) h3 e he hg))
    | clear =>
      simp only [call, Res.ok.injEq, Prod.mk.injEq] at hrun
      obtain ⟨rfl, rfl⟩ := hrun
      refine ⟨Or.inl ⟨rfl, rfl, rfl, rfl, rfl⟩, ?_, by simp only [Dbvt.clear, hi.upd]; rfl, fun _ => rfl, fun _ _ _ e he => ?_⟩
      · intro i b hb
        simp only [Dbvt.clear, List.getElem?_singleton] at hb
        split at hb <;> simp at hb
      · simp [Dbvt.clear] at he
    | mutate vs =>
      obtain ⟨s1, h1, h2, h3, h4, h5, h6, h7, h8, h9, h10, h11⟩ := reindex_spec O s hi.wf vs hleg
      simp only [call, h1, Res.bind_ok, Res.pure_eq, Res.ok.injEq, Prod.mk.injEq] at hrun
      obtain ⟨rfl, rfl⟩ := hrun
      refine ⟨h2, h11 hi.refit, by rw [h4, hi.upd]; rfl, fun j => by rw [h3]; rfl, fun ok hf hd e he hg => ?_⟩
      have hnd' : (vs.map Prod.fst).Nodup := by rw [← h3]; exact h2.nodup
      rw [h3] at he
      rw [h10]
      have hmem : e.1 ∈ s.values.map Prod.fst := hleg.mem_iff.1 (List.mem_map.2 ⟨e, he, rfl⟩)
      obtain ⟨⟨a, v⟩, hv, hea⟩ := List.mem_map.1 hmem
      simp only at hea
      subst hea
      by_cases hb : O.bound e.2 = O.bound v
      · rcases hi.cov ok hf hd _ hv (hb ▸ hg) with h | h | h
        · exact Or.inl h
        · exact Or.inr (Or.inl (Or.inl h))
        · rw [hb]; exact Or.inr (Or.inr h)
      · exact Or.inr (Or.inl (Or.inr ⟨v, e.2, hi.mem.1 hv, (lookup_mem hnd').2 he, hb⟩))

end Verif.Dbvt
