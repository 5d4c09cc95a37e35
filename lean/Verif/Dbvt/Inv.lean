import Verif.Dbvt.Tree
import Mathlib.Data.List.Perm.Subperm
/-!
# Invariants of the stored tree (proof machinery)
-/
namespace Verif.Dbvt
open Verif

variable {V B S : Type}

@[simp] theorem modNode_ok {ns : List (Node B)} {i : Nat} (f : Node B → Node B)
    (h : i < ns.length) : modNode ns i f = .ok (ns.modify i f) := by simp [modNode, h]

@[simp] theorem nodeAt_some {ns : List (Node B)} {i : Nat} {n : Node B} (h : ns[i]? = some n) :
    nodeAt ns i = .ok n := by simp [nodeAt, h]

theorem boundAt_ok {ns : List (Node B)} {i : Nat} {n : Node B} (h : ns[i]? = some n) :
    boundAt ns i = n.getBound := by simp [boundAt, h]

theorem lt_of_getElem? {α : Type _} {ns : List α} {i : Nat} {n : α} (h : ns[i]? = some n) :
    i < ns.length := by
  by_contra hc
  rw [List.getElem?_eq_none (by omega)] at h
  simp at h

/-- Parent pointer of a skeleton. -/
def Skel.parent : Skel → Nat
  | .branch p _ _ => p
  | .leaf p => p
  | .nil => 0

/-- The node vector stores exactly the tree `t`, everything else is `Nil`. -/
structure Shape (ns : List (Node B)) (root : Nat) (t : T) : Prop where
  rep : Rep (skelAt ns) 0 t
  root_eq : root = t.root
  nodup : t.idxs.Nodup
  pos : 0 ∉ t.idxs
  others : ∀ i, i < ns.length → i ∉ t.idxs → skelAt ns i = some .nil

namespace Shape
variable {ns : List (Node B)} {root : Nat} {t : T}

theorem mem_lt (h : Shape ns root t) {i : Nat} (hi : i ∈ t.idxs) : i < ns.length := by
  obtain ⟨k, hk, _⟩ := h.rep.some i hi
  exact skelAt_lt hk

theorem mem_of (h : Shape ns root t) {i : Nat} {k : Skel} (hi : skelAt ns i = some k)
    (hk : k ≠ .nil) : i ∈ t.idxs := by
  by_contra hc
  have := h.others i (skelAt_lt hi) hc
  rw [hi] at this
  simp at this
  exact hk this

theorem mem_iff (h : Shape ns root t) {i : Nat} :
    i ∈ t.idxs ↔ ∃ n, ns[i]? = some n ∧ n ≠ .nil := by
  constructor
  · intro hi
    obtain ⟨k, hk, hne⟩ := h.rep.some i hi
    unfold skelAt at hk
    cases hn : ns[i]? with
    | none => rw [hn] at hk; simp at hk
    | some n =>
      refine ⟨n, rfl, ?_⟩
      rintro rfl
      rw [hn] at hk
      simp [Node.skel] at hk
      exact hne hk.symm
  · rintro ⟨n, hn, hne⟩
    refine h.mem_of (k := n.skel) (by simp [skelAt, hn]) ?_
    cases n <;> simp_all [Node.skel]

theorem len_pos (h : Shape ns root t) : 0 < ns.length := by
  have := h.mem_lt t.root_mem; omega

theorem length_le (h : Shape ns root t) : t.idxs.length < ns.length := by
  have h1 : (0 :: t.idxs).Nodup := List.nodup_cons.2 ⟨h.pos, h.nodup⟩
  have h2 : (0 :: t.idxs) ⊆ List.range ns.length := by
    intro x hx
    rw [List.mem_range]
    rcases List.mem_cons.1 hx with rfl | hx
    · exact h.len_pos
    · exact h.mem_lt hx
  have := (List.subperm_of_subset h1 h2).length_le
  simp at this
  omega

/-- The children of a stored branch. -/
theorem children (h : Shape ns root t) {i : Nat} {b : Branch B} (hb : ns[i]? = some (.branch b)) :
    i ∈ t.idxs ∧ b.left ∈ t.idxs ∧ b.right ∈ t.idxs ∧ b.left ≠ b.right ∧ b.left ≠ i ∧ b.right ≠ i ∧
    (∃ k, skelAt ns b.left = some k ∧ k ≠ .nil ∧ k.parent = i) ∧
    (∃ k, skelAt ns b.right = some k ∧ k ≠ .nil ∧ k.parent = i) := by
  have hs := skelAt_of_branch hb
  have hi := h.mem_of hs (by simp)
  obtain ⟨c, s, rfl, hsi⟩ := exists_focus t i hi
  have hr := (rep_plug c s).1 h.rep
  have hn := (plug_perm c s).nodup_iff.1 h.nodup
  cases s with
  | leaf j => simp at hsi; subst hsi; have := hr.2; rw [Rep, hs] at this; simp at this
  | node j l r =>
    simp at hsi; subst hsi
    obtain ⟨h1, h2, h3⟩ := hr.2
    rw [hs] at h1
    simp only [Option.some.injEq, Skel.branch.injEq] at h1
    obtain ⟨_, hl, hr'⟩ := h1
    simp only [T.idxs_node, List.cons_append, List.append_assoc, List.nodup_cons, List.mem_append,
      not_or, List.nodup_append] at hn
    have key : ∀ (u : T), Rep (skelAt ns) j u → ∃ k, skelAt ns u.root = some k ∧ k ≠ .nil ∧ k.parent = j := by
      intro u hu
      cases u with
      | leaf x => exact ⟨_, hu, by simp, rfl⟩
      | node x _ _ => exact ⟨_, hu.1, by simp, rfl⟩
    refine ⟨hi, ?_, ?_, ?_, ?_, ?_, ?_, ?_⟩
    · rw [hl, mem_plug]; simp
    · rw [hr', mem_plug]; simp
    · rw [hl, hr']; exact hn.2.2.2 _ l.root_mem _ (by simp)
    · rw [hl]; intro e; exact hn.1.1 (e ▸ l.root_mem)
    · rw [hr']; intro e; exact hn.1.2.1 (e ▸ r.root_mem)
    · rw [hl]; exact key l h2
    · rw [hr']; exact key r h3

theorem nodeAt_child (h : Shape ns root t) {i : Nat} (hi : i ∈ t.idxs) :
    ∃ n bd, ns[i]? = some n ∧ n.getBound = .ok bd ∧ n ≠ .nil := by
  obtain ⟨n, hn, hne⟩ := h.mem_iff.1 hi
  cases n with
  | branch b => exact ⟨_, b.bound, hn, rfl, hne⟩
  | leaf b => exact ⟨_, b.bound, hn, rfl, hne⟩
  | nil => exact absurd rfl hne

/-- Only one branch points to a given index. -/
theorem parent_unique (h : Shape ns root t) {i j x : Nat} {b b' : Branch B}
    (hb : ns[i]? = some (.branch b)) (hb' : ns[j]? = some (.branch b'))
    (hx : b.left = x ∨ b.right = x) (hx' : b'.left = x ∨ b'.right = x) : i = j := by
  obtain ⟨-, -, -, -, -, -, ⟨k1, h1, -, e1⟩, k2, h2, -, e2⟩ := h.children hb
  obtain ⟨-, -, -, -, -, -, ⟨k3, h3, -, e3⟩, k4, h4, -, e4⟩ := h.children hb'
  grind

/-- Parent pointers of children, phrased from the child. -/
theorem child_parent (h : Shape ns root t) {i x : Nat} {b : Branch B} {n : Node B}
    (hb : ns[i]? = some (.branch b)) (hx : b.left = x ∨ b.right = x) (hn : ns[x]? = some n) :
    n.skel.parent = i := by
  obtain ⟨-, -, -, -, -, -, ⟨k1, h1, -, e1⟩, k2, h2, -, e2⟩ := h.children hb
  rcases hx with rfl | rfl
  · simp [skelAt, hn] at h1; rw [h1]; exact e1
  · simp [skelAt, hn] at h2; rw [h2]; exact e2

/-- A leaf of `t` is exactly a node stored as a leaf. -/
theorem leaf_iff (h : Shape ns root t) {i : Nat} :
    i ∈ t.leaves ↔ ∃ l : Leaf B, ns[i]? = some (.leaf l) := by
  constructor
  · intro hi
    obtain ⟨q, hq⟩ := (h.rep.leaf_iff i (T.leaves_subset hi) h.nodup).1 hi
    obtain ⟨l, hl, _⟩ := skelAt_leaf hq
    exact ⟨l, hl⟩
  · rintro ⟨l, hl⟩
    have hs := skelAt_of_leaf hl
    exact (h.rep.leaf_iff i (h.mem_of hs (by simp)) h.nodup).2 ⟨_, hs⟩

/-- Shape only depends on the skeletons. -/
theorem congr {ns' : List (Node B)} (h : Shape ns root t) (hs : skelAt ns' = skelAt ns)
    (hl : ns'.length = ns.length) : Shape ns' root t :=
  ⟨hs ▸ h.rep, h.root_eq, h.nodup, h.pos, by rw [hl, hs]; exact h.others⟩

end Shape

/-- Free list describes exactly the unused slots other than slot 0. -/
structure FreeOK (len : Nat) (free : List Nat) (used : Nat → Prop) : Prop where
  nodup : free.Nodup
  mem : ∀ i, i ∈ free ↔ (0 < i ∧ i < len ∧ ¬ used i)

/-- Values and leaves point to each other. -/
structure ValsOK (ns : List (Node B)) (vs : List (Nat × V)) : Prop where
  toLeaf : ∀ (k i : Nat) (v : V), vs[k]? = some (i, v) →
    ∃ l : Leaf B, ns[i]? = some (.leaf l) ∧ l.value = k
  toVal : ∀ (i : Nat) (l : Leaf B), ns[i]? = some (.leaf l) → ∃ v, vs[l.value]? = some (i, v)

/-- Strict lexicographic order on refit entries. -/
def lexLt (x y : Nat × Nat) : Prop := x.1 < y.1 ∨ (x.1 = y.1 ∧ x.2 < y.2)

/-- Refit list: strictly sorted, in range. -/
structure RefitListOK (len : Nat) (rf : List (Nat × Nat)) : Prop where
  sorted : rf.Pairwise lexLt
  lt : ∀ x ∈ rf, x.2 < len

/-- Structural well-formedness with a nonempty tree `t`. -/
structure WFt (s : Dbvt V B) (t : T) : Prop where
  shape : Shape s.nodes s.root t
  free : FreeOK s.nodes.length s.free (· ∈ t.idxs)
  vals : ValsOK s.nodes s.values
  refit : RefitListOK s.nodes.length s.refit

/-- The state after `new` or `clear` (up to `updated_list`). -/
structure WFe (s : Dbvt V B) : Prop where
  nodes : s.nodes = [.nil]
  values : s.values = []
  free : s.free = []
  root : s.root = 0
  refit : s.refit = []

/-- Structural well-formedness. -/
def WF (s : Dbvt V B) : Prop := WFe s ∨ ∃ t, WFt s t

/-- (height, bound) of a node, `none` for `Nil`. -/
def Node.hb : Node B → Option (Nat × B)
  | .branch b => some (b.height, b.bound)
  | .leaf l => some (1, l.bound)
  | .nil => none

def hbAt (ns : List (Node B)) (i : Nat) : Option (Nat × B) := (ns[i]?).bind Node.hb

/-- The stored height and bound of a branch are those computed from its children. -/
def LocalOK (O : Ops V B S) (ns : List (Node B)) (b : Branch B) : Prop :=
  ∃ x y, hbAt ns b.left = some x ∧ hbAt ns b.right = some y ∧
    b.height = 1 + max x.1 y.1 ∧ b.bound = O.union x.2 y.2

/-- Every branch outside `M` is locally consistent. -/
def OKExcept (O : Ops V B S) (M : Nat → Prop) (ns : List (Node B)) : Prop :=
  ∀ i b, ns[i]? = some (.branch b) → M i ∨ LocalOK O ns b

/-- Every inconsistent branch is marked for refitting. -/
def RefitOK (O : Ops V B S) (s : Dbvt V B) : Prop :=
  OKExcept O (fun i => i ∈ s.refit.map Prod.snd) s.nodes

/-- (value index, stored bound) of a leaf. -/
def Node.leafData : Node B → Option (Nat × B)
  | .leaf l => some (l.value, l.bound)
  | _ => none

def leafAt (ns : List (Node B)) (i : Nat) : Option (Nat × B) := (ns[i]?).bind Node.leafData

theorem leafAt_eq {ns : List (Node B)} {i : Nat} {d : Nat × B} :
    leafAt ns i = some d ↔ ∃ l : Leaf B, ns[i]? = some (.leaf l) ∧ l.value = d.1 ∧ l.bound = d.2 := by
  unfold leafAt
  cases h : ns[i]? with
  | none => simp
  | some n =>
    cases n with
    | branch b => simp [Node.leafData]
    | leaf l => simp [Node.leafData, Prod.ext_iff]
    | nil => simp [Node.leafData]

theorem leafAt_of {ns : List (Node B)} {i : Nat} {l : Leaf B} (h : ns[i]? = some (.leaf l)) :
    leafAt ns i = some (l.value, l.bound) := by simp [leafAt, h, Node.leafData]

/-- `ValsOK` through `leafAt`. -/
theorem valsOK_iff {ns : List (Node B)} {vs : List (Nat × V)} :
    ValsOK ns vs ↔ (∀ k i v, vs[k]? = some (i, v) → ∃ d, leafAt ns i = some d ∧ d.1 = k) ∧
      (∀ i d, leafAt ns i = some d → ∃ v, vs[d.1]? = some (i, v)) := by
  constructor
  · rintro ⟨h1, h2⟩
    refine ⟨fun k i v h => ?_, fun i d h => ?_⟩
    · obtain ⟨l, hl, e⟩ := h1 k i v h
      exact ⟨_, leafAt_of hl, e⟩
    · obtain ⟨l, hl, e1, e2⟩ := leafAt_eq.1 h
      rw [← e1]; exact h2 i l hl
  · rintro ⟨h1, h2⟩
    refine ⟨fun k i v h => ?_, fun i l h => ?_⟩
    · obtain ⟨d, hd, e⟩ := h1 k i v h
      obtain ⟨l, hl, e1, e2⟩ := leafAt_eq.1 hd
      exact ⟨l, hl, e1.trans e⟩
    · exact h2 i _ (leafAt_of h)

theorem ValsOK.congr {ns ns' : List (Node B)} {vs : List (Nat × V)} (h : ValsOK ns vs)
    (he : ∀ i, (leafAt ns' i).map Prod.fst = (leafAt ns i).map Prod.fst) : ValsOK ns' vs := by
  rw [valsOK_iff] at h ⊢
  refine ⟨fun k i v hv => ?_, fun i d hd => ?_⟩
  · obtain ⟨d, hd, e⟩ := h.1 k i v hv
    have := he i
    rw [hd] at this
    simp only [Option.map_some, Option.map_eq_some_iff] at this
    obtain ⟨a, ha, ea⟩ := this
    exact ⟨a, ha, ea.trans e⟩
  · have := he i
    rw [hd] at this
    simp only [Option.map_some] at this
    obtain ⟨a, ha, ea⟩ := Option.map_eq_some_iff.1 this.symm
    rw [← ea]; exact h.2 i a ha

/-- The fat bound stored in the leaf of a value encloses the bound of the value, or the leaf is flagged; asked only for values whose bound is `ok`. -/
def FatOK (O : Ops V B S) (ok : B → Prop) (s : Dbvt V B) : Prop :=
  ∀ (k i : Nat) (v : V), s.values[k]? = some (i, v) → ok (O.bound v) → i ∈ s.updated ∨
    ∃ d, leafAt s.nodes i = some d ∧ O.contains d.2 (O.bound v) = true

/-! ## Sorted insertion -/

theorem sortedInsert_mem {x y : Nat × Nat} {l : List (Nat × Nat)} :
    y ∈ sortedInsert x l ↔ y = x ∨ y ∈ l := by
  induction l with
  | nil => simp [sortedInsert]
  | cons z l ih =>
    simp only [sortedInsert]
    split
    · simp
    · split
      · rename_i h; subst h; simp
      · simp [ih]; tauto

theorem sortedInsert_sorted {x : Nat × Nat} {l : List (Nat × Nat)} (h : l.Pairwise lexLt) :
    (sortedInsert x l).Pairwise lexLt := by
  induction l with
  | nil => simp [sortedInsert]
  | cons z l ih =>
    rw [List.pairwise_cons] at h
    simp only [sortedInsert]
    split
    · rename_i hlt
      rw [List.pairwise_cons, List.pairwise_cons]
      refine ⟨?_, h⟩
      intro a ha
      rcases List.mem_cons.1 ha with rfl | ha
      · exact hlt
      · have := h.1 a ha
        unfold lexLt at this ⊢; omega
    · rename_i hnlt
      split
      · rw [List.pairwise_cons]; exact h
      · rename_i hne
        rw [List.pairwise_cons]
        refine ⟨?_, ih h.2⟩
        intro a ha
        rcases sortedInsert_mem.1 ha with rfl | ha
        · unfold lexLt
          have : ¬ (a.1 = z.1 ∧ a.2 = z.2) := fun e => hne (Prod.ext e.1 e.2)
          omega
        · exact h.1 a ha

theorem sortedInsert_length {x : Nat × Nat} {l : List (Nat × Nat)} :
    (sortedInsert x l).length ≤ l.length + 1 := by
  induction l with
  | nil => simp [sortedInsert]
  | cons z l ih =>
    simp only [sortedInsert]
    split
    · simp
    · split
      · simp
      · simp; omega

theorem markForRefit_ok {s : Dbvt V B} {i m : Nat} (h : i < s.nodes.length) :
    ∃ k, s.markForRefit i m = .ok { s with refit := sortedInsert (k, i) s.refit } := by
  unfold Dbvt.markForRefit nodeAt
  rw [List.getElem?_eq_getElem h]
  exact ⟨_, rfl⟩

theorem RefitListOK.insert {len k i : Nat} {rf : List (Nat × Nat)} (h : RefitListOK len rf)
    (hi : i < len) : RefitListOK len (sortedInsert (k, i) rf) := by
  refine ⟨sortedInsert_sorted h.sorted, fun x hx => ?_⟩
  rcases sortedInsert_mem.1 hx with rfl | hx
  · exact hi
  · exact h.lt x hx

theorem RefitListOK.mono {len len' : Nat} {rf : List (Nat × Nat)} (h : RefitListOK len rf)
    (hl : len ≤ len') : RefitListOK len' rf :=
  ⟨h.sorted, fun x hx => Nat.lt_of_lt_of_le (h.lt x hx) hl⟩

theorem refit_snd_insert {k i j : Nat} {rf : List (Nat × Nat)} :
    j ∈ (sortedInsert (k, i) rf).map Prod.snd ↔ j = i ∨ j ∈ rf.map Prod.snd := by
  simp only [List.mem_map, sortedInsert_mem]
  constructor
  · rintro ⟨x, rfl | hx, rfl⟩
    · exact Or.inl rfl
    · exact Or.inr ⟨x, hx, rfl⟩
  · rintro (rfl | ⟨x, hx, rfl⟩)
    · exact ⟨(k, j), Or.inl rfl, rfl⟩
    · exact ⟨x, Or.inr hx, rfl⟩

/-- Transfer of `OKExcept` when each surviving branch keeps its node and its children's data. -/
theorem OKExcept.transfer {O : Ops V B S} {M M' : Nat → Prop} {ns ns' : List (Node B)}
    (h : OKExcept O M ns)
    (hstep : ∀ i b, ns'[i]? = some (.branch b) → M' i ∨ LocalOK O ns' b ∨
      (∃ b0 : Branch B, ns[i]? = some (.branch b0) ∧ ¬ M i ∧ b.height = b0.height ∧ b.bound = b0.bound ∧
        hbAt ns' b.left = hbAt ns b0.left ∧ hbAt ns' b.right = hbAt ns b0.right)) :
    OKExcept O M' ns' := by
  intro i b hb
  rcases hstep i b hb with h1 | h1 | ⟨b0, h0, hm, e1, e2, e3, e4⟩
  · exact Or.inl h1
  · exact Or.inr h1
  · rcases h i b0 h0 with h2 | ⟨x, y, hx, hy, e5, e6⟩
    · exact absurd h2 hm
    · exact Or.inr ⟨x, y, by rw [e3, hx], by rw [e4, hy], by rw [e1, e5], by rw [e2, e6]⟩

end Verif.Dbvt
