import Verif.Dbvt.Model
import Mathlib.Tactic.Tauto
import Mathlib.Tactic.ByContra
import Mathlib.Data.List.Nodup
/-!
# Abstract binary trees over node indices, and their representation in the node vector

`T` is the mathematical tree of node indices.  `Rep f p t` says that the node vector (seen through
its skeleton lookup `f`) stores the tree `t` with the parent pointer of its root equal to `p`.
A context (`Ctx`) is a tree with a hole; `plug c s` fills it.  Nothing here is part of the model of
the code: it is proof machinery.
-/
namespace Verif.Dbvt

variable {V B S : Type}

/-- Shape of the stored tree: leaves and branches carry their node index. -/
inductive T where
  | leaf (i : Nat)
  | node (i : Nat) (l r : T)
  deriving Repr, DecidableEq

namespace T
/-- index of the top node -/
def root : T → Nat
  | leaf i => i
  | node i _ _ => i
/-- all node indices -/
def idxs : T → List Nat
  | leaf i => [i]
  | node i l r => i :: (l.idxs ++ r.idxs)
/-- indices of the leaves, left to right -/
def leaves : T → List Nat
  | leaf i => [i]
  | node _ l r => l.leaves ++ r.leaves
/-- number of levels -/
def height : T → Nat
  | leaf _ => 1
  | node _ l r => 1 + max l.height r.height
/-- level of index `j` (0 for the root and for absent indices) -/
def dep : T → Nat → Nat
  | leaf _, _ => 0
  | node i l r, j => if i = j then 0 else if j ∈ l.idxs then 1 + l.dep j
      else if j ∈ r.idxs then 1 + r.dep j else 0

@[simp] theorem root_leaf (i : Nat) : (leaf i).root = i := rfl
@[simp] theorem root_node (i : Nat) (l r : T) : (node i l r).root = i := rfl
@[simp] theorem idxs_leaf (i : Nat) : (leaf i).idxs = [i] := rfl
@[simp] theorem idxs_node (i : Nat) (l r : T) : (node i l r).idxs = i :: (l.idxs ++ r.idxs) := rfl
@[simp] theorem leaves_leaf (i : Nat) : (leaf i).leaves = [i] := rfl
@[simp] theorem leaves_node (i : Nat) (l r : T) : (node i l r).leaves = l.leaves ++ r.leaves := rfl
@[simp] theorem height_leaf (i : Nat) : (leaf i).height = 1 := rfl
@[simp] theorem height_node (i : Nat) (l r : T) :
    (node i l r).height = 1 + max l.height r.height := rfl

@[simp] theorem root_mem (t : T) : t.root ∈ t.idxs := by cases t <;> simp

theorem idxs_length (t : T) : t.idxs.length + 1 = 2 * t.leaves.length := by
  induction t with
  | leaf i => simp
  | node i l r ihl ihr => simp; omega

theorem leaves_pos (t : T) : 0 < t.leaves.length := by
  have := t.idxs_length; omega

theorem leaves_subset {t : T} {j : Nat} (h : j ∈ t.leaves) : j ∈ t.idxs := by
  induction t with
  | leaf i => simpa using h
  | node i l r ihl ihr => simp at h ⊢; tauto

theorem leaves_nodup {t : T} (h : t.idxs.Nodup) : t.leaves.Nodup := by
  induction t with
  | leaf i => simp
  | node i l r ihl ihr =>
    simp only [idxs_node, List.nodup_cons, List.nodup_append] at h
    simp only [leaves_node, List.nodup_append]
    refine ⟨ihl h.2.1, ihr h.2.2.1, fun a ha b hb => h.2.2.2 a (leaves_subset ha) b (leaves_subset hb)⟩

theorem height_pos (t : T) : 0 < t.height := by cases t <;> simp; omega

theorem height_le_leaves (t : T) : t.height ≤ t.leaves.length := by
  induction t with
  | leaf i => simp
  | node i l r ihl ihr =>
    have := l.leaves_pos; have := r.leaves_pos
    simp; omega

theorem leaves_le_pow (t : T) : t.leaves.length ≤ 2 ^ (t.height - 1) := by
  induction t with
  | leaf i => simp
  | node i l r ihl ihr =>
    have hl := l.height_pos; have hr := r.height_pos
    simp only [leaves_node, List.length_append, height_node]
    have e : 1 + max l.height r.height - 1 = max l.height r.height - 1 + 1 := by omega
    rw [e, Nat.pow_succ]
    have h1 : 2 ^ (l.height - 1) ≤ 2 ^ (max l.height r.height - 1) :=
      Nat.pow_le_pow_right (by omega) (by omega)
    have h2 : 2 ^ (r.height - 1) ≤ 2 ^ (max l.height r.height - 1) :=
      Nat.pow_le_pow_right (by omega) (by omega)
    omega

theorem dep_lt (t : T) (j : Nat) : t.dep j < t.idxs.length := by
  induction t with
  | leaf i => simp [dep]
  | node i l r ihl ihr =>
    simp only [dep, idxs_node, List.length_cons, List.length_append]
    split
    · omega
    · split
      · omega
      · split <;> omega

theorem dep_root (t : T) : t.dep t.root = 0 := by cases t <;> simp [dep]

theorem dep_pos {t : T} {j : Nat} (h : j ∈ t.idxs) (hr : j ≠ t.root) : 0 < t.dep j := by
  cases t with
  | leaf i => simp at h hr; omega
  | node i l r =>
    simp only [root_node] at hr
    simp only [idxs_node, List.mem_cons, List.mem_append] at h
    have : i ≠ j := fun e => hr e.symm
    simp only [dep, this, if_false]
    split
    · omega
    · split
      · omega
      · grind

theorem dep_absent {t : T} {j : Nat} (h : j ∉ t.idxs) : t.dep j = 0 := by
  cases t with
  | leaf i => rfl
  | node i l r =>
    simp only [idxs_node, List.mem_cons, List.mem_append, not_or] at h
    simp [dep, h.2.1, h.2.2]

end T

/-! ## Skeletons -/

/-- A node without payload. -/
inductive Skel where
  | branch (parent left right : Nat)
  | leaf (parent : Nat)
  | nil
  deriving Repr, DecidableEq

def Node.skel : Node B → Skel
  | .branch b => .branch b.parent b.left b.right
  | .leaf l => .leaf l.parent
  | .nil => .nil

def Skel.setParent (p : Nat) : Skel → Skel
  | .branch _ l r => .branch p l r
  | .leaf _ => .leaf p
  | .nil => .nil

def Skel.setLeafParent (p : Nat) : Skel → Skel
  | .leaf _ => .leaf p
  | n => n

def Skel.replaceChild (a b : Nat) : Skel → Skel
  | .branch p l r => if l = a then .branch p b r else .branch p l b
  | n => n

def skelAt (ns : List (Node B)) (i : Nat) : Option Skel := (ns[i]?).map Node.skel

@[simp] theorem skel_setParent (p : Nat) (n : Node B) : (n.setParent p).skel = n.skel.setParent p := by
  cases n <;> rfl
@[simp] theorem skel_setLeafParent (p : Nat) (n : Node B) :
    (n.setLeafParent p).skel = n.skel.setLeafParent p := by
  cases n <;> rfl
@[simp] theorem skel_setValue (p : Nat) (n : Node B) : (n.setValue p).skel = n.skel := by
  cases n <;> rfl
@[simp] theorem skel_setHB (h : Nat) (b : B) (n : Node B) : (n.setHB h b).skel = n.skel := by
  cases n <;> rfl
@[simp] theorem skel_setLeafBound (b : B) (n : Node B) : (n.setLeafBound b).skel = n.skel := by
  cases n <;> rfl
@[simp] theorem skel_replaceChild (a b : Nat) (n : Node B) :
    (n.replaceChild a b).skel = n.skel.replaceChild a b := by
  cases n with
  | branch br => by_cases h : br.left = a <;> simp [Node.replaceChild, Node.skel, Skel.replaceChild, h]
  | leaf l => rfl
  | nil => rfl

theorem getElem?_modify' (ns : List (Node B)) (i j : Nat) (f : Node B → Node B) :
    (ns.modify i f)[j]? = if i = j then (ns[j]?).map f else ns[j]? := by
  rw [List.getElem?_modify]
  split <;> simp_all

theorem skelAt_modify (ns : List (Node B)) (i j : Nat) (f : Node B → Node B) :
    skelAt (ns.modify i f) j = if i = j then ((ns[j]?).map f).map Node.skel else skelAt ns j := by
  unfold skelAt
  rw [getElem?_modify']
  split <;> rfl

theorem skelAt_modify_of (ns : List (Node B)) (i j : Nat) (f : Node B → Node B) (g : Skel → Skel)
    (h : ∀ n : Node B, (f n).skel = g n.skel) :
    skelAt (ns.modify i f) j = if i = j then (skelAt ns j).map g else skelAt ns j := by
  rw [skelAt_modify]
  split
  · unfold skelAt; cases ns[j]? <;> simp [h]
  · rfl

theorem skelAt_modify_id (ns : List (Node B)) (i : Nat) (f : Node B → Node B)
    (h : ∀ n : Node B, (f n).skel = n.skel) : skelAt (ns.modify i f) = skelAt ns := by
  funext j
  rw [skelAt_modify_of ns i j f id (by simpa using h)]
  simp

theorem skelAt_lt {ns : List (Node B)} {i : Nat} {k : Skel} (h : skelAt ns i = some k) :
    i < ns.length := by
  unfold skelAt at h
  by_contra hc
  rw [List.getElem?_eq_none (by omega)] at h
  simp at h

theorem skelAt_branch {ns : List (Node B)} {i p l r : Nat}
    (h : skelAt ns i = some (.branch p l r)) :
    ∃ b : Branch B, ns[i]? = some (.branch b) ∧ b.parent = p ∧ b.left = l ∧ b.right = r := by
  unfold skelAt at h
  cases hn : ns[i]? with
  | none => rw [hn] at h; simp at h
  | some n =>
    rw [hn] at h
    cases n with
    | branch b => simp [Node.skel] at h; exact ⟨b, rfl, h.1, h.2.1, h.2.2⟩
    | leaf l => simp [Node.skel] at h
    | nil => simp [Node.skel] at h

theorem skelAt_leaf {ns : List (Node B)} {i p : Nat} (h : skelAt ns i = some (.leaf p)) :
    ∃ b : Leaf B, ns[i]? = some (.leaf b) ∧ b.parent = p := by
  unfold skelAt at h
  cases hn : ns[i]? with
  | none => rw [hn] at h; simp at h
  | some n =>
    rw [hn] at h
    cases n with
    | branch b => simp [Node.skel] at h
    | leaf l => simp [Node.skel] at h; exact ⟨l, rfl, h⟩
    | nil => simp [Node.skel] at h

theorem skelAt_nil {ns : List (Node B)} {i : Nat} (h : skelAt ns i = some .nil) :
    ns[i]? = some .nil := by
  unfold skelAt at h
  cases hn : ns[i]? with
  | none => rw [hn] at h; simp at h
  | some n =>
    rw [hn] at h
    cases n with
    | branch b => simp [Node.skel] at h
    | leaf l => simp [Node.skel] at h
    | nil => rfl

theorem skelAt_of_branch {ns : List (Node B)} {i : Nat} {b : Branch B}
    (h : ns[i]? = some (.branch b)) : skelAt ns i = some (.branch b.parent b.left b.right) := by
  simp [skelAt, h, Node.skel]

theorem skelAt_of_leaf {ns : List (Node B)} {i : Nat} {b : Leaf B}
    (h : ns[i]? = some (.leaf b)) : skelAt ns i = some (.leaf b.parent) := by
  simp [skelAt, h, Node.skel]

theorem skelAt_of_nil {ns : List (Node B)} {i : Nat}
    (h : ns[i]? = some .nil) : skelAt ns i = some .nil := by
  simp [skelAt, h, Node.skel]

/-! ## Representation -/

/-- The lookup `f` stores tree `t`, whose top node has parent pointer `p`. -/
def Rep (f : Nat → Option Skel) : Nat → T → Prop
  | p, .leaf i => f i = some (.leaf p)
  | p, .node i l r => f i = some (.branch p l.root r.root) ∧ Rep f i l ∧ Rep f i r

theorem Rep.congr {f g : Nat → Option Skel} {p : Nat} {t : T} (h : ∀ i ∈ t.idxs, g i = f i)
    (hr : Rep f p t) : Rep g p t := by
  induction t generalizing p with
  | leaf i => simpa [Rep, h i (by simp)] using hr
  | node i l r ihl ihr =>
    refine ⟨by rw [h i (by simp)]; exact hr.1, ihl (fun j hj => h j (by simp [hj])) hr.2.1,
      ihr (fun j hj => h j (by simp [hj])) hr.2.2⟩

theorem Rep.reparent {f g : Nat → Option Skel} {p q : Nat} {t : T} (hn : t.idxs.Nodup)
    (h : ∀ i ∈ t.idxs, i ≠ t.root → g i = f i)
    (h0 : g t.root = (f t.root).map (Skel.setParent q))
    (hr : Rep f p t) : Rep g q t := by
  cases t with
  | leaf i =>
    simp only [Rep, T.root_leaf] at *
    rw [h0, hr]; rfl
  | node i l r =>
    simp only [T.root_node, T.idxs_node, List.nodup_cons, List.mem_append, not_or, List.mem_cons] at *
    obtain ⟨h1, h2, h3⟩ := hr
    refine ⟨by rw [h0, h1]; rfl, h2.congr fun j hj => h j (by simp [hj]) ?_,
      h3.congr fun j hj => h j (by simp [hj]) ?_⟩
    · rintro rfl; exact hn.1.1 hj
    · rintro rfl; exact hn.1.2 hj

theorem Rep.some {f : Nat → Option Skel} {p : Nat} {t : T} (hr : Rep f p t) :
    ∀ i ∈ t.idxs, ∃ k, f i = Option.some k ∧ k ≠ .nil := by
  induction t generalizing p with
  | leaf i => intro j hj; simp at hj; subst hj; exact ⟨_, hr, by simp⟩
  | node i l r ihl ihr =>
    intro j hj
    simp only [T.idxs_node, List.mem_cons, List.mem_append] at hj
    rcases hj with rfl | hj | hj
    · exact ⟨_, hr.1, by simp⟩
    · exact ihl hr.2.1 j hj
    · exact ihr hr.2.2 j hj

theorem Rep.unique {f : Nat → Option Skel} {p q : Nat} {t u : T} (ht : Rep f p t) (hu : Rep f q u)
    (h : t.root = u.root) : t = u := by
  induction t generalizing p q u with
  | leaf i =>
    cases u with
    | leaf j => simp at h; rw [h]
    | node j l r => simp only [T.root_leaf, T.root_node] at h; subst h; rw [Rep, hu.1] at ht; simp at ht
  | node i l r ihl ihr =>
    cases u with
    | leaf j => simp only [T.root_leaf, T.root_node] at h; subst h; rw [Rep, ht.1] at hu; simp at hu
    | node j l' r' =>
      simp only [T.root_node] at h; subst h
      obtain ⟨h1, h2, h3⟩ := ht
      obtain ⟨g1, g2, g3⟩ := hu
      rw [h1] at g1
      simp only [Option.some.injEq, Skel.branch.injEq] at g1
      rw [ihl h2 g2 g1.2.1, ihr h3 g3 g1.2.2]

/-- A leaf of the tree is stored as a leaf. -/
theorem Rep.leaf_iff {f : Nat → Option Skel} {p : Nat} {t : T} (hr : Rep f p t)
    (i : Nat) (hi : i ∈ t.idxs) (hnd : t.idxs.Nodup) :
    i ∈ t.leaves ↔ ∃ q, f i = Option.some (.leaf q) := by
  induction t generalizing p with
  | leaf j => simp at hi; subst hi; simp only [T.leaves_leaf, List.mem_singleton, true_iff]; exact ⟨_, hr⟩
  | node j l r ihl ihr =>
    simp only [T.idxs_node, List.mem_cons, List.mem_append, List.nodup_cons, not_or,
      List.nodup_append] at hi hnd
    obtain ⟨⟨hjl, hjr⟩, hl, hr', hd⟩ := hnd
    simp only [T.leaves_node, List.mem_append]
    rcases hi with rfl | hi | hi
    · constructor
      · rintro (h | h)
        · exact absurd (T.leaves_subset h) hjl
        · exact absurd (T.leaves_subset h) hjr
      · rintro ⟨q, hq⟩; rw [hr.1] at hq; simp at hq
    · rw [← ihl hr.2.1 hi hl]
      constructor
      · rintro (h | h)
        · exact h
        · exact absurd rfl (hd i hi i (T.leaves_subset h))
      · exact Or.inl
    · rw [← ihr hr.2.2 hi hr']
      constructor
      · rintro (h | h)
        · exact absurd rfl (hd i (T.leaves_subset h) i hi)
        · exact h
      · exact Or.inr

/-! ## Contexts -/

/-- One step of a path: the hole is the left (right) child of branch `i`. -/
inductive Frame where
  | left (i : Nat) (r : T)
  | right (i : Nat) (l : T)
  deriving Repr

abbrev Ctx := List Frame

def Frame.idx : Frame → Nat
  | .left i _ => i
  | .right i _ => i

def Frame.idxs : Frame → List Nat
  | .left i r => i :: r.idxs
  | .right i l => i :: l.idxs

def Frame.sib : Frame → T
  | .left _ r => r
  | .right _ l => l

/-- Innermost frame first. -/
def plug : Ctx → T → T
  | [], s => s
  | .left i r :: c, s => plug c (.node i s r)
  | .right i l :: c, s => plug c (.node i l s)

def Ctx.idxs : Ctx → List Nat
  | [] => []
  | f :: c => f.idxs ++ Ctx.idxs c

def Ctx.parent : Ctx → Nat
  | [] => 0
  | f :: _ => f.idx

/-- The context is stored, with the hole pointer equal to `h`. -/
def RepCtx (f : Nat → Option Skel) : Ctx → Nat → Prop
  | [], _ => True
  | .left i r :: c, h => f i = some (.branch (Ctx.parent c) h r.root) ∧ Rep f i r ∧ RepCtx f c i
  | .right i l :: c, h => f i = some (.branch (Ctx.parent c) l.root h) ∧ Rep f i l ∧ RepCtx f c i

theorem rep_plug {f : Nat → Option Skel} (c : Ctx) (s : T) :
    Rep f 0 (plug c s) ↔ RepCtx f c s.root ∧ Rep f (Ctx.parent c) s := by
  induction c generalizing s with
  | nil => simp [plug, RepCtx, Ctx.parent]
  | cons fr c ih =>
    cases fr with
    | left i r => simp only [plug, ih, RepCtx, Ctx.parent, Rep, T.root_node, Frame.idx]; tauto
    | right i l => simp only [plug, ih, RepCtx, Ctx.parent, Rep, T.root_node, Frame.idx]; tauto

theorem RepCtx.congr {f g : Nat → Option Skel} {c : Ctx} {h : Nat}
    (hc : ∀ i ∈ Ctx.idxs c, g i = f i) (hr : RepCtx f c h) : RepCtx g c h := by
  induction c generalizing h with
  | nil => trivial
  | cons fr c ih =>
    cases fr with
    | left i r =>
      refine ⟨by rw [hc i (by simp [Ctx.idxs, Frame.idxs])]; exact hr.1,
        hr.2.1.congr fun j hj => hc j (by simp [Ctx.idxs, Frame.idxs, hj]),
        ih (fun j hj => hc j (by simp [Ctx.idxs, hj])) hr.2.2⟩
    | right i r =>
      refine ⟨by rw [hc i (by simp [Ctx.idxs, Frame.idxs])]; exact hr.1,
        hr.2.1.congr fun j hj => hc j (by simp [Ctx.idxs, Frame.idxs, hj]),
        ih (fun j hj => hc j (by simp [Ctx.idxs, hj])) hr.2.2⟩

theorem plug_perm (c : Ctx) (s : T) : (plug c s).idxs.Perm (s.idxs ++ Ctx.idxs c) := by
  induction c generalizing s with
  | nil => simp [plug, Ctx.idxs]
  | cons fr c ih =>
    cases fr with
    | left i r =>
      refine (ih _).trans ?_
      simp only [T.idxs_node, Ctx.idxs, Frame.idxs, List.cons_append, List.append_assoc]
      exact List.perm_middle.symm
    | right i l =>
      refine (ih _).trans ?_
      simp only [T.idxs_node, Ctx.idxs, Frame.idxs, List.cons_append, List.append_assoc]
      refine List.Perm.trans ?_ (List.perm_middle.symm)
      refine List.Perm.cons i ?_
      rw [← List.append_assoc, ← List.append_assoc]
      exact List.Perm.append_right _ List.perm_append_comm

theorem plug_leaves_perm (c : Ctx) (s s' : T) (h : s'.leaves.Perm s.leaves) :
    (plug c s').leaves.Perm (plug c s).leaves := by
  induction c generalizing s s' with
  | nil => exact h
  | cons fr c ih =>
    cases fr with
    | left i r => exact ih _ _ (by simpa using h.append_right _)
    | right i l => exact ih _ _ (by simpa using h.append_left _)

theorem mem_plug {c : Ctx} {s : T} {i : Nat} : i ∈ (plug c s).idxs ↔ i ∈ s.idxs ∨ i ∈ Ctx.idxs c := by
  rw [(plug_perm c s).mem_iff, List.mem_append]

theorem plug_root_mem (c : Ctx) (s : T) : (plug c s).root ∈ (plug c s).idxs := T.root_mem _

/-- Every index of a tree can be focused. -/
theorem exists_focus (t : T) (i : Nat) (h : i ∈ t.idxs) :
    ∃ c s, t = plug c s ∧ s.root = i := by
  suffices ∀ (c0 : Ctx), ∃ c s, plug c0 t = plug c s ∧ s.root = i by simpa [plug] using this []
  induction t with
  | leaf j =>
    intro c0
    simp at h
    exact ⟨c0, .leaf j, rfl, h.symm⟩
  | node j l r ihl ihr =>
    intro c0
    simp only [T.idxs_node, List.mem_cons, List.mem_append] at h
    rcases h with rfl | h | h
    · exact ⟨c0, .node i l r, rfl, rfl⟩
    · exact ihl h (.left j r :: c0)
    · exact ihr h (.right j l :: c0)

theorem plug_root (c : Ctx) (s s' : T) (h : s'.root = s.root) : (plug c s').root = (plug c s).root := by
  induction c generalizing s s' with
  | nil => exact h
  | cons fr c ih =>
    cases fr with
    | left i r => exact ih _ _ rfl
    | right i r => exact ih _ _ rfl

theorem plug_root_cons (fr : Frame) (c : Ctx) (s s' : T) :
    (plug (fr :: c) s').root = (plug (fr :: c) s).root := by
  cases fr with
  | left i r => exact plug_root c _ _ rfl
  | right i r => exact plug_root c _ _ rfl

theorem dep_plug_in (c : Ctx) (s : T) (j : Nat) (h : j ∈ s.idxs) (hnd : (plug c s).idxs.Nodup) :
    (plug c s).dep j = c.length + s.dep j := by
  induction c generalizing s with
  | nil => simp [plug]
  | cons fr c ih =>
    have hp := (plug_perm (fr :: c) s).nodup_iff.1 hnd
    cases fr with
    | left i r =>
      simp only [plug] at hnd ⊢
      rw [ih (.node i s r) (by simp [h]) hnd]
      simp only [Ctx.idxs, Frame.idxs, List.nodup_append, List.mem_append, List.mem_cons] at hp
      have hne : i ≠ j := fun e => hp.2.2 j h i (by simp) e.symm
      simp only [T.dep, hne, if_false, h, if_true, List.length_cons]
      omega
    | right i l =>
      simp only [plug] at hnd ⊢
      rw [ih (.node i l s) (by simp [h]) hnd]
      simp only [Ctx.idxs, Frame.idxs, List.nodup_append, List.mem_append, List.mem_cons] at hp
      have hne : i ≠ j := fun e => hp.2.2 j h i (by simp) e.symm
      have hnl : j ∉ l.idxs := fun e => hp.2.2 j h j (by simp [e]) rfl
      simp only [T.dep, hne, if_false, h, if_true, hnl, List.length_cons]
      omega

theorem dep_plug_out (c : Ctx) (s s' : T) (j : Nat) (h : j ∉ s.idxs) (h' : j ∉ s'.idxs) :
    (plug c s').dep j = (plug c s).dep j := by
  suffices ∀ (u u' : T), (∀ k, k = j → (k ∈ u'.idxs ↔ k ∈ u.idxs)) → u'.dep j = u.dep j →
      (plug c u').dep j = (plug c u).dep j by
    refine this s s' ?_ ?_
    · rintro k rfl; simp [h, h']
    · rw [T.dep_absent h, T.dep_absent h']
  induction c with
  | nil => intro u u' _ h; exact h
  | cons fr c ih =>
    intro u u' hm hd
    have hmj := hm j rfl
    cases fr with
    | left i r =>
      refine ih _ _ ?_ ?_
      · rintro k rfl; simp [hmj]
      · simp only [T.dep, hmj, hd]
    | right i l =>
      refine ih _ _ ?_ ?_
      · rintro k rfl; simp [hmj]
      · simp only [T.dep, hmj, hd]

end Verif.Dbvt
