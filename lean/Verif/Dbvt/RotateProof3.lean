import Verif.Dbvt.RotateProof2
/-!
# `rotate` (proof machinery): never panics, keeps every invariant
-/
namespace Verif.Dbvt
open Verif

variable {V B S : Type}

/-- A rotation may be chosen only when the children it opens are branches. -/
def Rotation.fits (lleaf rleaf : Bool) : Rotation → Prop
  | .none => True
  | .leftRightLeft => rleaf = false
  | .leftRightRight => rleaf = false
  | .rightLeftLeft => lleaf = false
  | .rightLeftRight => lleaf = false
  | .leftLeftRightLeft => lleaf = false ∧ rleaf = false
  | .leftLeftRightRight => lleaf = false ∧ rleaf = false

theorem better_fits {O : Ops V B S} {lleaf rleaf : Bool} {r : Rotation} {x : S} {c : Rotation × S}
    (hr : r.fits lleaf rleaf) (hc : c.1.fits lleaf rleaf) : (better O r x c).1.fits lleaf rleaf := by
  unfold better; split
  · exact hr
  · exact hc

theorem bestRotation_fits (O : Ops V B S) {ns : List (Node B)} {li ri : Nat} {lb rb : B}
    (h1 : boundAt ns li = .ok lb) (h2 : boundAt ns ri = .ok rb) {lleaf rleaf : Bool}
    (h3 : lleaf = false → ∃ p, childBounds ns li = .ok p)
    (h4 : rleaf = false → ∃ p, childBounds ns ri = .ok p) (area : S) :
    ∃ rot x, bestRotation O ns li ri area lleaf rleaf = .ok (rot, x) ∧ rot.fits lleaf rleaf := by
  cases lleaf <;> cases rleaf
  · obtain ⟨p, hp⟩ := h3 rfl
    obtain ⟨q, hq⟩ := h4 rfl
    simp only [bestRotation, h1, h2, hp, hq, Res.bind_ok, Bool.not_false, if_true, Res.pure_eq]
    refine ⟨_, _, rfl, ?_⟩
    refine better_fits rfl (better_fits rfl (better_fits ⟨rfl, rfl⟩ (better_fits ⟨rfl, rfl⟩
      (better_fits rfl (better_fits rfl trivial)))))
  · obtain ⟨p, hp⟩ := h3 rfl
    simp only [bestRotation, h1, h2, hp, Res.bind_ok, Bool.not_false, Bool.not_true, if_true, Res.pure_eq]
    refine ⟨_, _, rfl, ?_⟩
    exact better_fits rfl (better_fits rfl trivial)
  · obtain ⟨q, hq⟩ := h4 rfl
    simp only [bestRotation, h1, h2, hq, Res.bind_ok, Bool.not_false, Bool.not_true, if_true, Res.pure_eq]
    refine ⟨_, _, rfl, ?_⟩
    exact better_fits rfl (better_fits rfl trivial)
  · simp only [bestRotation, h1, h2, Res.bind_ok, Bool.not_true, Res.pure_eq]
    exact ⟨_, _, rfl, trivial⟩

theorem childBounds_ok {ns : List (Node B)} {root : Nat} {t : T} (h : Shape ns root t) {i : Nat}
    {b : Branch B} (hb : ns[i]? = some (.branch b)) : ∃ p, childBounds ns i = .ok p := by
  obtain ⟨-, hl, hr, -⟩ := h.children hb
  obtain ⟨n, bd, hn, e, -⟩ := h.nodeAt_child hl
  obtain ⟨n', bd', hn', e', -⟩ := h.nodeAt_child hr
  exact ⟨(bd, bd'), by simp [childBounds, nodeAt_some hb, boundAt_ok hn, boundAt_ok hn', e, e']⟩

/-- What `rotate` guarantees. -/
structure Rotated (O : Ops V B S) (ns : List (Node B)) (root : Nat) (t : T) (i : Nat)
    (ns' : List (Node B)) (t' : T) : Prop where
  run : rotate O ns i = .ok ns'
  shape : Shape ns' root t'
  perm : t'.idxs.Perm t.idxs
  leaves : t'.leaves.Perm t.leaves
  dep : ∀ j, t'.dep j = t.dep j ∨ (t.dep i < t.dep j ∧ t'.dep j ≤ t.dep j + 1)
  len : ns'.length = ns.length
  leaf : ∀ j, leafAt ns' j = leafAt ns j
  ok : ∀ M : Nat → Prop, OKExcept O M ns →
    OKExcept O (fun j => M j ∨ ∃ b : Branch B, ns[i]? = some (.branch b) ∧ j = b.parent) ns'

theorem Rotated.refl {O : Ops V B S} {ns : List (Node B)} {root : Nat} {t : T} {i : Nat}
    (h : Shape ns root t) (hr : rotate O ns i = .ok ns) : Rotated O ns root t i ns t :=
  ⟨hr, h, .refl _, .refl _, fun _ => Or.inl rfl, rfl, fun _ => rfl, fun M hM j b hb =>
    (hM j b hb).imp Or.inl id⟩

theorem Rotated.of_out {O : Ops V B S} {ns ns' : List (Node B)} {root : Nat} {c : Ctx} {s s' : T}
    {b : Branch B} (hsh : Shape ns root (plug c s))
    (hb : ns[s.root]? = some (.branch b)) (hp : b.parent = Ctx.parent c)
    (hr : rotate O ns s.root = .ok ns')
    (ho : RotOut O ns ns' root c s s') : Rotated O ns root (plug c s) s.root ns' (plug c s') := by
  have hperm := ho.rot.perm
  have hpm := (plug_perm c s).nodup_iff.1 hsh.nodup
  rw [List.nodup_append] at hpm
  have hn' := ho.shape.nodup
  refine ⟨hr, ho.shape, ?_, plug_leaves_perm c s s' ho.rot.leaves_perm, ?_, ho.len, ho.leaf, ?_⟩
  · exact (plug_perm c s').trans ((hperm.append_right _).trans (plug_perm c s).symm)
  · intro j
    by_cases hj : j ∈ s.idxs
    · have hj' : j ∈ s'.idxs := hperm.mem_iff.2 hj
      rw [dep_plug_in c s j hj hsh.nodup, dep_plug_in c s' j hj' hn',
        dep_plug_in c s s.root s.root_mem hsh.nodup, T.dep_root]
      by_cases hjr : j = s.root
      · left; subst hjr; rw [T.dep_root, ← ho.rot.root, T.dep_root]
      · right
        have := T.dep_pos hj hjr
        have := ho.rot.dep_le hpm.1 j
        omega
    · left
      exact dep_plug_out c s s' j hj (fun h => hj (hperm.mem_iff.1 h))
  · intro M hM j b' hb'
    rcases ho.ok M hM j b' hb' with (h | h) | h
    · exact Or.inl (Or.inl h)
    · exact Or.inl (Or.inr ⟨b, hb, by rw [hp]; exact h⟩)
    · exact Or.inr h

theorem rotate_spec (O : Ops V B S) {ns : List (Node B)} {root : Nat} {t : T}
    (hsh : Shape ns root t) {i : Nat} (hi : i < ns.length) :
    ∃ ns' t', Rotated O ns root t i ns' t' := by
  cases hn : ns[i]? with
  | none => rw [List.getElem?_eq_none_iff] at hn; omega
  | some n =>
    cases n with
    | leaf l => exact ⟨ns, t, .refl hsh (by simp [rotate, nodeAt_some hn])⟩
    | nil => exact ⟨ns, t, .refl hsh (by simp [rotate, nodeAt_some hn])⟩
    | branch b =>
      obtain ⟨hit, hlt, hrt, -, -, -, -, -⟩ := hsh.children hn
      obtain ⟨c, s, rfl, hsi⟩ := exists_focus t i hit
      have hrep := ((rep_plug c s).1 hsh.rep).2
      obtain ⟨ln, lb, hln, hlb, hlne⟩ := hsh.nodeAt_child hlt
      obtain ⟨rn, rb, hrn, hrb, hrne⟩ := hsh.nodeAt_child hrt
      have hcb : ∀ x n, ns[x]? = some n → n ≠ .nil → n.isLeaf = false → ∃ p, childBounds ns x = .ok p := by
        intro x n hx hne hl
        cases n with
        | branch b => exact childBounds_ok hsh hx
        | leaf l => simp [Node.isLeaf] at hl
        | nil => exact absurd rfl hne
      obtain ⟨rot, x, hbest, hfit⟩ := bestRotation_fits O (ns := ns) (li := b.left) (ri := b.right)
        (lb := lb) (rb := rb) (by rw [boundAt_ok hln, hlb]) (by rw [boundAt_ok hrn, hrb])
        (lleaf := ln.isLeaf) (rleaf := rn.isLeaf) (hcb _ _ hln hlne) (hcb _ _ hrn hrne) (O.area b.bound)
      have hrun : rotate O ns i = .ok ns ∨ rotate O ns i = doRotation O ns i b.left b.right rot := by
        simp only [rotate, nodeAt_some hn, nodeAt_some hln, nodeAt_some hrn, Res.bind_ok, hbest, Res.pure_eq]
        split
        · split
          · exact Or.inr rfl
          · exact Or.inl rfl
        · exact Or.inl rfl
      rcases hrun with hrun | hrun
      · exact ⟨ns, _, .refl hsh hrun⟩
      cases s with
      | leaf j =>
        simp at hsi; subst hsi
        simp only [Rep, skelAt_of_branch hn] at hrep
        simp at hrep
      | node j l r =>
        simp at hsi; subst hsi
        have hsk := hrep.1
        rw [skelAt_of_branch hn] at hsk
        simp only [Option.some.injEq, Skel.branch.injEq] at hsk
        obtain ⟨hp, el, er⟩ := hsk
        have fin : ∀ {ns' s'}, doRotation O ns j b.left b.right rot = .ok ns' →
            RotOut O ns ns' root c (.node j l r) s' →
            ∃ ns' t', Rotated O ns root (plug c (.node j l r)) j ns' t' := fun {ns' s'} h1 h2 =>
          ⟨ns', plug c s', Rotated.of_out (s := .node j l r) hsh hn hp (by rw [T.root_node, hrun, h1]) h2⟩
        have hleafl : ln.isLeaf = false → ∃ i' l1 l2, l = .node i' l1 l2 := by
          intro h
          cases l with
          | leaf a =>
            obtain ⟨lf, hlf, _⟩ := skelAt_leaf hrep.2.1
            rw [el, T.root_leaf, hlf] at hln
            simp at hln; subst hln; simp [Node.isLeaf] at h
          | node a l1 l2 => exact ⟨_, _, _, rfl⟩
        have hleafr : rn.isLeaf = false → ∃ i' l1 l2, r = .node i' l1 l2 := by
          intro h
          cases r with
          | leaf a =>
            obtain ⟨lf, hlf, _⟩ := skelAt_leaf hrep.2.2
            rw [er, T.root_leaf, hlf] at hrn
            simp at hrn; subst hrn; simp [Node.isLeaf] at h
          | node a l1 l2 => exact ⟨_, _, _, rfl⟩
        rw [el, er] at fin
        cases rot with
        | none =>
          exact ⟨ns, _, .refl hsh (by rw [hrun]; rfl)⟩
        | leftRightLeft =>
          obtain ⟨a, r1, r2, rfl⟩ := hleafr hfit
          obtain ⟨ns', h1, h2⟩ := rot_lrl O c j a l r1 r2 hsh
          exact fin h1 h2
        | leftRightRight =>
          obtain ⟨a, r1, r2, rfl⟩ := hleafr hfit
          obtain ⟨ns', h1, h2⟩ := rot_lrr O c j a l r1 r2 hsh
          exact fin h1 h2
        | rightLeftLeft =>
          obtain ⟨a, r1, r2, rfl⟩ := hleafl hfit
          obtain ⟨ns', h1, h2⟩ := rot_rll O c j a r1 r2 r hsh
          exact fin h1 h2
        | rightLeftRight =>
          obtain ⟨a, r1, r2, rfl⟩ := hleafl hfit
          obtain ⟨ns', h1, h2⟩ := rot_rlr O c j a r1 r2 r hsh
          exact fin h1 h2
        | leftLeftRightLeft =>
          obtain ⟨a, r1, r2, rfl⟩ := hleafl hfit.1
          obtain ⟨a', r1', r2', rfl⟩ := hleafr hfit.2
          obtain ⟨ns', h1, h2⟩ := rot_llrl O c j a a' r1 r2 r1' r2' hsh
          exact fin h1 h2
        | leftLeftRightRight =>
          obtain ⟨a, r1, r2, rfl⟩ := hleafl hfit.1
          obtain ⟨a', r1', r2', rfl⟩ := hleafr hfit.2
          obtain ⟨ns', h1, h2⟩ := rot_llrr O c j a a' r1 r2 r1' r2' hsh
          exact fin h1 h2

end Verif.Dbvt
