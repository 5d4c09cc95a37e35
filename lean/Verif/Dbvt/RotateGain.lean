import Verif.Dbvt.RotateProof3
/-!
# What a rotation does to the volume of the rotated node (for C18)
-/
namespace Verif.Dbvt
open Verif

variable {V B S : Type}

/-- The stored volume of node `j`. -/
def bdAt (ns : List (Node B)) (j : Nat) : Option B := (hbAt ns j).map Prod.snd

theorem bdAt_eq {ns : List (Node B)} {j : Nat} {x : B} : bdAt ns j = some x ↔ boundAt ns j = .ok x := by
  unfold boundAt nodeAt bdAt hbAt
  cases hn : ns[j]? with
  | none => simp [Res.ofOption]
  | some n => cases n <;> simp [Res.ofOption, Node.getBound, Node.hb]

theorem bdAt_branch {ns : List (Node B)} {j : Nat} {b : Branch B} (h : ns[j]? = some (.branch b)) :
    bdAt ns j = some b.bound := by simp [bdAt, hbAt, h, Node.hb]

/-- `recalculate_node` stores the union of the volumes of the two children, and touches no other volume. -/
theorem recalc'_bd (O : Ops V B S) {ns ns' : List (Node B)} {i q x y : Nat} (hb : skelAt ns i = some (.branch q x y))
    (h : recalc' O ns i = .ok ns') :
    ∃ bx by', bdAt ns x = some bx ∧ bdAt ns y = some by' ∧ bdAt ns' i = some (O.union bx by') ∧
      (∀ j, j ≠ i → bdAt ns' j = bdAt ns j) := by
  obtain ⟨b, hb', -, rfl, rfl⟩ := skelAt_branch hb
  unfold recalc' recalc at h
  simp only [nodeAt_some hb', Res.bind_ok, Res.bind_eq_ok, Res.pure_eq] at h
  obtain ⟨p, ⟨ln, hl, lb, hlb, rn, hr, rb, hrb, ns2, hm, e⟩, e2⟩ := h
  simp at e e2
  subst e; simp at e2; subst e2
  have hi := lt_of_getElem? hb'
  rw [modNode_ok _ hi] at hm
  simp at hm; subst hm
  refine ⟨lb, rb, bdAt_eq.2 (by simp [boundAt, hl, hlb]), bdAt_eq.2 (by simp [boundAt, hr, hrb]), ?_, ?_⟩
  · unfold bdAt hbAt
    rw [getElem?_modify', if_pos rfl, hb']
    simp [Node.setHB, Node.hb]
  · intro j hj
    unfold bdAt hbAt
    rw [getElem?_modify', if_neg (Ne.symm hj)]

theorem bd_congr {ns ns' : List (Node B)} {j : Nat} (h : hbAt ns' j = hbAt ns j) : bdAt ns' j = bdAt ns j := by
  unfold bdAt; rw [h]

theorem bd_lrl (O : Ops V B S) {ns ns' : List (Node B)} {root : Nat} (c : Ctx) (i r : Nat) (l rl rr : T)
    (h : Shape ns root (plug c (.node i l (.node r rl rr))))
    (hd : doRotation O ns i l.root r .leftRightLeft = .ok ns') :
    ∃ bl brl brr : B, bdAt ns l.root = some bl ∧ bdAt ns rl.root = some brl ∧ bdAt ns rr.root = some brr ∧
      bdAt ns' i = some (O.union brl (O.union bl brr)) := by
  have hrep := ((rep_plug c _).1 h.rep).2
  have hpm := (plug_perm c (.node i l (.node r rl rr) : T)).nodup_iff.1 h.nodup
  rw [List.nodup_append] at hpm
  have hn := hpm.1
  have hmem : ∀ j ∈ (.node i l (.node r rl rr) : T).idxs, j < ns.length := fun j hj =>
    h.mem_lt (mem_plug.2 (Or.inl hj))
  have hn' := hn
  simp only [T.idxs_node, List.nodup_cons, List.nodup_append, List.mem_cons, List.mem_append] at hn
  have r_l := l.root_mem
  have r_rl := rl.root_mem
  have r_rr := rr.root_mem
  obtain ⟨ns1, hrun, hlen1, h_lp, h_rp, h_ls, h_rs, ho, hhb, -, -⟩ :=
    swapNodes_spec (V := V) (S := S) (ns := ns) (ls := l.root) (rs := rl.root) (lp := i) (rp := r)
      (hmem _ (by simp)) (hmem _ (by simp)) (hmem _ (by simp)) (hmem _ (by simp))
      (by grind) (by grind) (by grind) (by grind) (by grind) (by grind)
  have hrep' := rep_lrl (g := skelAt ns1) i r l rl rr hn' hrep h_lp h_rp h_ls h_rs ho
  have hsh1 := h.of_rot (Rot.lrl i r l rl rr) hlen1 hrep' (by
    intro j hj
    simp only [T.idxs_node, List.mem_cons, List.mem_append] at hj
    exact ho j (by grind) (by grind) (by grind) (by grind))
  have hx0 : leftOf ns r = .ok rl.root := by
    obtain ⟨b, hb, e1, e2, e3⟩ := skelAt_branch hrep.2.2.1
    simp [leftOf, nodeAt_some hb, Node.getLeft, e2]
  simp only [doRotation, hx0, Res.bind_ok, hrun, Res.bind_eq_ok] at hd
  obtain ⟨ns2, q2, q3⟩ := hd
  obtain ⟨ns2', q2', hsh2, -, hsk2, -⟩ := recalc'_branch O hsh1 (i := r) (by exact hrep'.2.2.1)
  rw [q2] at q2'; simp at q2'; subst q2'
  obtain ⟨u1, u2, a1, a2, a3, a4⟩ := recalc'_bd O (by exact hrep'.2.2.1) q2
  obtain ⟨w1, w2, c1, c2, c3, -⟩ := recalc'_bd O (i := i) (by rw [hsk2]; exact hrep'.1) q3
  simp only [T.root_node] at a1 a2 c1 c2
  have hbd : ∀ j, bdAt ns1 j = bdAt ns j := fun j => bd_congr (hhb j)
  rw [hbd] at a1 a2
  rw [a4 _ (by grind), hbd] at c1
  rw [a3] at c2; simp at c2; subst c2
  exact ⟨u1, w1, u2, a1, c1, a2, c3⟩

theorem bd_lrr (O : Ops V B S) {ns ns' : List (Node B)} {root : Nat} (c : Ctx) (i r : Nat) (l rl rr : T)
    (h : Shape ns root (plug c (.node i l (.node r rl rr))))
    (hd : doRotation O ns i l.root r .leftRightRight = .ok ns') :
    ∃ bl brl brr : B, bdAt ns l.root = some bl ∧ bdAt ns rl.root = some brl ∧ bdAt ns rr.root = some brr ∧
      bdAt ns' i = some (O.union brr (O.union brl bl)) := by
  have hrep := ((rep_plug c _).1 h.rep).2
  have hpm := (plug_perm c (.node i l (.node r rl rr) : T)).nodup_iff.1 h.nodup
  rw [List.nodup_append] at hpm
  have hn := hpm.1
  have hmem : ∀ j ∈ (.node i l (.node r rl rr) : T).idxs, j < ns.length := fun j hj =>
    h.mem_lt (mem_plug.2 (Or.inl hj))
  have hn' := hn
  simp only [T.idxs_node, List.nodup_cons, List.nodup_append, List.mem_cons, List.mem_append] at hn
  have r_l := l.root_mem
  have r_rl := rl.root_mem
  have r_rr := rr.root_mem
  obtain ⟨ns1, hrun, hlen1, h_lp, h_rp, h_ls, h_rs, ho, hhb, -, -⟩ :=
    swapNodes_spec (V := V) (S := S) (ns := ns) (ls := l.root) (rs := rr.root) (lp := i) (rp := r)
      (hmem _ (by simp)) (hmem _ (by simp)) (hmem _ (by simp)) (hmem _ (by simp))
      (by grind) (by grind) (by grind) (by grind) (by grind) (by grind)
  have hrep' := rep_lrr (g := skelAt ns1) i r l rl rr hn' hrep h_lp h_rp h_ls h_rs ho
  have hsh1 := h.of_rot (Rot.lrr i r l rl rr) hlen1 hrep' (by
    intro j hj
    simp only [T.idxs_node, List.mem_cons, List.mem_append] at hj
    exact ho j (by grind) (by grind) (by grind) (by grind))
  have hx0 : rightOf ns r = .ok rr.root := by
    obtain ⟨b, hb, e1, e2, e3⟩ := skelAt_branch hrep.2.2.1
    simp [rightOf, nodeAt_some hb, Node.getRight, e3]
  simp only [doRotation, hx0, Res.bind_ok, hrun, Res.bind_eq_ok] at hd
  obtain ⟨ns2, q2, q3⟩ := hd
  obtain ⟨ns2', q2', hsh2, -, hsk2, -⟩ := recalc'_branch O hsh1 (i := r) (by exact hrep'.2.2.1)
  rw [q2] at q2'; simp at q2'; subst q2'
  obtain ⟨u1, u2, a1, a2, a3, a4⟩ := recalc'_bd O (by exact hrep'.2.2.1) q2
  obtain ⟨w1, w2, c1, c2, c3, -⟩ := recalc'_bd O (i := i) (by rw [hsk2]; exact hrep'.1) q3
  simp only [T.root_node] at a1 a2 c1 c2
  have hbd : ∀ j, bdAt ns1 j = bdAt ns j := fun j => bd_congr (hhb j)
  rw [hbd] at a1 a2
  rw [a4 _ (by grind), hbd] at c1
  rw [a3] at c2; simp at c2; subst c2
  exact ⟨u2, u1, w1, a2, a1, c1, c3⟩

theorem bd_rll (O : Ops V B S) {ns ns' : List (Node B)} {root : Nat} (c : Ctx) (i l : Nat) (ll lr r : T)
    (h : Shape ns root (plug c (.node i (.node l ll lr) r)))
    (hd : doRotation O ns i l r.root .rightLeftLeft = .ok ns') :
    ∃ bll blr br : B, bdAt ns ll.root = some bll ∧ bdAt ns lr.root = some blr ∧ bdAt ns r.root = some br ∧
      bdAt ns' i = some (O.union (O.union br blr) bll) := by
  have hrep := ((rep_plug c _).1 h.rep).2
  have hpm := (plug_perm c (.node i (.node l ll lr) r : T)).nodup_iff.1 h.nodup
  rw [List.nodup_append] at hpm
  have hn := hpm.1
  have hmem : ∀ j ∈ (.node i (.node l ll lr) r : T).idxs, j < ns.length := fun j hj =>
    h.mem_lt (mem_plug.2 (Or.inl hj))
  have hn' := hn
  simp only [T.idxs_node, List.nodup_cons, List.nodup_append, List.mem_cons, List.mem_append] at hn
  have r_ll := ll.root_mem
  have r_lr := lr.root_mem
  have r_r := r.root_mem
  obtain ⟨ns1, hrun, hlen1, h_lp, h_rp, h_ls, h_rs, ho, hhb, -, -⟩ :=
    swapNodes_spec (V := V) (S := S) (ns := ns) (ls := ll.root) (rs := r.root) (lp := l) (rp := i)
      (hmem _ (by simp)) (hmem _ (by simp)) (hmem _ (by simp)) (hmem _ (by simp))
      (by grind) (by grind) (by grind) (by grind) (by grind) (by grind)
  have hrep' := rep_rll (g := skelAt ns1) i l ll lr r hn' hrep h_lp h_rp h_ls h_rs ho
  have hsh1 := h.of_rot (Rot.rll i l ll lr r) hlen1 hrep' (by
    intro j hj
    simp only [T.idxs_node, List.mem_cons, List.mem_append] at hj
    exact ho j (by grind) (by grind) (by grind) (by grind))
  have hx0 : leftOf ns l = .ok ll.root := by
    obtain ⟨b, hb, e1, e2, e3⟩ := skelAt_branch hrep.2.1.1
    simp [leftOf, nodeAt_some hb, Node.getLeft, e2]
  simp only [doRotation, hx0, Res.bind_ok, hrun, Res.bind_eq_ok] at hd
  obtain ⟨ns2, q2, q3⟩ := hd
  obtain ⟨ns2', q2', hsh2, -, hsk2, -⟩ := recalc'_branch O hsh1 (i := l) (by exact hrep'.2.1.1)
  rw [q2] at q2'; simp at q2'; subst q2'
  obtain ⟨u1, u2, a1, a2, a3, a4⟩ := recalc'_bd O (by exact hrep'.2.1.1) q2
  obtain ⟨w1, w2, c1, c2, c3, -⟩ := recalc'_bd O (i := i) (by rw [hsk2]; exact hrep'.1) q3
  simp only [T.root_node] at a1 a2 c1 c2
  have hbd : ∀ j, bdAt ns1 j = bdAt ns j := fun j => bd_congr (hhb j)
  rw [hbd] at a1 a2
  rw [a4 _ (by grind), hbd] at c2
  rw [a3] at c1; simp at c1; subst c1
  exact ⟨w2, u2, u1, c2, a2, a1, c3⟩

theorem bd_rlr (O : Ops V B S) {ns ns' : List (Node B)} {root : Nat} (c : Ctx) (i l : Nat) (ll lr r : T)
    (h : Shape ns root (plug c (.node i (.node l ll lr) r)))
    (hd : doRotation O ns i l r.root .rightLeftRight = .ok ns') :
    ∃ bll blr br : B, bdAt ns ll.root = some bll ∧ bdAt ns lr.root = some blr ∧ bdAt ns r.root = some br ∧
      bdAt ns' i = some (O.union (O.union bll br) blr) := by
  have hrep := ((rep_plug c _).1 h.rep).2
  have hpm := (plug_perm c (.node i (.node l ll lr) r : T)).nodup_iff.1 h.nodup
  rw [List.nodup_append] at hpm
  have hn := hpm.1
  have hmem : ∀ j ∈ (.node i (.node l ll lr) r : T).idxs, j < ns.length := fun j hj =>
    h.mem_lt (mem_plug.2 (Or.inl hj))
  have hn' := hn
  simp only [T.idxs_node, List.nodup_cons, List.nodup_append, List.mem_cons, List.mem_append] at hn
  have r_ll := ll.root_mem
  have r_lr := lr.root_mem
  have r_r := r.root_mem
  obtain ⟨ns1, hrun, hlen1, h_lp, h_rp, h_ls, h_rs, ho, hhb, -, -⟩ :=
    swapNodes_spec (V := V) (S := S) (ns := ns) (ls := lr.root) (rs := r.root) (lp := l) (rp := i)
      (hmem _ (by simp)) (hmem _ (by simp)) (hmem _ (by simp)) (hmem _ (by simp))
      (by grind) (by grind) (by grind) (by grind) (by grind) (by grind)
  have hrep' := rep_rlr (g := skelAt ns1) i l ll lr r hn' hrep h_lp h_rp h_ls h_rs ho
  have hsh1 := h.of_rot (Rot.rlr i l ll lr r) hlen1 hrep' (by
    intro j hj
    simp only [T.idxs_node, List.mem_cons, List.mem_append] at hj
    exact ho j (by grind) (by grind) (by grind) (by grind))
  have hx0 : rightOf ns l = .ok lr.root := by
    obtain ⟨b, hb, e1, e2, e3⟩ := skelAt_branch hrep.2.1.1
    simp [rightOf, nodeAt_some hb, Node.getRight, e3]
  simp only [doRotation, hx0, Res.bind_ok, hrun, Res.bind_eq_ok] at hd
  obtain ⟨ns2, q2, q3⟩ := hd
  obtain ⟨ns2', q2', hsh2, -, hsk2, -⟩ := recalc'_branch O hsh1 (i := l) (by exact hrep'.2.1.1)
  rw [q2] at q2'; simp at q2'; subst q2'
  obtain ⟨u1, u2, a1, a2, a3, a4⟩ := recalc'_bd O (by exact hrep'.2.1.1) q2
  obtain ⟨w1, w2, c1, c2, c3, -⟩ := recalc'_bd O (i := i) (by rw [hsk2]; exact hrep'.1) q3
  simp only [T.root_node] at a1 a2 c1 c2
  have hbd : ∀ j, bdAt ns1 j = bdAt ns j := fun j => bd_congr (hhb j)
  rw [hbd] at a1 a2
  rw [a4 _ (by grind), hbd] at c2
  rw [a3] at c1; simp at c1; subst c1
  exact ⟨u1, w2, u2, a1, c2, a2, c3⟩

theorem bd_llrl (O : Ops V B S) {ns ns' : List (Node B)} {root : Nat} (c : Ctx) (i l r : Nat) (ll lr rl rr : T)
    (h : Shape ns root (plug c (.node i (.node l ll lr) (.node r rl rr))))
    (hd : doRotation O ns i l r .leftLeftRightLeft = .ok ns') :
    ∃ bll blr brl brr : B, bdAt ns ll.root = some bll ∧ bdAt ns lr.root = some blr ∧ bdAt ns rl.root = some brl ∧ bdAt ns rr.root = some brr ∧
      bdAt ns' i = some (O.union (O.union brl blr) (O.union bll brr)) := by
  have hrep := ((rep_plug c _).1 h.rep).2
  have hpm := (plug_perm c (.node i (.node l ll lr) (.node r rl rr) : T)).nodup_iff.1 h.nodup
  rw [List.nodup_append] at hpm
  have hn := hpm.1
  have hmem : ∀ j ∈ (.node i (.node l ll lr) (.node r rl rr) : T).idxs, j < ns.length := fun j hj =>
    h.mem_lt (mem_plug.2 (Or.inl hj))
  have hn' := hn
  simp only [T.idxs_node, List.nodup_cons, List.nodup_append, List.mem_cons, List.mem_append] at hn
  have r_ll := ll.root_mem
  have r_lr := lr.root_mem
  have r_rl := rl.root_mem
  have r_rr := rr.root_mem
  obtain ⟨ns1, hrun, hlen1, h_lp, h_rp, h_ls, h_rs, ho, hhb, -, -⟩ :=
    swapNodes_spec (V := V) (S := S) (ns := ns) (ls := ll.root) (rs := rl.root) (lp := l) (rp := r)
      (hmem _ (by simp)) (hmem _ (by simp)) (hmem _ (by simp)) (hmem _ (by simp))
      (by grind) (by grind) (by grind) (by grind) (by grind) (by grind)
  have hrep' := rep_llrl (g := skelAt ns1) i l r ll lr rl rr hn' hrep h_lp h_rp h_ls h_rs ho
  have hsh1 := h.of_rot (Rot.llrl i l r ll lr rl rr) hlen1 hrep' (by
    intro j hj
    simp only [T.idxs_node, List.mem_cons, List.mem_append] at hj
    exact ho j (by grind) (by grind) (by grind) (by grind))
  have hx0 : leftOf ns l = .ok ll.root := by
    obtain ⟨b, hb, e1, e2, e3⟩ := skelAt_branch hrep.2.1.1
    simp [leftOf, nodeAt_some hb, Node.getLeft, e2]
  have hx1 : leftOf ns r = .ok rl.root := by
    obtain ⟨b, hb, e1, e2, e3⟩ := skelAt_branch hrep.2.2.1
    simp [leftOf, nodeAt_some hb, Node.getLeft, e2]
  simp only [doRotation, hx0, hx1, Res.bind_ok, hrun, Res.bind_eq_ok] at hd
  obtain ⟨ns2, q2, ns3, q3, q4⟩ := hd
  obtain ⟨ns2', q2', hsh2, -, hsk2, -⟩ := recalc'_branch O hsh1 (i := l) (by exact hrep'.2.1.1)
  rw [q2] at q2'; simp at q2'; subst q2'
  obtain ⟨ns3', q3', hsh3, -, hsk3, -⟩ := recalc'_branch O hsh2 (i := r) (by rw [hsk2]; exact hrep'.2.2.1)
  rw [q3] at q3'; simp at q3'; subst q3'
  obtain ⟨u1, u2, a1, a2, a3, a4⟩ := recalc'_bd O (by exact hrep'.2.1.1) q2
  obtain ⟨x1, x2, e1, e2, e3, e4⟩ := recalc'_bd O (by rw [hsk2]; exact hrep'.2.2.1) q3
  obtain ⟨w1, w2, c1, c2, c3, -⟩ := recalc'_bd O (i := i) (by rw [hsk3, hsk2]; exact hrep'.1) q4
  simp only [T.root_node] at a1 a2 c1 c2 e1 e2
  have hbd : ∀ j, bdAt ns1 j = bdAt ns j := fun j => bd_congr (hhb j)
  rw [hbd] at a1 a2
  rw [a4 _ (by grind), hbd] at e1 e2
  rw [e4 _ (by grind), a3] at c1; simp at c1; subst c1
  rw [e3] at c2; simp at c2; subst c2
  exact ⟨x1, u2, u1, x2, e1, a2, a1, e2, c3⟩

theorem bd_llrr (O : Ops V B S) {ns ns' : List (Node B)} {root : Nat} (c : Ctx) (i l r : Nat) (ll lr rl rr : T)
    (h : Shape ns root (plug c (.node i (.node l ll lr) (.node r rl rr))))
    (hd : doRotation O ns i l r .leftLeftRightRight = .ok ns') :
    ∃ bll blr brl brr : B, bdAt ns ll.root = some bll ∧ bdAt ns lr.root = some blr ∧ bdAt ns rl.root = some brl ∧ bdAt ns rr.root = some brr ∧
      bdAt ns' i = some (O.union (O.union brr blr) (O.union brl bll)) := by
  have hrep := ((rep_plug c _).1 h.rep).2
  have hpm := (plug_perm c (.node i (.node l ll lr) (.node r rl rr) : T)).nodup_iff.1 h.nodup
  rw [List.nodup_append] at hpm
  have hn := hpm.1
  have hmem : ∀ j ∈ (.node i (.node l ll lr) (.node r rl rr) : T).idxs, j < ns.length := fun j hj =>
    h.mem_lt (mem_plug.2 (Or.inl hj))
  have hn' := hn
  simp only [T.idxs_node, List.nodup_cons, List.nodup_append, List.mem_cons, List.mem_append] at hn
  have r_ll := ll.root_mem
  have r_lr := lr.root_mem
  have r_rl := rl.root_mem
  have r_rr := rr.root_mem
  obtain ⟨ns1, hrun, hlen1, h_lp, h_rp, h_ls, h_rs, ho, hhb, -, -⟩ :=
    swapNodes_spec (V := V) (S := S) (ns := ns) (ls := ll.root) (rs := rr.root) (lp := l) (rp := r)
      (hmem _ (by simp)) (hmem _ (by simp)) (hmem _ (by simp)) (hmem _ (by simp))
      (by grind) (by grind) (by grind) (by grind) (by grind) (by grind)
  have hrep' := rep_llrr (g := skelAt ns1) i l r ll lr rl rr hn' hrep h_lp h_rp h_ls h_rs ho
  have hsh1 := h.of_rot (Rot.llrr i l r ll lr rl rr) hlen1 hrep' (by
    intro j hj
    simp only [T.idxs_node, List.mem_cons, List.mem_append] at hj
    exact ho j (by grind) (by grind) (by grind) (by grind))
  have hx0 : leftOf ns l = .ok ll.root := by
    obtain ⟨b, hb, e1, e2, e3⟩ := skelAt_branch hrep.2.1.1
    simp [leftOf, nodeAt_some hb, Node.getLeft, e2]
  have hx1 : rightOf ns r = .ok rr.root := by
    obtain ⟨b, hb, e1, e2, e3⟩ := skelAt_branch hrep.2.2.1
    simp [rightOf, nodeAt_some hb, Node.getRight, e3]
  simp only [doRotation, hx0, hx1, Res.bind_ok, hrun, Res.bind_eq_ok] at hd
  obtain ⟨ns2, q2, ns3, q3, q4⟩ := hd
  obtain ⟨ns2', q2', hsh2, -, hsk2, -⟩ := recalc'_branch O hsh1 (i := l) (by exact hrep'.2.1.1)
  rw [q2] at q2'; simp at q2'; subst q2'
  obtain ⟨ns3', q3', hsh3, -, hsk3, -⟩ := recalc'_branch O hsh2 (i := r) (by rw [hsk2]; exact hrep'.2.2.1)
  rw [q3] at q3'; simp at q3'; subst q3'
  obtain ⟨u1, u2, a1, a2, a3, a4⟩ := recalc'_bd O (by exact hrep'.2.1.1) q2
  obtain ⟨x1, x2, e1, e2, e3, e4⟩ := recalc'_bd O (by rw [hsk2]; exact hrep'.2.2.1) q3
  obtain ⟨w1, w2, c1, c2, c3, -⟩ := recalc'_bd O (i := i) (by rw [hsk3, hsk2]; exact hrep'.1) q4
  simp only [T.root_node] at a1 a2 c1 c2 e1 e2
  have hbd : ∀ j, bdAt ns1 j = bdAt ns j := fun j => bd_congr (hhb j)
  rw [hbd] at a1 a2
  rw [a4 _ (by grind), hbd] at e1 e2
  rw [e4 _ (by grind), a3] at c1; simp at c1; subst c1
  rw [e3] at c2; simp at c2; subst c2
  exact ⟨x2, u2, x1, u1, e2, a2, e1, a1, c3⟩


/-- The candidate area that `get_best_rotation` computes for a rotation, from the volumes of the children and grandchildren. -/
def candidate (O : Ops V B S) (lb rb : B) (l r : B × B) (area : S) : Rotation → S
  | .none => area
  | .leftRightLeft => sa O r.1 lb r.2
  | .leftRightRight => sa O r.2 lb r.1
  | .rightLeftLeft => sa O l.1 rb l.2
  | .rightLeftRight => sa O l.2 rb l.1
  | .leftLeftRightLeft => sa O (O.union r.1 l.2) l.1 r.2
  | .leftLeftRightRight => sa O (O.union r.2 l.2) r.1 l.1

theorem better_candidate {O : Ops V B S} {lb rb : B} {l r : B × B} {area : S} (k : Rotation) {c : Rotation × S}
    (hc : c.2 = candidate O lb rb l r area c.1) :
    (better O k (candidate O lb rb l r area k) c).2 =
      candidate O lb rb l r area (better O k (candidate O lb rb l r area k) c).1 := by
  unfold better; split
  · rfl
  · exact hc

theorem bestRotation_candidate (O : Ops V B S) {ns : List (Node B)} {li ri : Nat} {lb rb : B}
    (h1 : boundAt ns li = .ok lb) (h2 : boundAt ns ri = .ok rb) {lleaf rleaf : Bool} {l r : B × B}
    (h3 : lleaf = false → childBounds ns li = .ok l)
    (h4 : rleaf = false → childBounds ns ri = .ok r) {area x : S} {rot : Rotation}
    (h : bestRotation O ns li ri area lleaf rleaf = .ok (rot, x)) : x = candidate O lb rb l r area rot := by
  have key : ∀ c : Rotation × S, c.2 = candidate O lb rb l r area c.1 → c = (rot, x) → x = candidate O lb rb l r area rot := by
    rintro c h1 rfl; exact h1
  cases lleaf <;> cases rleaf
  · simp only [bestRotation, h1, h2, h3 rfl, h4 rfl, Res.bind_ok, Bool.not_false, if_true, Res.pure_eq, Res.ok.injEq] at h
    exact key _ (better_candidate .rightLeftRight (better_candidate .rightLeftLeft (better_candidate .leftLeftRightRight
      (better_candidate .leftLeftRightLeft (better_candidate .leftRightRight (better_candidate .leftRightLeft rfl)))))) h
  · simp only [bestRotation, h1, h2, h3 rfl, Res.bind_ok, Bool.not_false, Bool.not_true, if_true, Res.pure_eq] at h
    simp only [Bool.false_eq_true, if_false] at h
    simp only [Res.bind_ok, Res.ok.injEq] at h
    exact key _ (better_candidate .rightLeftRight (better_candidate .rightLeftLeft rfl)) h
  · simp only [bestRotation, h1, h2, h4 rfl, Res.bind_ok, Bool.not_false, Bool.not_true, if_true, Res.pure_eq] at h
    simp only [Bool.false_eq_true, if_false] at h
    simp only [Res.bind_ok, Res.ok.injEq] at h
    exact key _ (better_candidate .leftRightRight (better_candidate .leftRightLeft rfl)) h
  · simp only [bestRotation, h1, h2, Res.bind_ok, Bool.not_true, Res.pure_eq, Bool.false_eq_true, if_false, Res.ok.injEq] at h
    exact key _ rfl h

theorem childBounds_of {ns : List (Node B)} {i p x y : Nat} {bx by' : B} (h : skelAt ns i = some (.branch p x y))
    (hx : bdAt ns x = some bx) (hy : bdAt ns y = some by') : childBounds ns i = .ok (bx, by') := by
  obtain ⟨b, hb, -, rfl, rfl⟩ := skelAt_branch h
  simp [childBounds, nodeAt_some hb, bdAt_eq.1 hx, bdAt_eq.1 hy]

/-- If `rotate` changes anything, the area of the rotated node's volume goes down, by more than the threshold. -/
theorem rotate_gain (O : Ops V B S) (hcomm : ∀ a b, O.union a b = O.union b a) {ns ns' : List (Node B)} {root : Nat} {t : T}
    (hsh : Shape ns root t) {i : Nat} (hr : rotate O ns i = .ok ns') (hne : ns' ≠ ns) :
    ∃ before after, bdAt ns i = some before ∧ bdAt ns' i = some after ∧
      O.lt O.improvement (O.div (O.sub (O.area before) (O.area after)) (O.area before)) = true := by
  unfold rotate at hr
  simp only [Res.bind_eq_ok] at hr
  obtain ⟨n, hn, hr⟩ := hr
  have hn : ns[i]? = some n := by
    unfold nodeAt at hn; cases h : ns[i]? <;> rw [h] at hn <;> simp [Res.ofOption] at hn; rw [hn]
  cases n with
  | leaf l => simp at hr; exact absurd hr.symm hne
  | nil => simp at hr; exact absurd hr.symm hne
  | branch b =>
    obtain ⟨hit, hlt, hrt, -, -, -, -, -⟩ := hsh.children hn
    obtain ⟨c, s, rfl, hsi⟩ := exists_focus t i hit
    have hrep := ((rep_plug c s).1 hsh.rep).2
    obtain ⟨ln, lb, hln, hlb, hlne⟩ := hsh.nodeAt_child hlt
    obtain ⟨rn, rb, hrn, hrb, hrne⟩ := hsh.nodeAt_child hrt
    simp only [nodeAt_some hln, nodeAt_some hrn, Res.bind_ok] at hr
    split at hr
    swap
    · simp at hr; exact absurd hr.symm hne
    simp only [Res.bind_eq_ok] at hr
    obtain ⟨⟨rot, x⟩, hbest, hr⟩ := hr
    dsimp only at hr
    split at hr
    swap
    · simp at hr; exact absurd hr.symm hne
    rename_i himp
    have hcb : ∀ x n, ns[x]? = some n → n ≠ .nil → n.isLeaf = false → ∃ p, childBounds ns x = .ok p := by
      intro x n hx hne hl
      cases n with
      | branch b => exact childBounds_ok hsh hx
      | leaf l => simp [Node.isLeaf] at hl
      | nil => exact absurd rfl hne
    have h1 : boundAt ns b.left = .ok lb := by rw [boundAt_ok hln, hlb]
    have h2 : boundAt ns b.right = .ok rb := by rw [boundAt_ok hrn, hrb]
    obtain ⟨rot', x', hb', hfit⟩ := bestRotation_fits O h1 h2 (lleaf := ln.isLeaf) (rleaf := rn.isLeaf)
      (hcb _ _ hln hlne) (hcb _ _ hrn hrne) (O.area b.bound)
    rw [hbest] at hb'; simp at hb'
    obtain ⟨rfl, rfl⟩ := hb'
    have hcand : ∀ l r : B × B, (ln.isLeaf = false → childBounds ns b.left = .ok l) → (rn.isLeaf = false → childBounds ns b.right = .ok r) →
        x = candidate O lb rb l r (O.area b.bound) rot := fun l r h3 h4 => bestRotation_candidate O h1 h2 h3 h4 hbest
    have any : ∀ (n : Node B) j, (n.isLeaf = false → ∃ p, childBounds ns j = .ok p) →
        ∃ p : B × B, (n.isLeaf = false → childBounds ns j = .ok p) := by
      intro n j h
      cases hl : n.isLeaf
      · obtain ⟨p, hp⟩ := h hl; exact ⟨p, fun _ => hp⟩
      · exact ⟨(lb, lb), by simp⟩
    obtain ⟨pl, hpl⟩ := any ln b.left (hcb _ _ hln hlne)
    obtain ⟨pr, hpr⟩ := any rn b.right (hcb _ _ hrn hrne)
    have hx := hcand pl pr hpl hpr
    suffices hs : ∃ after, bdAt ns' i = some after ∧ O.area after = x by
      obtain ⟨a, ha, e⟩ := hs
      exact ⟨_, a, bdAt_branch hn, ha, by rw [e]; exact himp⟩
    cases s with
    | leaf j =>
      simp at hsi; subst hsi
      simp only [Rep, skelAt_of_branch hn] at hrep
      simp at hrep
    | node j l r =>
      simp at hsi; subst hsi
      have hsk := hrep.1
      rw [skelAt_of_branch hn] at hsk
      simp only [Option.some.injEq, Skel.branch.injEq] at hsk
      obtain ⟨hp, el, er⟩ := hsk
      have hleafl : ln.isLeaf = false → ∃ i' l1 l2, l = .node i' l1 l2 := by
        intro h
        cases l with
        | leaf a =>
          obtain ⟨lf, hlf, _⟩ := skelAt_leaf hrep.2.1
          rw [el, T.root_leaf, hlf] at hln
          simp at hln; subst hln; simp [Node.isLeaf] at h
        | node a l1 l2 => exact ⟨_, _, _, rfl⟩
      have hleafr : rn.isLeaf = false → ∃ i' l1 l2, r = .node i' l1 l2 := by
        intro h
        cases r with
        | leaf a =>
          obtain ⟨lf, hlf, _⟩ := skelAt_leaf hrep.2.2
          rw [er, T.root_leaf, hlf] at hrn
          simp at hrn; subst hrn; simp [Node.isLeaf] at h
        | node a l1 l2 => exact ⟨_, _, _, rfl⟩
      have kl : bdAt ns l.root = some lb := by rw [← el]; exact bdAt_eq.2 h1
      have kr : bdAt ns r.root = some rb := by rw [← er]; exact bdAt_eq.2 h2
      rw [el, er] at hr
      rw [el] at hpl
      rw [er] at hpr
      cases rot with
      | none => simp [doRotation] at hr; exact absurd hr.symm hne
      | leftRightLeft =>
        obtain ⟨a, r1, r2, rfl⟩ := hleafr hfit
        obtain ⟨bl, b1, b2, e0, e1, e2, e3⟩ := bd_lrl O c j a l r1 r2 hsh hr
        refine ⟨_, e3, ?_⟩
        rw [hx, kl] at *; simp at e0; subst e0
        have := (hpr hfit).symm.trans (childBounds_of hrep.2.2.1 e1 e2)
        simp at this; subst this; rfl
      | leftRightRight =>
        obtain ⟨a, r1, r2, rfl⟩ := hleafr hfit
        obtain ⟨bl, b1, b2, e0, e1, e2, e3⟩ := bd_lrr O c j a l r1 r2 hsh hr
        refine ⟨_, e3, ?_⟩
        rw [hx, kl] at *; simp at e0; subst e0
        have := (hpr hfit).symm.trans (childBounds_of hrep.2.2.1 e1 e2)
        simp at this; subst this; simp only [candidate, sa, hcomm lb]
      | rightLeftLeft =>
        obtain ⟨a, r1, r2, rfl⟩ := hleafl hfit
        obtain ⟨b1, b2, br, e1, e2, e0, e3⟩ := bd_rll O c j a r1 r2 r hsh hr
        refine ⟨_, e3, ?_⟩
        rw [hx, kr] at *; simp at e0; subst e0
        have := (hpl hfit).symm.trans (childBounds_of hrep.2.1.1 e1 e2)
        simp at this; subst this; simp only [candidate, sa, hcomm b1]
      | rightLeftRight =>
        obtain ⟨a, r1, r2, rfl⟩ := hleafl hfit
        obtain ⟨b1, b2, br, e1, e2, e0, e3⟩ := bd_rlr O c j a r1 r2 r hsh hr
        refine ⟨_, e3, ?_⟩
        rw [hx, kr] at *; simp at e0; subst e0
        have := (hpl hfit).symm.trans (childBounds_of hrep.2.1.1 e1 e2)
        simp at this; subst this; simp only [candidate, sa]; rw [hcomm b2, hcomm rb]
      | leftLeftRightLeft =>
        obtain ⟨a, r1, r2, rfl⟩ := hleafl hfit.1
        obtain ⟨a', r1', r2', rfl⟩ := hleafr hfit.2
        obtain ⟨b1, b2, b3, b4, e1, e2, e3, e4, e5⟩ := bd_llrl O c j a a' r1 r2 r1' r2' hsh hr
        refine ⟨_, e5, ?_⟩
        rw [hx]
        have t1 := (hpl hfit.1).symm.trans (childBounds_of hrep.2.1.1 e1 e2)
        have t2 := (hpr hfit.2).symm.trans (childBounds_of hrep.2.2.1 e3 e4)
        simp at t1 t2; subst t1; subst t2; rfl
      | leftLeftRightRight =>
        obtain ⟨a, r1, r2, rfl⟩ := hleafl hfit.1
        obtain ⟨a', r1', r2', rfl⟩ := hleafr hfit.2
        obtain ⟨b1, b2, b3, b4, e1, e2, e3, e4, e5⟩ := bd_llrr O c j a a' r1 r2 r1' r2' hsh hr
        refine ⟨_, e5, ?_⟩
        rw [hx]
        have t1 := (hpl hfit.1).symm.trans (childBounds_of hrep.2.1.1 e1 e2)
        have t2 := (hpr hfit.2).symm.trans (childBounds_of hrep.2.2.1 e3 e4)
        simp at t1 t2; subst t1; subst t2; rfl

end Verif.Dbvt
