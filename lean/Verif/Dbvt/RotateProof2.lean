import Verif.Dbvt.RotateProof
/-!
# `rotate` preserves the invariants (proof machinery)
-/
namespace Verif.Dbvt
open Verif

variable {V B S : Type}

theorem Shape.of_rot {ns ns' : List (Node B)} {root : Nat} {c : Ctx} {s s' : T}
    (h : Shape ns root (plug c s)) (hr : Rot s s') (hlen : ns'.length = ns.length)
    (hrep : Rep (skelAt ns') (Ctx.parent c) s')
    (ho : ∀ j, j ∉ s.idxs → skelAt ns' j = skelAt ns j) : Shape ns' root (plug c s') := by
  have hp : (plug c s').idxs.Perm (plug c s).idxs :=
    (plug_perm c s').trans ((hr.perm.append_right _).trans (plug_perm c s).symm)
  have hpm := (plug_perm c s).nodup_iff.1 h.nodup
  rw [List.nodup_append] at hpm
  refine ⟨?_, ?_, hp.nodup_iff.2 h.nodup, ?_, ?_⟩
  · rw [rep_plug]
    refine ⟨?_, hrep⟩
    rw [hr.root]
    exact ((rep_plug c s).1 h.rep).1.congr fun j hj => ho j fun hjs => hpm.2.2 j hjs j hj rfl
  · rw [h.root_eq]; exact (plug_root c s s' hr.root).symm
  · rw [hp.mem_iff]; exact h.pos
  · intro j hj hn
    rw [hp.mem_iff] at hn
    rw [ho j fun hjs => hn (mem_plug.2 (Or.inl hjs))]
    exact h.others j (by omega) hn

/-- What a rotation guarantees. -/
structure RotOut (O : Ops V B S) (ns ns' : List (Node B)) (root : Nat) (c : Ctx) (s s' : T) : Prop where
  rot : Rot s s'
  shape : Shape ns' root (plug c s')
  len : ns'.length = ns.length
  leaf : ∀ j, leafAt ns' j = leafAt ns j
  ok : ∀ M : Nat → Prop, OKExcept O M ns → OKExcept O (fun j => M j ∨ j = Ctx.parent c) ns'


theorem rep_lrl {f g : Nat → Option Skel} {p : Nat} (i r : Nat) (l rl rr : T)
    (hn : (.node i l (.node r rl rr) : T).idxs.Nodup) (hrep : Rep f p (.node i l (.node r rl rr)))
    (h_lp : g i = (f i).map (Skel.replaceChild l.root rl.root))
    (h_rp : g r = (f r).map (Skel.replaceChild rl.root l.root))
    (h_ls : g l.root = (f l.root).map (Skel.setParent r))
    (h_rs : g rl.root = (f rl.root).map (Skel.setParent i))
    (ho : ∀ j, j ≠ i → j ≠ r → j ≠ l.root → j ≠ rl.root → g j = f j) :
    Rep g p (.node i rl (.node r l rr)) := by
  obtain ⟨hi, hl, hr, hrl, hrr⟩ := hrep
  simp only [T.idxs_node, List.nodup_cons, List.nodup_append, List.mem_cons, List.mem_append] at hn
  have r_l := l.root_mem
  have r_rl := rl.root_mem
  have r_rr := rr.root_mem
  simp only [T.root_node] at *
  exact ⟨(by rw [h_lp, hi]; simp only [Option.map_some, Skel.replaceChild, T.root_node]; grind),
    hrl.reparent (by grind) (fun j hj hjr => ho j (by grind) (by grind) (by grind) (by grind)) h_rs,
    ⟨(by rw [h_rp, hr]; simp only [Option.map_some, Skel.replaceChild, T.root_node]; grind),
    hl.reparent (by grind) (fun j hj hjr => ho j (by grind) (by grind) (by grind) (by grind)) h_ls,
    hrr.congr (fun j hj => ho j (by grind) (by grind) (by grind) (by grind))⟩⟩

theorem rot_lrl (O : Ops V B S) {ns : List (Node B)} {root : Nat} (c : Ctx) (i r : Nat) (l rl rr : T)
    (h : Shape ns root (plug c (.node i l (.node r rl rr)))) :
    ∃ ns', doRotation O ns i l.root r .leftRightLeft = .ok ns' ∧
      RotOut O ns ns' root c (.node i l (.node r rl rr)) (.node i rl (.node r l rr)) := by
  have hrep := ((rep_plug c _).1 h.rep).2
  have hpm := (plug_perm c (.node i l (.node r rl rr) : T)).nodup_iff.1 h.nodup
  rw [List.nodup_append] at hpm
  have hn := hpm.1
  have hmem : ∀ j ∈ (.node i l (.node r rl rr) : T).idxs, j < ns.length := fun j hj =>
    h.mem_lt (mem_plug.2 (Or.inl hj))
  have hn' := hn
  simp only [T.idxs_node, List.nodup_cons, List.nodup_append, List.mem_cons, List.mem_append] at hn
  have r_l := l.root_mem
  have r_rl := rl.root_mem
  have r_rr := rr.root_mem
  obtain ⟨ns1, hrun, hlen1, h_lp, h_rp, h_ls, h_rs, ho, -, hleaf1, hok1⟩ :=
    swapNodes_spec (V := V) (S := S) (ns := ns) (ls := l.root) (rs := rl.root) (lp := i) (rp := r)
      (hmem _ (by simp)) (hmem _ (by simp)) (hmem _ (by simp)) (hmem _ (by simp))
      (by grind) (by grind) (by grind) (by grind) (by grind) (by grind)
  have hrep' := rep_lrl (g := skelAt ns1) i r l rl rr hn' hrep h_lp h_rp h_ls h_rs ho
  have hrot := Rot.lrl i r l rl rr
  have hsh1 := h.of_rot hrot hlen1 hrep' (by
    intro j hj
    simp only [T.idxs_node, List.mem_cons, List.mem_append] at hj
    exact ho j (by grind) (by grind) (by grind) (by grind))
  obtain ⟨ns2, hrun2, hsh2, hlen2, hsk2, hleaf2, hok2⟩ :=
    recalc'_branch O hsh1 (i := r) (by exact hrep'.2.2.1)
  obtain ⟨ns3, hrun3, hsh3, hlen3, hsk3, hleaf3, hok3⟩ :=
    recalc'_branch O hsh2 (i := i) (by rw [hsk2]; exact hrep'.1)
  have hx : leftOf ns r = .ok rl.root := by
    obtain ⟨b, hb, e1, e2, e3⟩ := skelAt_branch hrep.2.2.1
    simp [leftOf, nodeAt_some hb, Node.getLeft, e2]
  refine ⟨ns3, ?_, hrot, hsh3, by omega, fun j => ?_, fun M hM => ?_⟩
  · simp only [doRotation, hx, Res.bind_ok, hrun, hrun2, hrun3]
  · rw [hleaf3, hleaf2, hleaf1]
  · have := hok3 _ (hok2 _ (hok1 O M hM))
    intro j b hb
    have := this j b hb
    grind

theorem rep_lrr {f g : Nat → Option Skel} {p : Nat} (i r : Nat) (l rl rr : T)
    (hn : (.node i l (.node r rl rr) : T).idxs.Nodup) (hrep : Rep f p (.node i l (.node r rl rr)))
    (h_lp : g i = (f i).map (Skel.replaceChild l.root rr.root))
    (h_rp : g r = (f r).map (Skel.replaceChild rr.root l.root))
    (h_ls : g l.root = (f l.root).map (Skel.setParent r))
    (h_rs : g rr.root = (f rr.root).map (Skel.setParent i))
    (ho : ∀ j, j ≠ i → j ≠ r → j ≠ l.root → j ≠ rr.root → g j = f j) :
    Rep g p (.node i rr (.node r rl l)) := by
  obtain ⟨hi, hl, hr, hrl, hrr⟩ := hrep
  simp only [T.idxs_node, List.nodup_cons, List.nodup_append, List.mem_cons, List.mem_append] at hn
  have r_l := l.root_mem
  have r_rl := rl.root_mem
  have r_rr := rr.root_mem
  simp only [T.root_node] at *
  exact ⟨(by rw [h_lp, hi]; simp only [Option.map_some, Skel.replaceChild, T.root_node]; grind),
    hrr.reparent (by grind) (fun j hj hjr => ho j (by grind) (by grind) (by grind) (by grind)) h_rs,
    ⟨(by rw [h_rp, hr]; simp only [Option.map_some, Skel.replaceChild, T.root_node]; grind),
    hrl.congr (fun j hj => ho j (by grind) (by grind) (by grind) (by grind)),
    hl.reparent (by grind) (fun j hj hjr => ho j (by grind) (by grind) (by grind) (by grind)) h_ls⟩⟩

theorem rot_lrr (O : Ops V B S) {ns : List (Node B)} {root : Nat} (c : Ctx) (i r : Nat) (l rl rr : T)
    (h : Shape ns root (plug c (.node i l (.node r rl rr)))) :
    ∃ ns', doRotation O ns i l.root r .leftRightRight = .ok ns' ∧
      RotOut O ns ns' root c (.node i l (.node r rl rr)) (.node i rr (.node r rl l)) := by
  have hrep := ((rep_plug c _).1 h.rep).2
  have hpm := (plug_perm c (.node i l (.node r rl rr) : T)).nodup_iff.1 h.nodup
  rw [List.nodup_append] at hpm
  have hn := hpm.1
  have hmem : ∀ j ∈ (.node i l (.node r rl rr) : T).idxs, j < ns.length := fun j hj =>
    h.mem_lt (mem_plug.2 (Or.inl hj))
  have hn' := hn
  simp only [T.idxs_node, List.nodup_cons, List.nodup_append, List.mem_cons, List.mem_append] at hn
  have r_l := l.root_mem
  have r_rl := rl.root_mem
  have r_rr := rr.root_mem
  obtain ⟨ns1, hrun, hlen1, h_lp, h_rp, h_ls, h_rs, ho, -, hleaf1, hok1⟩ :=
    swapNodes_spec (V := V) (S := S) (ns := ns) (ls := l.root) (rs := rr.root) (lp := i) (rp := r)
      (hmem _ (by simp)) (hmem _ (by simp)) (hmem _ (by simp)) (hmem _ (by simp))
      (by grind) (by grind) (by grind) (by grind) (by grind) (by grind)
  have hrep' := rep_lrr (g := skelAt ns1) i r l rl rr hn' hrep h_lp h_rp h_ls h_rs ho
  have hrot := Rot.lrr i r l rl rr
  have hsh1 := h.of_rot hrot hlen1 hrep' (by
    intro j hj
    simp only [T.idxs_node, List.mem_cons, List.mem_append] at hj
    exact ho j (by grind) (by grind) (by grind) (by grind))
  obtain ⟨ns2, hrun2, hsh2, hlen2, hsk2, hleaf2, hok2⟩ :=
    recalc'_branch O hsh1 (i := r) (by exact hrep'.2.2.1)
  obtain ⟨ns3, hrun3, hsh3, hlen3, hsk3, hleaf3, hok3⟩ :=
    recalc'_branch O hsh2 (i := i) (by rw [hsk2]; exact hrep'.1)
  have hx : rightOf ns r = .ok rr.root := by
    obtain ⟨b, hb, e1, e2, e3⟩ := skelAt_branch hrep.2.2.1
    simp [rightOf, nodeAt_some hb, Node.getRight, e3]
  refine ⟨ns3, ?_, hrot, hsh3, by omega, fun j => ?_, fun M hM => ?_⟩
  · simp only [doRotation, hx, Res.bind_ok, hrun, hrun2, hrun3]
  · rw [hleaf3, hleaf2, hleaf1]
  · have := hok3 _ (hok2 _ (hok1 O M hM))
    intro j b hb
    have := this j b hb
    grind

theorem rep_rll {f g : Nat → Option Skel} {p : Nat} (i l : Nat) (ll lr r : T)
    (hn : (.node i (.node l ll lr) r : T).idxs.Nodup) (hrep : Rep f p (.node i (.node l ll lr) r))
    (h_lp : g l = (f l).map (Skel.replaceChild ll.root r.root))
    (h_rp : g i = (f i).map (Skel.replaceChild r.root ll.root))
    (h_ls : g ll.root = (f ll.root).map (Skel.setParent i))
    (h_rs : g r.root = (f r.root).map (Skel.setParent l))
    (ho : ∀ j, j ≠ l → j ≠ i → j ≠ ll.root → j ≠ r.root → g j = f j) :
    Rep g p (.node i (.node l r lr) ll) := by
  obtain ⟨hi, ⟨hl, hll, hlr⟩, hr⟩ := hrep
  simp only [T.idxs_node, List.nodup_cons, List.nodup_append, List.mem_cons, List.mem_append] at hn
  have r_ll := ll.root_mem
  have r_lr := lr.root_mem
  have r_r := r.root_mem
  simp only [T.root_node] at *
  exact ⟨(by rw [h_rp, hi]; simp only [Option.map_some, Skel.replaceChild, T.root_node]; grind),
    ⟨(by rw [h_lp, hl]; simp only [Option.map_some, Skel.replaceChild, T.root_node]; grind),
    hr.reparent (by grind) (fun j hj hjr => ho j (by grind) (by grind) (by grind) (by grind)) h_rs,
    hlr.congr (fun j hj => ho j (by grind) (by grind) (by grind) (by grind))⟩,
    hll.reparent (by grind) (fun j hj hjr => ho j (by grind) (by grind) (by grind) (by grind)) h_ls⟩

theorem rot_rll (O : Ops V B S) {ns : List (Node B)} {root : Nat} (c : Ctx) (i l : Nat) (ll lr r : T)
    (h : Shape ns root (plug c (.node i (.node l ll lr) r))) :
    ∃ ns', doRotation O ns i l r.root .rightLeftLeft = .ok ns' ∧
      RotOut O ns ns' root c (.node i (.node l ll lr) r) (.node i (.node l r lr) ll) := by
  have hrep := ((rep_plug c _).1 h.rep).2
  have hpm := (plug_perm c (.node i (.node l ll lr) r : T)).nodup_iff.1 h.nodup
  rw [List.nodup_append] at hpm
  have hn := hpm.1
  have hmem : ∀ j ∈ (.node i (.node l ll lr) r : T).idxs, j < ns.length := fun j hj =>
    h.mem_lt (mem_plug.2 (Or.inl hj))
  have hn' := hn
  simp only [T.idxs_node, List.nodup_cons, List.nodup_append, List.mem_cons, List.mem_append] at hn
  have r_ll := ll.root_mem
  have r_lr := lr.root_mem
  have r_r := r.root_mem
  obtain ⟨ns1, hrun, hlen1, h_lp, h_rp, h_ls, h_rs, ho, -, hleaf1, hok1⟩ :=
    swapNodes_spec (V := V) (S := S) (ns := ns) (ls := ll.root) (rs := r.root) (lp := l) (rp := i)
      (hmem _ (by simp)) (hmem _ (by simp)) (hmem _ (by simp)) (hmem _ (by simp))
      (by grind) (by grind) (by grind) (by grind) (by grind) (by grind)
  have hrep' := rep_rll (g := skelAt ns1) i l ll lr r hn' hrep h_lp h_rp h_ls h_rs ho
  have hrot := Rot.rll i l ll lr r
  have hsh1 := h.of_rot hrot hlen1 hrep' (by
    intro j hj
    simp only [T.idxs_node, List.mem_cons, List.mem_append] at hj
    exact ho j (by grind) (by grind) (by grind) (by grind))
  obtain ⟨ns2, hrun2, hsh2, hlen2, hsk2, hleaf2, hok2⟩ :=
    recalc'_branch O hsh1 (i := l) (by exact hrep'.2.1.1)
  obtain ⟨ns3, hrun3, hsh3, hlen3, hsk3, hleaf3, hok3⟩ :=
    recalc'_branch O hsh2 (i := i) (by rw [hsk2]; exact hrep'.1)
  have hx : leftOf ns l = .ok ll.root := by
    obtain ⟨b, hb, e1, e2, e3⟩ := skelAt_branch hrep.2.1.1
    simp [leftOf, nodeAt_some hb, Node.getLeft, e2]
  refine ⟨ns3, ?_, hrot, hsh3, by omega, fun j => ?_, fun M hM => ?_⟩
  · simp only [doRotation, hx, Res.bind_ok, hrun, hrun2, hrun3]
  · rw [hleaf3, hleaf2, hleaf1]
  · have := hok3 _ (hok2 _ (hok1 O M hM))
    intro j b hb
    have := this j b hb
    grind

theorem rep_rlr {f g : Nat → Option Skel} {p : Nat} (i l : Nat) (ll lr r : T)
    (hn : (.node i (.node l ll lr) r : T).idxs.Nodup) (hrep : Rep f p (.node i (.node l ll lr) r))
    (h_lp : g l = (f l).map (Skel.replaceChild lr.root r.root))
    (h_rp : g i = (f i).map (Skel.replaceChild r.root lr.root))
    (h_ls : g lr.root = (f lr.root).map (Skel.setParent i))
    (h_rs : g r.root = (f r.root).map (Skel.setParent l))
    (ho : ∀ j, j ≠ l → j ≠ i → j ≠ lr.root → j ≠ r.root → g j = f j) :
    Rep g p (.node i (.node l ll r) lr) := by
  obtain ⟨hi, ⟨hl, hll, hlr⟩, hr⟩ := hrep
  simp only [T.idxs_node, List.nodup_cons, List.nodup_append, List.mem_cons, List.mem_append] at hn
  have r_ll := ll.root_mem
  have r_lr := lr.root_mem
  have r_r := r.root_mem
  simp only [T.root_node] at *
  exact ⟨(by rw [h_rp, hi]; simp only [Option.map_some, Skel.replaceChild, T.root_node]; grind),
    ⟨(by rw [h_lp, hl]; simp only [Option.map_some, Skel.replaceChild, T.root_node]; grind),
    hll.congr (fun j hj => ho j (by grind) (by grind) (by grind) (by grind)),
    hr.reparent (by grind) (fun j hj hjr => ho j (by grind) (by grind) (by grind) (by grind)) h_rs⟩,
    hlr.reparent (by grind) (fun j hj hjr => ho j (by grind) (by grind) (by grind) (by grind)) h_ls⟩

theorem rot_rlr (O : Ops V B S) {ns : List (Node B)} {root : Nat} (c : Ctx) (i l : Nat) (ll lr r : T)
    (h : Shape ns root (plug c (.node i (.node l ll lr) r))) :
    ∃ ns', doRotation O ns i l r.root .rightLeftRight = .ok ns' ∧
      RotOut O ns ns' root c (.node i (.node l ll lr) r) (.node i (.node l ll r) lr) := by
  have hrep := ((rep_plug c _).1 h.rep).2
  have hpm := (plug_perm c (.node i (.node l ll lr) r : T)).nodup_iff.1 h.nodup
  rw [List.nodup_append] at hpm
  have hn := hpm.1
  have hmem : ∀ j ∈ (.node i (.node l ll lr) r : T).idxs, j < ns.length := fun j hj =>
    h.mem_lt (mem_plug.2 (Or.inl hj))
  have hn' := hn
  simp only [T.idxs_node, List.nodup_cons, List.nodup_append, List.mem_cons, List.mem_append] at hn
  have r_ll := ll.root_mem
  have r_lr := lr.root_mem
  have r_r := r.root_mem
  obtain ⟨ns1, hrun, hlen1, h_lp, h_rp, h_ls, h_rs, ho, -, hleaf1, hok1⟩ :=
    swapNodes_spec (V := V) (S := S) (ns := ns) (ls := lr.root) (rs := r.root) (lp := l) (rp := i)
      (hmem _ (by simp)) (hmem _ (by simp)) (hmem _ (by simp)) (hmem _ (by simp))
      (by grind) (by grind) (by grind) (by grind) (by grind) (by grind)
  have hrep' := rep_rlr (g := skelAt ns1) i l ll lr r hn' hrep h_lp h_rp h_ls h_rs ho
  have hrot := Rot.rlr i l ll lr r
  have hsh1 := h.of_rot hrot hlen1 hrep' (by
    intro j hj
    simp only [T.idxs_node, List.mem_cons, List.mem_append] at hj
    exact ho j (by grind) (by grind) (by grind) (by grind))
  obtain ⟨ns2, hrun2, hsh2, hlen2, hsk2, hleaf2, hok2⟩ :=
    recalc'_branch O hsh1 (i := l) (by exact hrep'.2.1.1)
  obtain ⟨ns3, hrun3, hsh3, hlen3, hsk3, hleaf3, hok3⟩ :=
    recalc'_branch O hsh2 (i := i) (by rw [hsk2]; exact hrep'.1)
  have hx : rightOf ns l = .ok lr.root := by
    obtain ⟨b, hb, e1, e2, e3⟩ := skelAt_branch hrep.2.1.1
    simp [rightOf, nodeAt_some hb, Node.getRight, e3]
  refine ⟨ns3, ?_, hrot, hsh3, by omega, fun j => ?_, fun M hM => ?_⟩
  · simp only [doRotation, hx, Res.bind_ok, hrun, hrun2, hrun3]
  · rw [hleaf3, hleaf2, hleaf1]
  · have := hok3 _ (hok2 _ (hok1 O M hM))
    intro j b hb
    have := this j b hb
    grind

theorem rep_llrl {f g : Nat → Option Skel} {p : Nat} (i l r : Nat) (ll lr rl rr : T)
    (hn : (.node i (.node l ll lr) (.node r rl rr) : T).idxs.Nodup) (hrep : Rep f p (.node i (.node l ll lr) (.node r rl rr)))
    (h_lp : g l = (f l).map (Skel.replaceChild ll.root rl.root))
    (h_rp : g r = (f r).map (Skel.replaceChild rl.root ll.root))
    (h_ls : g ll.root = (f ll.root).map (Skel.setParent r))
    (h_rs : g rl.root = (f rl.root).map (Skel.setParent l))
    (ho : ∀ j, j ≠ l → j ≠ r → j ≠ ll.root → j ≠ rl.root → g j = f j) :
    Rep g p (.node i (.node l rl lr) (.node r ll rr)) := by
  obtain ⟨hi, ⟨hl, hll, hlr⟩, hr, hrl, hrr⟩ := hrep
  simp only [T.idxs_node, List.nodup_cons, List.nodup_append, List.mem_cons, List.mem_append] at hn
  have r_ll := ll.root_mem
  have r_lr := lr.root_mem
  have r_rl := rl.root_mem
  have r_rr := rr.root_mem
  simp only [T.root_node] at *
  exact ⟨(by rw [ho i (by grind) (by grind) (by grind) (by grind)]; exact hi),
    ⟨(by rw [h_lp, hl]; simp only [Option.map_some, Skel.replaceChild, T.root_node]; grind),
    hrl.reparent (by grind) (fun j hj hjr => ho j (by grind) (by grind) (by grind) (by grind)) h_rs,
    hlr.congr (fun j hj => ho j (by grind) (by grind) (by grind) (by grind))⟩,
    ⟨(by rw [h_rp, hr]; simp only [Option.map_some, Skel.replaceChild, T.root_node]; grind),
    hll.reparent (by grind) (fun j hj hjr => ho j (by grind) (by grind) (by grind) (by grind)) h_ls,
    hrr.congr (fun j hj => ho j (by grind) (by grind) (by grind) (by grind))⟩⟩

theorem rot_llrl (O : Ops V B S) {ns : List (Node B)} {root : Nat} (c : Ctx) (i l r : Nat) (ll lr rl rr : T)
    (h : Shape ns root (plug c (.node i (.node l ll lr) (.node r rl rr)))) :
    ∃ ns', doRotation O ns i l r .leftLeftRightLeft = .ok ns' ∧
      RotOut O ns ns' root c (.node i (.node l ll lr) (.node r rl rr)) (.node i (.node l rl lr) (.node r ll rr)) := by
  have hrep := ((rep_plug c _).1 h.rep).2
  have hpm := (plug_perm c (.node i (.node l ll lr) (.node r rl rr) : T)).nodup_iff.1 h.nodup
  rw [List.nodup_append] at hpm
  have hn := hpm.1
  have hmem : ∀ j ∈ (.node i (.node l ll lr) (.node r rl rr) : T).idxs, j < ns.length := fun j hj =>
    h.mem_lt (mem_plug.2 (Or.inl hj))
  have hn' := hn
  simp only [T.idxs_node, List.nodup_cons, List.nodup_append, List.mem_cons, List.mem_append] at hn
  have r_ll := ll.root_mem
  have r_lr := lr.root_mem
  have r_rl := rl.root_mem
  have r_rr := rr.root_mem
  obtain ⟨ns1, hrun, hlen1, h_lp, h_rp, h_ls, h_rs, ho, -, hleaf1, hok1⟩ :=
    swapNodes_spec (V := V) (S := S) (ns := ns) (ls := ll.root) (rs := rl.root) (lp := l) (rp := r)
      (hmem _ (by simp)) (hmem _ (by simp)) (hmem _ (by simp)) (hmem _ (by simp))
      (by grind) (by grind) (by grind) (by grind) (by grind) (by grind)
  have hrep' := rep_llrl (g := skelAt ns1) i l r ll lr rl rr hn' hrep h_lp h_rp h_ls h_rs ho
  have hrot := Rot.llrl i l r ll lr rl rr
  have hsh1 := h.of_rot hrot hlen1 hrep' (by
    intro j hj
    simp only [T.idxs_node, List.mem_cons, List.mem_append] at hj
    exact ho j (by grind) (by grind) (by grind) (by grind))
  obtain ⟨ns2, hrun2, hsh2, hlen2, hsk2, hleaf2, hok2⟩ :=
    recalc'_branch O hsh1 (i := l) (by exact hrep'.2.1.1)
  obtain ⟨ns3, hrun3, hsh3, hlen3, hsk3, hleaf3, hok3⟩ :=
    recalc'_branch O hsh2 (i := r) (by rw [hsk2]; exact hrep'.2.2.1)
  obtain ⟨ns4, hrun4, hsh4, hlen4, hsk4, hleaf4, hok4⟩ :=
    recalc'_branch O hsh3 (i := i) (by rw [hsk3, hsk2]; exact hrep'.1)
  have hx : leftOf ns l = .ok ll.root := by
    obtain ⟨b, hb, e1, e2, e3⟩ := skelAt_branch hrep.2.1.1
    simp [leftOf, nodeAt_some hb, Node.getLeft, e2]
  have hy : leftOf ns r = .ok rl.root := by
    obtain ⟨b, hb, e1, e2, e3⟩ := skelAt_branch hrep.2.2.1
    simp [leftOf, nodeAt_some hb, Node.getLeft, e2]
  refine ⟨ns4, ?_, hrot, hsh4, by omega, fun j => ?_, fun M hM => ?_⟩
  · simp only [doRotation, hx, hy, Res.bind_ok, hrun, hrun2, hrun3, hrun4]
  · rw [hleaf4, hleaf3, hleaf2, hleaf1]
  · have := hok4 _ (hok3 _ (hok2 _ (hok1 O M hM)))
    intro j b hb
    have := this j b hb
    grind

theorem rep_llrr {f g : Nat → Option Skel} {p : Nat} (i l r : Nat) (ll lr rl rr : T)
    (hn : (.node i (.node l ll lr) (.node r rl rr) : T).idxs.Nodup) (hrep : Rep f p (.node i (.node l ll lr) (.node r rl rr)))
    (h_lp : g l = (f l).map (Skel.replaceChild ll.root rr.root))
    (h_rp : g r = (f r).map (Skel.replaceChild rr.root ll.root))
    (h_ls : g ll.root = (f ll.root).map (Skel.setParent r))
    (h_rs : g rr.root = (f rr.root).map (Skel.setParent l))
    (ho : ∀ j, j ≠ l → j ≠ r → j ≠ ll.root → j ≠ rr.root → g j = f j) :
    Rep g p (.node i (.node l rr lr) (.node r rl ll)) := by
  obtain ⟨hi, ⟨hl, hll, hlr⟩, hr, hrl, hrr⟩ := hrep
  simp only [T.idxs_node, List.nodup_cons, List.nodup_append, List.mem_cons, List.mem_append] at hn
  have r_ll := ll.root_mem
  have r_lr := lr.root_mem
  have r_rl := rl.root_mem
  have r_rr := rr.root_mem
  simp only [T.root_node] at *
  exact ⟨(by rw [ho i (by grind) (by grind) (by grind) (by grind)]; exact hi),
    ⟨(by rw [h_lp, hl]; simp only [Option.map_some, Skel.replaceChild, T.root_node]; grind),
    hrr.reparent (by grind) (fun j hj hjr => ho j (by grind) (by grind) (by grind) (by grind)) h_rs,
    hlr.congr (fun j hj => ho j (by grind) (by grind) (by grind) (by grind))⟩,
    ⟨(by rw [h_rp, hr]; simp only [Option.map_some, Skel.replaceChild, T.root_node]; grind),
    hrl.congr (fun j hj => ho j (by grind) (by grind) (by grind) (by grind)),
    hll.reparent (by grind) (fun j hj hjr => ho j (by grind) (by grind) (by grind) (by grind)) h_ls⟩⟩

theorem rot_llrr (O : Ops V B S) {ns : List (Node B)} {root : Nat} (c : Ctx) (i l r : Nat) (ll lr rl rr : T)
    (h : Shape ns root (plug c (.node i (.node l ll lr) (.node r rl rr)))) :
    ∃ ns', doRotation O ns i l r .leftLeftRightRight = .ok ns' ∧
      RotOut O ns ns' root c (.node i (.node l ll lr) (.node r rl rr)) (.node i (.node l rr lr) (.node r rl ll)) := by
  have hrep := ((rep_plug c _).1 h.rep).2
  have hpm := (plug_perm c (.node i (.node l ll lr) (.node r rl rr) : T)).nodup_iff.1 h.nodup
  rw [List.nodup_append] at hpm
  have hn := hpm.1
  have hmem : ∀ j ∈ (.node i (.node l ll lr) (.node r rl rr) : T).idxs, j < ns.length := fun j hj =>
    h.mem_lt (mem_plug.2 (Or.inl hj))
  have hn' := hn
  simp only [T.idxs_node, List.nodup_cons, List.nodup_append, List.mem_cons, List.mem_append] at hn
  have r_ll := ll.root_mem
  have r_lr := lr.root_mem
  have r_rl := rl.root_mem
  have r_rr := rr.root_mem
  obtain ⟨ns1, hrun, hlen1, h_lp, h_rp, h_ls, h_rs, ho, -, hleaf1, hok1⟩ :=
    swapNodes_spec (V := V) (S := S) (ns := ns) (ls := ll.root) (rs := rr.root) (lp := l) (rp := r)
      (hmem _ (by simp)) (hmem _ (by simp)) (hmem _ (by simp)) (hmem _ (by simp))
      (by grind) (by grind) (by grind) (by grind) (by grind) (by grind)
  have hrep' := rep_llrr (g := skelAt ns1) i l r ll lr rl rr hn' hrep h_lp h_rp h_ls h_rs ho
  have hrot := Rot.llrr i l r ll lr rl rr
  have hsh1 := h.of_rot hrot hlen1 hrep' (by
    intro j hj
    simp only [T.idxs_node, List.mem_cons, List.mem_append] at hj
    exact ho j (by grind) (by grind) (by grind) (by grind))
  obtain ⟨ns2, hrun2, hsh2, hlen2, hsk2, hleaf2, hok2⟩ :=
    recalc'_branch O hsh1 (i := l) (by exact hrep'.2.1.1)
  obtain ⟨ns3, hrun3, hsh3, hlen3, hsk3, hleaf3, hok3⟩ :=
    recalc'_branch O hsh2 (i := r) (by rw [hsk2]; exact hrep'.2.2.1)
  obtain ⟨ns4, hrun4, hsh4, hlen4, hsk4, hleaf4, hok4⟩ :=
    recalc'_branch O hsh3 (i := i) (by rw [hsk3, hsk2]; exact hrep'.1)
  have hx : leftOf ns l = .ok ll.root := by
    obtain ⟨b, hb, e1, e2, e3⟩ := skelAt_branch hrep.2.1.1
    simp [leftOf, nodeAt_some hb, Node.getLeft, e2]
  have hy : rightOf ns r = .ok rr.root := by
    obtain ⟨b, hb, e1, e2, e3⟩ := skelAt_branch hrep.2.2.1
    simp [rightOf, nodeAt_some hb, Node.getRight, e3]
  refine ⟨ns4, ?_, hrot, hsh4, by omega, fun j => ?_, fun M hM => ?_⟩
  · simp only [doRotation, hx, hy, Res.bind_ok, hrun, hrun2, hrun3, hrun4]
  · rw [hleaf4, hleaf3, hleaf2, hleaf1]
  · have := hok4 _ (hok3 _ (hok2 _ (hok1 O M hM)))
    intro j b hb
    have := this j b hb
    grind

end Verif.Dbvt
