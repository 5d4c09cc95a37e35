import Verif.Dbvt.RotateProof3
import Mathlib.Tactic.Ring
/-!
# `refit_node`, `do_refit` (proof machinery): termination for every random sequence
-/
namespace Verif.Dbvt
open Verif

variable {V B S : Type}

/-- What one step of refitting guarantees. -/
structure Refitted (O : Ops V B S) (draw : Nat) (s : Dbvt V B) (t : T) (i : Nat)
    (s' : Dbvt V B) (t' : T) : Prop where
  run : s.refitNode O draw i = .ok s'
  wf : WFt s' t'
  values : s'.values = s.values
  updated : s'.updated = s.updated
  root : s'.root = s.root
  free : s'.free = s.free
  len : s'.nodes.length = s.nodes.length
  leaf : ∀ j, leafAt s'.nodes j = leafAt s.nodes j
  perm : t'.idxs.Perm t.idxs
  leaves : t'.leaves.Perm t.leaves
  dep : ∀ j, t'.dep j = t.dep j ∨ (t.dep i < t.dep j ∧ t'.dep j ≤ t.dep j + 1)
  refit : s'.refit = s.refit ∨
    ∃ k p, s'.refit = sortedInsert (k, p) s.refit ∧ t.dep p + 1 = t.dep i
  ok : OKExcept O (fun j => j ∈ s.refit.map Prod.snd ∨ j = i) s.nodes → RefitOK O s'

theorem refitNode_spec (O : Ops V B S) (draw : Nat) {s : Dbvt V B} {t : T} (h : WFt s t) {i : Nat}
    (hi : i < s.nodes.length) : ∃ s' t', Refitted O draw s t i s' t' := by
  have hsh := h.shape
  by_cases hbr : ∃ b : Branch B, s.nodes[i]? = some (.branch b)
  · obtain ⟨b, hb⟩ := hbr
    obtain ⟨hh, ns1, hrc, hsh1, hlen1, hsk1, hleaf1, hok1⟩ := recalc_branch O hsh hb
    have hit : i ∈ t.idxs := (hsh.children hb).1
    have hb1 : ∃ b1 : Branch B, ns1[i]? = some (.branch b1) ∧ b1.parent = b.parent := by
      have := skelAt_of_branch hb
      rw [← hsk1] at this
      obtain ⟨b1, h1, h2, -⟩ := skelAt_branch this
      exact ⟨b1, h1, h2⟩
    obtain ⟨b1, hb1, hbp⟩ := hb1
    -- parent depth
    have hpar : b.parent ≠ 0 → b.parent < s.nodes.length ∧ t.dep b.parent + 1 = t.dep i := by
      intro hne
      obtain ⟨c, u, rfl, hui⟩ := exists_focus t i hit
      have hrep := ((rep_plug c u).1 hsh.rep).2
      have hpc : b.parent = Ctx.parent c := by
        cases u with
        | leaf j =>
          simp at hui; subst hui
          simp [Rep, skelAt_of_branch hb] at hrep
        | node j l r =>
          simp at hui; subst hui
          have := hrep.1
          rw [skelAt_of_branch hb] at this
          simp at this; exact this.1
      cases c with
      | nil => exact absurd hpc hne
      | cons fr c =>
        have hpm := (plug_perm (fr :: c) u).nodup_iff.1 hsh.nodup
        rw [List.nodup_append] at hpm
        rw [hpc]
        simp only [Ctx.parent]
        have hmem : fr.idx ∈ (plug (fr :: c) u).idxs := mem_plug.2 (Or.inr (by
          cases fr <;> simp [Ctx.idxs, Frame.idxs, Frame.idx]))
        refine ⟨hsh.mem_lt hmem, ?_⟩
        have e1 := dep_plug_in (fr :: c) u i (hui ▸ u.root_mem) hsh.nodup
        rw [← hui, T.dep_root, hui] at e1
        have hnd := hsh.nodup
        rw [e1]
        cases fr with
        | left q r =>
          have := dep_plug_in c (.node q u r) q (by simp) (by simpa [plug] using hnd)
          simp only [plug, Frame.idx, this, List.length_cons]
          simp [T.dep]
        | right q r =>
          have := dep_plug_in c (.node q r u) q (by simp) (by simpa [plug] using hnd)
          simp only [plug, Frame.idx, this, List.length_cons]
          simp [T.dep]
    -- state after marking
    obtain ⟨s2, hs2, hn2, hv2, hu2, hr2, hf2, hrf2, hmk2⟩ : ∃ s2 : Dbvt V B,
        (if b.parent ≠ 0 then ({ s with nodes := ns1 } : Dbvt V B).markForRefit b.parent (hh + 1)
          else .ok ({ s with nodes := ns1 } : Dbvt V B)) = .ok s2 ∧
        s2.nodes = ns1 ∧ s2.values = s.values ∧ s2.updated = s.updated ∧ s2.root = s.root ∧
        s2.free = s.free ∧
        (s2.refit = s.refit ∨ ∃ k p, s2.refit = sortedInsert (k, p) s.refit ∧ t.dep p + 1 = t.dep i ∧ p < s.nodes.length) ∧
        (∀ j, (j ∈ s.refit.map Prod.snd ∨ (j = b.parent ∧ j ≠ 0)) → j ∈ s2.refit.map Prod.snd) := by
      by_cases hp0 : b.parent ≠ 0
      · obtain ⟨hpl, hpd⟩ := hpar hp0
        obtain ⟨k, hk⟩ := markForRefit_ok (s := ({ s with nodes := ns1 } : Dbvt V B)) (i := b.parent)
          (m := hh + 1) (by simpa [hlen1] using hpl)
        rw [if_pos hp0]
        refine ⟨_, hk, rfl, rfl, rfl, rfl, rfl, Or.inr ⟨k, b.parent, rfl, hpd, hpl⟩, ?_⟩
        intro j hj
        simp only [refit_snd_insert]
        tauto
      · rw [if_neg hp0]
        refine ⟨_, rfl, rfl, rfl, rfl, rfl, rfl, Or.inl rfl, ?_⟩
        rintro j (hj | ⟨rfl, hj⟩)
        · exact hj
        · exact absurd hj hp0
    have hrl : RefitListOK s.nodes.length s2.refit := by
      rcases hrf2 with e | ⟨k, p, e, -, hp⟩
      · rw [e]; exact h.refit
      · rw [e]; exact h.refit.insert hp
    have hok2 : OKExcept O (fun j => j ∈ s.refit.map Prod.snd ∨ j = i) s.nodes →
        OKExcept O (fun j => j ∈ s2.refit.map Prod.snd ∨ (j = b.parent ∧ j = 0)) ns1 := by
      intro hM j b' hb'
      rcases hok1 _ hM j b' hb' with (⟨h1 | h1, h2⟩ | h1) | h1
      · exact Or.inl (Or.inl (hmk2 j (Or.inl h1)))
      · exact absurd h1 h2
      · by_cases hj0 : j = 0
        · exact Or.inl (Or.inr ⟨h1, hj0⟩)
        · exact Or.inl (Or.inl (hmk2 j (Or.inr ⟨h1, hj0⟩)))
      · exact Or.inr h1
    have hno0 : ∀ {ns : List (Node B)} {t' : T}, Shape ns s.root t' → ∀ (b' : Branch B), ns[0]? ≠ some (.branch b') := by
      intro ns t' hs b' hb'
      exact hs.pos (hs.children hb').1
    have hvals1 : ValsOK ns1 s.values := h.vals.congr (fun j => by rw [hleaf1])
    by_cases hdraw : draw < 10
    · obtain ⟨ns', t', hrot⟩ := rotate_spec O hsh1 (i := i) (by omega)
      refine ⟨{ s2 with nodes := ns' }, t', ?_, ⟨?_, ?_, ?_, ?_⟩, hv2, hu2, hr2, hf2, ?_, ?_, hrot.perm,
        hrot.leaves, hrot.dep, ?_, ?_⟩
      · simp only [Dbvt.refitNode, hrc, Res.bind_ok, Dbvt.markParent, hs2, hdraw, if_true, hn2, hrot.run, Res.pure_eq]
      · simp only [hr2]; exact hrot.shape
      · simp only [hf2]
        rw [show ns'.length = s.nodes.length by rw [hrot.len, hlen1]]
        exact ⟨h.free.nodup, fun j => by rw [hrot.perm.mem_iff]; exact h.free.mem j⟩
      · simp only [hv2]; exact hvals1.congr (fun j => by rw [hrot.leaf])
      · simp only; rw [show ns'.length = s.nodes.length by rw [hrot.len, hlen1]]; exact hrl
      · simp only; rw [hrot.len, hlen1]
      · intro j; simp only; rw [hrot.leaf, hleaf1]
      · rcases hrf2 with e | ⟨k, p, e, hp, -⟩
        · exact Or.inl e
        · exact Or.inr ⟨k, p, e, hp⟩
      · intro hM j b' hb'
        simp only at hb' ⊢
        rcases hrot.ok _ (hok2 hM) j b' hb' with (h1 | h1) | h1
        · rcases h1 with h1 | h1
          · exact Or.inl h1
          · rw [h1.2] at hb'; exact absurd hb' (hno0 hrot.shape b')
        · obtain ⟨b2, hb2, rfl⟩ := h1
          rw [hb1] at hb2
          simp at hb2; subst hb2
          rw [hbp] at hb' ⊢
          by_cases hp0 : b.parent = 0
          · rw [hp0] at hb'; exact absurd hb' (hno0 hrot.shape b')
          · exact Or.inl (hmk2 _ (Or.inr ⟨rfl, hp0⟩))
        · exact Or.inr h1
    · refine ⟨s2, t, ?_, ⟨?_, ?_, ?_, ?_⟩, hv2, hu2, hr2, hf2, by rw [hn2, hlen1], ?_, .refl _, .refl _,
        fun _ => Or.inl rfl, ?_, ?_⟩
      · simp only [Dbvt.refitNode, hrc, Res.bind_ok, Dbvt.markParent, hs2, hdraw, if_false, Res.pure_eq]
      · rw [hn2, hr2]; exact hsh1
      · rw [hf2, hn2, hlen1]; exact h.free
      · rw [hn2, hv2]; exact hvals1
      · rw [hn2, hlen1]; exact hrl
      · intro j; rw [hn2]; exact hleaf1 j
      · rcases hrf2 with e | ⟨k, p, e, hp, -⟩
        · exact Or.inl e
        · exact Or.inr ⟨k, p, e, hp⟩
      · intro hM j b' hb'
        rw [hn2] at hb' ⊢
        rcases hok2 hM j b' hb' with (h1 | h1) | h1
        · exact Or.inl h1
        · rw [h1.2] at hb'; exact absurd hb' (hno0 hsh1 b')
        · exact Or.inr h1
  · have hnb : ∀ b : Branch B, s.nodes[i]? ≠ some (.branch b) := fun b hb => hbr ⟨b, hb⟩
    have hrc := recalc_nonbranch O hi hnb
    have hrot : rotate O s.nodes i = .ok s.nodes := by
      cases hn : s.nodes[i]? with
      | none => rw [List.getElem?_eq_none_iff] at hn; omega
      | some n =>
        cases n with
        | branch b => exact absurd hn (hnb b)
        | leaf l => simp [rotate, nodeAt_some hn]
        | nil => simp [rotate, nodeAt_some hn]
    refine ⟨s, t, ?_, h, rfl, rfl, rfl, rfl, rfl, fun _ => rfl, .refl _, .refl _, fun _ => Or.inl rfl,
      Or.inl rfl, ?_⟩
    · simp only [Dbvt.refitNode, hrc, Res.bind_ok, Dbvt.markParent, hrot, Res.pure_eq, ite_self]
    · intro hM j b hb
      rcases hM j b hb with (h1 | h1) | h1
      · exact Or.inl h1
      · subst h1; exact absurd hb (hnb b)
      · exact Or.inr h1

/-! ## Termination measure -/

/-- Weight of a pending entry at depth `d`. -/
def wt (W D : Nat) : Nat → Nat
  | 0 => W ^ (D + 1)
  | d + 1 => wt W D d + W ^ (D - d)

/-- Total weight of the refit list. -/
def phi (W D : Nat) (t : T) (rf : List (Nat × Nat)) : Nat :=
  (rf.map fun x => wt W D (t.dep x.2)).sum

theorem phi_insert (W D : Nat) (t : T) (x : Nat × Nat) (rf : List (Nat × Nat)) :
    phi W D t (sortedInsert x rf) ≤ wt W D (t.dep x.2) + phi W D t rf := by
  unfold phi
  induction rf with
  | nil => simp [sortedInsert]
  | cons y ys ih =>
    simp only [sortedInsert]
    split
    · simp
    · split
      · simp
      · simp only [List.map_cons, List.sum_cons]; omega

theorem phi_shift (W D : Nat) (hW : 0 < W) (t t' : T) (d : Nat)
    (hd : ∀ j, t'.dep j = t.dep j ∨ (d < t.dep j ∧ t'.dep j ≤ t.dep j + 1)) (rf : List (Nat × Nat)) :
    phi W D t' rf ≤ phi W D t rf + rf.length * W ^ (D - d - 1) := by
  have hmono : ∀ {a b : Nat}, a ≤ b → wt W D a ≤ wt W D b := by
    intro a b hab
    induction hab with
    | refl => exact Nat.le_refl _
    | step _ ih => simp only [wt]; omega
  unfold phi
  induction rf with
  | nil => simp
  | cons y ys ih =>
    simp only [List.map_cons, List.sum_cons, List.length_cons, Nat.add_mul, Nat.one_mul]
    have : wt W D (t'.dep y.2) ≤ wt W D (t.dep y.2) + W ^ (D - d - 1) := by
      rcases hd y.2 with e | ⟨h1, h2⟩
      · rw [e]; omega
      · have h3 := hmono h2
        simp only [wt] at h3
        have h4 : W ^ (D - t.dep y.2) ≤ W ^ (D - d - 1) := Nat.pow_le_pow_right hW (by omega)
        omega
    omega

/-- Number of iterations that is always enough for `do_refit`: it depends only on the state, not on
the random numbers. -/
def Dbvt.refitFuel (s : Dbvt V B) : Nat :=
  s.refit.length * wt (s.refit.length + 1) s.nodes.length s.nodes.length

/-- What `do_refit` guarantees. -/
structure RefitDone (O : Ops V B S) (s : Dbvt V B) (t : T) (s' : Dbvt V B) (t' : T) : Prop where
  wf : WFt s' t'
  values : s'.values = s.values
  updated : s'.updated = s.updated
  root : s'.root = s.root
  free : s'.free = s.free
  len : s'.nodes.length = s.nodes.length
  leaf : ∀ j, leafAt s'.nodes j = leafAt s.nodes j
  perm : t'.idxs.Perm t.idxs
  leaves : t'.leaves.Perm t.leaves
  refit : s'.refit = []
  ok : RefitOK O s → RefitOK O s'

theorem doRefit_aux (O : Ops V B S) (W D : Nat) : ∀ (n : Nat) (rng : Nat → Nat) (s : Dbvt V B) (t : T),
    WFt s t → s.nodes.length = D → s.refit.length < W → phi W D t s.refit ≤ n →
    ∃ s' t', s.doRefit O rng n = .ok s' ∧ RefitDone O s t s' t' := by
  intro n
  induction n with
  | zero =>
    intro rng s t h hD hW hphi
    cases hr : s.refit with
    | nil =>
      exact ⟨s, t, by simp [Dbvt.doRefit, hr], h, rfl, rfl, rfl, rfl, rfl, fun _ => rfl, .refl _, .refl _, hr, id⟩
    | cons x xs =>
      exfalso
      rw [hr] at hphi hW
      simp only [phi, List.map_cons, List.sum_cons] at hphi
      have : 0 < wt W D (t.dep x.2) := by
        have : ∀ d, 0 < wt W D d := by
          intro d
          induction d with
          | zero => exact Nat.pow_pos (by omega)
          | succ d ih => simp only [wt]; omega
        exact this _
      omega
  | succ n ih =>
    intro rng s t h hD hW hphi
    cases hr : s.refit with
    | nil =>
      exact ⟨s, t, by simp [Dbvt.doRefit, hr], h, rfl, rfl, rfl, rfl, rfl, fun _ => rfl, .refl _, .refl _, hr, id⟩
    | cons x xs =>
      obtain ⟨k, i⟩ := x
      have hi : i < s.nodes.length := h.refit.lt (k, i) (by simp [hr])
      have hrl := h.refit
      rw [hr] at hrl
      have h0 : WFt ({ s with refit := xs } : Dbvt V B) t :=
        ⟨h.shape, h.free, h.vals, ⟨(List.pairwise_cons.1 hrl.sorted).2, fun y hy => hrl.lt y (by simp [hy])⟩⟩
      obtain ⟨s1, t1, h1⟩ := refitNode_spec O (rng 0) h0 (i := i) hi
      rw [hr] at hphi hW
      simp only [List.length_cons] at hW
      simp only [phi, List.map_cons, List.sum_cons] at hphi
      have hshift := phi_shift W D (by omega) t t1 (t.dep i) h1.dep
      have hdi : t.dep i < D := by
        have := t.dep_lt i
        have := h.shape.length_le
        omega
      have hphi1 : phi W D t1 s1.refit ≤ n := by
        have hs := hshift xs
        have hxs : phi W D t xs = (xs.map fun x => wt W D (t.dep x.2)).sum := rfl
        rw [← hxs] at hphi
        have hmul : xs.length * W ^ (D - t.dep i - 1) < W ^ (D - t.dep i) := by
          calc xs.length * W ^ (D - t.dep i - 1) < W * W ^ (D - t.dep i - 1) :=
                Nat.mul_lt_mul_of_pos_right (by omega) (Nat.pow_pos (by omega))
            _ = W ^ (D - t.dep i - 1 + 1) := by rw [Nat.pow_succ, Nat.mul_comm]
            _ = W ^ (D - t.dep i) := by congr 1; omega
        have hpw : W ^ (D - t.dep i) ≤ W ^ (D + 1) := Nat.pow_le_pow_right (by omega) (by omega)
        have hge : ∀ d, W ^ (D + 1) ≤ wt W D d := by
          intro d
          induction d with
          | zero => exact Nat.le_refl _
          | succ d ih => simp only [wt]; omega
        rcases h1.refit with e | ⟨k', p, e, hp⟩
        · simp only at e
          rw [e]
          have := hge (t.dep i)
          omega
        · simp only at e
          rw [e]
          have hins := phi_insert W D t1 (k', p) xs
          simp only at hins
          have hdp : t1.dep p = t.dep p := by
            rcases h1.dep p with h | h
            · exact h
            · omega
          rw [hdp] at hins
          have hw : wt W D (t.dep i) = wt W D (t.dep p) + W ^ (D - t.dep p) := by
            rw [← hp]; rfl
          have hpw2 : W ^ (D - t.dep i) ≤ W ^ (D - t.dep p) := Nat.pow_le_pow_right (by omega) (by omega)
          omega
      have hlen1 : s1.refit.length < W := by
        rcases h1.refit with e | ⟨k', p, e, -⟩
        · simp only at e; rw [e]; omega
        · simp only at e; rw [e]
          have := sortedInsert_length (x := (k', p)) (l := xs)
          omega
      obtain ⟨s', t', hrun, hdone⟩ := ih (fun n => rng (n + 1)) s1 t1 h1.wf (by rw [h1.len]; exact hD) hlen1 hphi1
      refine ⟨s', t', ?_, hdone.wf, by rw [hdone.values, h1.values], by rw [hdone.updated, h1.updated],
        by rw [hdone.root, h1.root], by rw [hdone.free, h1.free], by rw [hdone.len, h1.len],
        fun j => by rw [hdone.leaf, h1.leaf], hdone.perm.trans h1.perm, hdone.leaves.trans h1.leaves,
        hdone.refit, fun hok => hdone.ok (h1.ok ?_)⟩
      · rw [Dbvt.doRefit.eq_def]
        simp only [hr, h1.run, Res.bind_ok]
        exact hrun
      · intro j b hb
        rcases hok j b hb with h2 | h2
        · left
          rw [hr] at h2
          simp only [List.map_cons, List.mem_cons] at h2
          tauto
        · exact Or.inr h2

theorem wt_mono (W D : Nat) {a b : Nat} (hab : a ≤ b) : wt W D a ≤ wt W D b := by
  induction hab with
  | refl => exact Nat.le_refl _
  | step _ ih => simp only [wt]; omega

theorem phi_le_fuel {s : Dbvt V B} {t : T} (h : WFt s t) :
    phi (s.refit.length + 1) s.nodes.length t s.refit ≤ s.refitFuel := by
  have key : ∀ (W D : Nat) (rf : List (Nat × Nat)), (∀ j, t.dep j ≤ D) →
      phi W D t rf ≤ rf.length * wt W D D := by
    intro W D rf hd
    unfold phi
    induction rf with
    | nil => simp
    | cons x xs ih =>
      simp only [List.map_cons, List.sum_cons, List.length_cons, Nat.add_mul, Nat.one_mul]
      have := wt_mono W D (hd x.2)
      omega
  refine key _ _ _ fun j => ?_
  have := t.dep_lt j
  have := h.shape.length_le
  omega

/-- `do_refit` terminates within `refitFuel` iterations whatever the random numbers are. -/
theorem doRefit_spec (O : Ops V B S) {s : Dbvt V B} {t : T} (h : WFt s t) (rng : Nat → Nat) (n : Nat)
    (hn : s.refitFuel ≤ n) : ∃ s' t', s.doRefit O rng n = .ok s' ∧ RefitDone O s t s' t' :=
  doRefit_aux O (s.refit.length + 1) s.nodes.length n rng s t h rfl (by omega)
    (Nat.le_trans (phi_le_fuel h) hn)

end Verif.Dbvt
