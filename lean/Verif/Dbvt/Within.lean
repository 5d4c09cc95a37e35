import Verif.Dbvt.Props
/-!
# The volumes of the tree stay within the scene (C112)

Every leaf stores the fat volume of a value that was given to the tree, and after `do_refit`/`tick` every branch stores the union of its children: no volume in the tree reaches beyond the
fat volumes it was given.
-/
namespace Verif.Dbvt
open Verif
variable {V B S : Type}

/-- The values a history handed to the tree: by `insert`, by `update_node`, or by writing through `values_mut`. -/
def Given : Hist V → V → Prop
  | [], _ => False
  | (.insert v, _) :: h, w => w = v ∨ Given h w
  | (.updateNode _ v, _) :: h, w => w = v ∨ Given h w
  | (.mutate vs, _) :: h, w => w ∈ vs.map Prod.snd ∨ Given h w
  | _ :: h, w => Given h w

theorem Given.step {h : Hist V} {w : V} (hg : Given h w) (e : Call V × Ret V) : Given (e :: h) w := by
  obtain ⟨c, r⟩ := e
  cases c <;> first | exact Or.inr hg | exact hg

theorem mapOf_given {h : Hist V} {i : Nat} {v : V} (hm : mapOf h i = some v) : Given h v := by
  induction h generalizing i v with
  | nil => simp [mapOf] at hm
  | cons e h ih =>
    obtain ⟨c, r⟩ := e
    cases c with
    | insert w =>
      cases r with
      | idx j =>
        simp only [mapOf] at hm
        split at hm
        · exact Or.inl (Option.some.inj hm).symm
        · exact Or.inr (ih hm)
      | unit => exact Or.inr (ih (by simpa [mapOf] using hm))
      | removed o => exact Or.inr (ih (by simpa [mapOf] using hm))
    | remove j =>
      simp only [mapOf] at hm
      split at hm
      · cases hm
      · exact ih hm
    | updateNode j w =>
      simp only [mapOf] at hm
      split at hm
      · obtain ⟨-, -, rfl⟩ := Option.map_eq_some_iff.1 hm
        exact Or.inl rfl
      · exact Or.inr (ih hm)
    | flagUpdated j => exact ih (by simpa [mapOf] using hm)
    | update => exact ih (by simpa [mapOf] using hm)
    | doRefit rng => exact ih (by simpa [mapOf] using hm)
    | tick rng => exact ih (by simpa [mapOf] using hm)
    | clear => simp [mapOf] at hm
    | mutate vs =>
      refine Or.inl ?_
      simp only [mapOf, lookup] at hm
      obtain ⟨e, he, rfl⟩ := Option.map_eq_some_iff.1 hm
      exact List.mem_map.2 ⟨e, List.mem_of_find?_eq_some he, rfl⟩

/-- After an `update`, the volume of a leaf is the old one or the fat volume of a stored value. -/
theorem update_leaf {O : Ops V B S} {h : Hist V} {s s' : Dbvt V B} (hi : Inv O h s) (hr : s.update O = .ok s') {j : Nat} {d : Nat × B} (hj : leafAt s'.nodes j = some d) :
    leafAt s.nodes j = some d ∨ ∃ v, (j, v) ∈ s.values ∧ d.2 = O.fat v := by
  obtain ⟨s1, h1, h2⟩ := update_spec O s hi.wf (update_range O hr)
  rw [h1] at hr
  cases hr
  exact h2.2.2.2.2.2.2.2.2.2 j d hj

/-- **C112, leaves.** Every leaf stores the fat volume of a value that was given to the tree. -/
theorem c112_leaf (O : Ops V B S) {h : Hist V} {s : Dbvt V B} (he : Exec O h s) {j : Nat} {l : Leaf B} (hl : s.nodes[j]? = some (.leaf l)) : ∃ v, Given h v ∧ l.bound = O.fat v := by
  suffices H : ∀ j d, leafAt s.nodes j = some d → ∃ v, Given h v ∧ d.2 = O.fat v from H j _ (leafAt_of hl)
  clear hl l j
  induction he with
  | new =>
    intro j d hj
    obtain ⟨l, hl, -⟩ := leafAt_eq.1 hj
    simp only [Dbvt.new, List.getElem?_singleton] at hl
    split at hl <;> simp at hl
  | @step h s c r s' fuel he hleg hrun ih =>
    have hi := exec_inv O he
    intro j d hj
    have keep : (∃ v, Given h v ∧ d.2 = O.fat v) → ∃ v, Given ((c, r) :: h) v ∧ d.2 = O.fat v := fun ⟨v, a, b⟩ => ⟨v, a.step _, b⟩
    have upd : ∀ {s1}, s.update O = .ok s1 → leafAt s1.nodes j = some d → ∃ v, Given h v ∧ d.2 = O.fat v := by
      intro s1 hup hj
      rcases update_leaf hi hup hj with h1 | ⟨v, hv, e⟩
      · exact ih j d h1
      · exact ⟨v, mapOf_given (hi.mem.1 hv), e⟩
    have same : ∀ {b : B}, (leafAt s.nodes j).map Prod.snd = some b → ∃ v, Given h v ∧ b = O.fat v := by
      intro b hb
      obtain ⟨d', hd', rfl⟩ := Option.map_eq_some_iff.1 hb
      exact ih j d' hd'
    cases c with
    | insert v =>
      obtain ⟨i, s1, h1, h2, h3, h4, h5, h6, h7, ⟨k, h8⟩, h9, h10⟩ := insert_spec O s hi.wf v
      simp only [call, h1, Res.bind_ok, Res.pure_eq, Res.ok.injEq, Prod.mk.injEq] at hrun
      obtain ⟨rfl, rfl⟩ := hrun
      obtain ⟨l, hl, -, e⟩ := leafAt_eq.1 hj
      obtain ⟨w, hw⟩ := h2.mem_iff_leaf.2 ⟨l, hl⟩
      rw [h3, List.mem_append, List.mem_singleton] at hw
      rcases hw with hw | hw
      · obtain ⟨l', hl'⟩ := hi.wf.mem_iff_leaf.1 ⟨w, hw⟩
        have := h7 j _ (leafAt_of hl')
        rw [hj] at this
        exact keep (ih j d (by rw [leafAt_of hl', this]))
      · cases hw
        rw [h8] at hj
        cases hj
        exact ⟨_, Or.inl rfl, rfl⟩
    | remove i =>
      simp only [call, Res.bind_eq_ok] at hrun
      obtain ⟨⟨o, s1⟩, hrm, hrun⟩ := hrun
      simp only [Res.pure_eq, Res.ok.injEq, Prod.mk.injEq] at hrun
      obtain ⟨rfl, rfl⟩ := hrun
      rcases remove_spec O hi.wf (remove_range hrm) with ⟨v, s2, hl⟩ | ⟨h1, h2⟩
      · have := hl.run
        rw [hrm] at this
        simp at this
        obtain ⟨rfl, rfl⟩ := this
        by_cases hji : j = i
        · rw [hji, hl.gone] at hj
          cases hj
        · exact keep (same (by rw [← hl.leaves j hji, hj]; rfl))
      · rw [hrm] at h1
        simp at h1
        obtain ⟨rfl, rfl⟩ := h1
        exact keep (ih j d hj)
    | updateNode i w =>
      simp only [call, Res.bind_eq_ok] at hrun
      obtain ⟨s1, hup, hrun⟩ := hrun
      simp only [Res.pure_eq, Res.ok.injEq, Prod.mk.injEq] at hrun
      obtain ⟨rfl, rfl⟩ := hrun
      obtain ⟨s2, h1, h2, h3, h4, h5, h6, h7, h8⟩ := updateNode_spec O s hi.wf i w (updateNode_range hup)
      rw [hup] at h1
      simp at h1; subst h1
      rw [h3] at hj
      exact keep (ih j d hj)
    | flagUpdated i =>
      simp only [call, Res.ok.injEq, Prod.mk.injEq] at hrun
      obtain ⟨rfl, rfl⟩ := hrun
      exact keep (ih j d hj)
    | update =>
      simp only [call, Res.bind_eq_ok] at hrun
      obtain ⟨s1, hup, hrun⟩ := hrun
      simp only [Res.pure_eq, Res.ok.injEq, Prod.mk.injEq] at hrun
      obtain ⟨rfl, rfl⟩ := hrun
      exact keep (upd hup hj)
    | doRefit rng =>
      simp only [call, Res.bind_eq_ok] at hrun
      obtain ⟨s1, hup, hrun⟩ := hrun
      simp only [Res.pure_eq, Res.ok.injEq, Prod.mk.injEq] at hrun
      obtain ⟨rfl, rfl⟩ := hrun
      rw [(doRefit_of_ok O hi.wf hup).leaf] at hj
      exact keep (ih j d hj)
    | tick rng =>
      simp only [call, Dbvt.tick, Res.bind_eq_ok] at hrun
      obtain ⟨s1, ⟨s2, hup, hrf⟩, hrun⟩ := hrun
      simp only [Res.pure_eq, Res.ok.injEq, Prod.mk.injEq] at hrun
      obtain ⟨rfl, rfl⟩ := hrun
      rw [(doRefit_of_ok O (update_inv hi hup).1 hrf).leaf] at hj
      exact keep (upd hup hj)
    | clear =>
      simp only [call, Res.ok.injEq, Prod.mk.injEq] at hrun
      obtain ⟨rfl, rfl⟩ := hrun
      obtain ⟨l, hl, -⟩ := leafAt_eq.1 hj
      simp only [Dbvt.clear, List.getElem?_singleton] at hl
      split at hl <;> simp at hl
    | mutate vs =>
      obtain ⟨s1, h1, h2, h3, h4, h5, h6, h7, h8, h9, h10, h11⟩ := reindex_spec O s hi.wf vs hleg
      simp only [call, h1, Res.bind_ok, Res.pure_eq, Res.ok.injEq, Prod.mk.injEq] at hrun
      obtain ⟨rfl, rfl⟩ := hrun
      exact keep (same (by rw [← h10 j, hj]; rfl))

/-- **C112.** After `do_refit`/`tick`, whatever holds of the fat volumes of all values ever given to the tree and is kept by unions holds of every volume stored in the tree, branches and leaves. -/
theorem c112_within (O : Ops V B S) {h : Hist V} {s : Dbvt V B} (he : Exec O h s) (hr : Refitted! h) (P : B → Prop) (hU : ∀ a b, P a → P b → P (O.union a b)) (hP : ∀ v, Given h v → P (O.fat v)) :
    (∀ (i : Nat) (b : Branch B), s.nodes[i]? = some (.branch b) → P b.bound) ∧ ∀ (i : Nat) (l : Leaf B), s.nodes[i]? = some (.leaf l) → P l.bound := by
  have hleaf : ∀ (i : Nat) (l : Leaf B), s.nodes[i]? = some (.leaf l) → P l.bound := by
    intro i l hl
    obtain ⟨v, hv, e⟩ := c112_leaf O he hl
    rw [e]
    exact hP v hv
  refine ⟨?_, hleaf⟩
  have key : ∀ (n i : Nat) (x : Nat × B), hbAt s.nodes i = some x → x.1 ≤ n → P x.2 := by
    intro n
    induction n with
    | zero =>
      intro i x hx h0
      obtain ⟨m, hm, hx⟩ := Option.bind_eq_some_iff.1 hx
      cases m with
      | leaf l => cases hx; exact hleaf i l hm
      | branch b =>
        cases hx
        obtain ⟨y, z, -, -, e, -⟩ := local_ok O he hr i b hm
        simp only [e] at h0
        omega
      | nil => cases hx
    | succ n ih =>
      intro i x hx h0
      obtain ⟨m, hm, hx⟩ := Option.bind_eq_some_iff.1 hx
      cases m with
      | leaf l => cases hx; exact hleaf i l hm
      | branch b =>
        cases hx
        obtain ⟨y, z, hy, hz, e, e'⟩ := local_ok O he hr i b hm
        simp only [e] at h0
        rw [e']
        exact hU _ _ (ih _ y hy (by omega)) (ih _ z hz (by omega))
      | nil => cases hx
  intro i b hb
  exact key b.height i (b.height, b.bound) (by simp [hbAt, hb, Node.hb]) le_rfl

/-- Its hypotheses: a tree after a `tick` with branches, all of whose fat volumes lie between -1 and 12. -/
example : ∃ h s, Exec demo h s ∧ Refitted! h ∧ (∀ v, Given h v → -1 ≤ (demo.fat v).1 ∧ (demo.fat v).2 ≤ 12) ∧ ∃ (i : Nat) (b : Branch (Int × Int)), s.nodes[i]? = some (.branch b) := by
  have hr : ∃ h s, runCalls demo 40 [.insert (0, 1), .insert (10, 11), .insert (4, 5), .tick (fun _ => 0)] [] Dbvt.new = some (h, s) ∧
      (∀ v, Given h v → v = (0, 1) ∨ v = (10, 11) ∨ v = (4, 5)) ∧ Refitted! h ∧ ∃ (i : Nat) (b : Branch (Int × Int)), s.nodes[i]? = some (.branch b) :=
    ⟨_, _, rfl, by
      intro v hv
      simp only [Given, or_false] at hv
      tauto, trivial, 2, _, rfl⟩
  obtain ⟨h, s, hr, hg, hrf, hb⟩ := hr
  refine ⟨h, s, exec_of_run (by simp) .new hr, hrf, fun v hv => ?_, hb⟩
  rcases hg v hv with rfl | rfl | rfl <;> simp [demo]
end Verif.Dbvt
