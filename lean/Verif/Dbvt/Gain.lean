import Verif.Dbvt.Props2
import Verif.Dbvt.RotateGain
/-!
# C18: a rotation that is carried out makes the node smaller
-/
namespace Verif.Dbvt
open Verif

variable {V B S : Type}

/-- One turn of the `while` loop of `do_refit` (`src/dbvt/mod.rs:842-847`): the first entry of the refit set is taken out and its
node `i` is refitted, the random draw being `d`. -/
def RefitTurn (O : Ops V B S) (s : Dbvt V B) (i d : Nat) (s' : Dbvt V B) : Prop :=
  ∃ k rest, s.refit = (k, i) :: rest ∧ ({ s with refit := rest }).refitNode O d i = .ok s'

/-- Any number of turns of the loop. -/
inductive Refitting (O : Ops V B S) : Dbvt V B → Dbvt V B → Prop
  | start (s) : Refitting O s s
  | turn {s s1 s2} {i d : Nat} : Refitting O s s1 → RefitTurn O s1 i d s2 → Refitting O s s2

theorem WFt.pop {s : Dbvt V B} {t : T} (h : WFt s t) {k i : Nat} {rest : List (Nat × Nat)} (hq : s.refit = (k, i) :: rest) :
    WFt { s with refit := rest } t ∧ i < s.nodes.length := by
  have := h.refit
  rw [hq] at this
  exact ⟨⟨h.shape, h.free, h.vals, ⟨this.sorted.tail, fun x hx => this.lt x (List.mem_cons_of_mem _ hx)⟩⟩, this.lt (k, i) List.mem_cons_self⟩

theorem Refitting.wf {O : Ops V B S} {s s' : Dbvt V B} (h : WF s) (hr : Refitting O s s') : WF s' := by
  induction hr with
  | start => exact h
  | @turn s1 s2 i d _ ht ih =>
    obtain ⟨k, rest, hq, hn⟩ := ht
    rcases ih with hw | ⟨t, hw⟩
    · rw [hw.refit] at hq; cases hq
    · obtain ⟨h1, h2⟩ := hw.pop hq
      obtain ⟨s2, t2, h3⟩ := refitNode_spec O d h1 (by exact h2)
      have := h3.run
      rw [hn] at this; simp at this; subst this
      exact Or.inr ⟨t2, h3.wf⟩

theorem refitNode_nodes {O : Ops V B S} {s s' : Dbvt V B} {i d : Nat} (h : s.refitNode O d i = .ok s') :
    ∃ o ns, recalc O s.nodes i = .ok (o, ns) ∧
      (if d < 10 then rotate O ns i = .ok s'.nodes else s'.nodes = ns) := by
  unfold Dbvt.refitNode at h
  simp only [Res.bind_eq_ok] at h
  obtain ⟨⟨o, ns⟩, h1, s2, h2, h3⟩ := h
  have e : s2.nodes = ns := by
    unfold Dbvt.markParent Dbvt.markForRefit at h2
    split at h2
    · split at h2
      · simp only [Res.bind_eq_ok, Res.pure_eq, Res.ok.injEq] at h2
        obtain ⟨_, -, rfl⟩ := h2; rfl
      · simp at h2; subst h2; rfl
    · simp at h2; subst h2; rfl
  refine ⟨o, ns, h1, ?_⟩
  split at h3
  · rename_i hd
    rw [if_pos hd]
    simp only [Res.bind_eq_ok, Res.pure_eq, Res.ok.injEq] at h3
    obtain ⟨ns', h4, rfl⟩ := h3
    rw [← e]; exact h4
  · rename_i hd
    rw [if_neg hd]
    simp at h3; subst h3; exact e

/-- C18, first half. At any moment of the refitting of any reachable tree, let the next node be `i`. If refitting it with the draw `d`
leaves other nodes than refitting it without trying a rotation (draw 10) does, then a rotation was carried out, and it made the surface area of the volume of `i`
smaller: the relative gain is above the threshold. (Union is commutative.) Missing: rotations also fire on trees that are up to date - `c18_rotation_never_fires` shows the opposite. -/
theorem c18_rotation_gain_partial (O : Ops V B S) (hcomm : ∀ a b, O.union a b = O.union b a)
    {h : Hist V} {s0 s s1 s' : Dbvt V B} (he : Exec O h s0) (hr : Refitting O s0 s) {i d : Nat}
    (h1 : RefitTurn O s i 10 s1) (h2 : RefitTurn O s i d s') (hne : s'.nodes ≠ s1.nodes) :
    ∃ before after, boundAt s1.nodes i = .ok before ∧ boundAt s'.nodes i = .ok after ∧
      O.lt O.improvement (O.div (O.sub (O.area before) (O.area after)) (O.area before)) = true := by
  obtain ⟨k, rest, hq, hn⟩ := h1
  obtain ⟨k', rest', hq', hn'⟩ := h2
  rw [hq] at hq'; simp at hq'
  obtain ⟨rfl, rfl⟩ := hq'
  rcases hr.wf (exec_inv O he).wf with hw | ⟨t, hw⟩
  · rw [hw.refit] at hq; cases hq
  obtain ⟨hw', hi⟩ := hw.pop hq
  obtain ⟨o, ns, e1, e2⟩ := refitNode_nodes hn
  obtain ⟨o', ns', e1', e2'⟩ := refitNode_nodes hn'
  rw [e1] at e1'; simp at e1'; obtain ⟨rfl, rfl⟩ := e1'
  simp at e2
  by_cases hd : d < 10
  swap
  · rw [if_neg hd] at e2'; exact absurd (e2'.trans e2.symm) hne
  rw [if_pos hd] at e2'
  have hsh : ∃ t', Shape ns s.root t' := by
    by_cases hb : ∃ b : Branch B, s.nodes[i]? = some (.branch b)
    · obtain ⟨b, hb⟩ := hb
      obtain ⟨hh, ns1, hrc, hsh1, -⟩ := recalc_branch O hw.shape hb
      have : recalc O s.nodes i = .ok (o, ns) := e1
      rw [hrc] at this; simp at this
      rw [← this.2]; exact ⟨t, hsh1⟩
    · have : recalc O s.nodes i = .ok (o, ns) := e1
      rw [recalc_nonbranch O hi (fun b hb' => hb ⟨b, hb'⟩)] at this
      simp at this
      rw [← this.2]; exact ⟨t, hw.shape⟩
  obtain ⟨t', hsh⟩ := hsh
  obtain ⟨b, a, h1, h2, h3⟩ := rotate_gain O hcomm hsh e2' (by rw [← e2]; exact hne)
  exact ⟨b, a, by rw [e2]; exact bdAt_eq.1 h1, bdAt_eq.1 h2, h3⟩

/-- Integer intervals, with gains in percent. -/
def percent : Ops (Int × Int) (Int × Int) Int := { demo with div := fun a b => a * 100 / b, improvement := 30 }

/-- Four values inserted, two of them then moved close to the others; the refitting is still to be done. -/
def percentCalls : List (Call (Int × Int)) :=
  [.insert (0, 1), .insert (2, 3), .insert (100, 101), .insert (100, 101), .updateNode 5 (4, 5), .updateNode 7 (4, 5), .update]

/-- A rotation is carried out in the refitting of this reachable tree, in the second turn of the loop: the volume of the root shrinks
from `(-1, 102)` to `(-1, 6)`. -/
example : ∃ h s0 s s1 s', Exec percent h s0 ∧ Refitting percent s0 s ∧ RefitTurn percent s 2 10 s1 ∧ RefitTurn percent s 2 0 s' ∧
    s'.nodes ≠ s1.nodes ∧ boundAt s1.nodes 2 = .ok (-1, 102) ∧ boundAt s'.nodes 2 = .ok (-1, 6) := by
  have hr : ∃ h s0 s s1 s', runCalls percent 20 percentCalls [] Dbvt.new = some (h, s0) ∧
      (({ s0 with refit := s0.refit.tail }).refitNode percent 99 6 = .ok s ∧
      ({ s with refit := s.refit.tail }).refitNode percent 10 2 = .ok s1 ∧ ({ s with refit := s.refit.tail }).refitNode percent 0 2 = .ok s') ∧
      s0.refit.head? = some (2, 6) ∧ s.refit.head? = some (3, 2) ∧ boundAt s1.nodes 2 = .ok (-1, 102) ∧ boundAt s'.nodes 2 = .ok (-1, 6) :=
    ⟨_, _, _, _, _, rfl, ⟨rfl, rfl, rfl⟩, rfl, rfl, rfl, rfl⟩
  obtain ⟨h, s0, s, s1, s', hr, ⟨h0, hA, hB⟩, hq0, hq, b1, b2⟩ := hr
  have cons : ∀ (l : List (Nat × Nat)) x, l.head? = some x → l = x :: l.tail := by
    intro l x h
    cases l with
    | nil => cases h
    | cons y ys => simp at h; rw [h]; rfl
  refine ⟨h, s0, s, s1, s', exec_of_run (by intro c hc vs; simp [percentCalls] at hc; rcases hc with rfl | rfl | rfl | rfl | rfl | rfl | rfl <;> simp) .new hr,
    .turn (.start _) ⟨2, _, cons _ _ hq0, h0⟩, ⟨3, _, cons _ _ hq, hA⟩, ⟨3, _, cons _ _ hq, hB⟩, ?_, b1, b2⟩
  intro e
  rw [e, b1] at b2
  cases b2

end Verif.Dbvt
