import Verif.Primitive.PolyhedronC63
import Mathlib.Data.List.Nodup
/-!
# C51: `new_with_faces_dedup`
-/
namespace Verif.Primitive
open Verif Verif.Geom
set_option linter.unusedSectionVars false

/-- the inner loop of `dedup_vertices` -/
theorem dedup_inner (v : V3 ℝ) (i : Nat) : ∀ (vs : List (V3 ℝ)) (s : Nat) (acc : (Nat → Option Nat) × Bool), vs.Nodup →
    let r := (vs.zipIdx s).foldl (fun (acc : (Nat → Option Nat) × Bool) p =>
      haveI := Classical.decEq (V3 ℝ)
      if p.1 = v then ((fun k => if k = i then some p.2 else acc.1 k), true) else acc) acc
    (v ∉ vs → r = acc) ∧ (v ∈ vs → ∃ j, vs[j]? = some v ∧ r = ((fun k => if k = i then some (s + j) else acc.1 k), true)) := by
  intro vs
  induction vs with
  | nil => intro s acc _; simp
  | cons w vs ih =>
    intro s acc hnd
    obtain ⟨hw, hnd⟩ := List.nodup_cons.1 hnd
    simp only [List.zipIdx_cons, List.foldl_cons]
    by_cases hwv : w = v
    · subst hwv
      have := ih (s + 1) ((fun k => if k = i then some s else acc.1 k), true) hnd
      simp only [if_true]
      refine ⟨fun hn => absurd List.mem_cons_self hn, fun _ => ⟨0, by simp, ?_⟩⟩
      rw [this.1 hw]; simp
    · have := ih (s + 1) acc hnd
      simp only [hwv, if_false]
      refine ⟨fun hn => this.1 fun hm => hn (List.mem_cons_of_mem _ hm), fun hm => ?_⟩
      have hm' : v ∈ vs := by rcases List.mem_cons.1 hm with h | h; exact absurd h.symm hwv; exact h
      obtain ⟨j, j1, j2⟩ := this.2 hm'
      refine ⟨j + 1, by simpa using j1, ?_⟩
      rw [j2, show s + 1 + j = s + (j + 1) by omega]

/-- state of `dedup_vertices` after the vertices `pre` -/
structure DedupInv (pre kept : List (V3 ℝ)) (dup : Nat → Option Nat) : Prop where
  nodup : kept.Nodup
  mem : ∀ v, v ∈ kept ↔ v ∈ pre
  le : kept.length ≤ pre.length
  eq : kept.length = pre.length ↔ pre.Nodup
  later : ∀ k, pre.length ≤ k → dup k = none
  some : ∀ (k j : Nat), dup k = some j → ∃ v, pre[k]? = .some v ∧ kept[j]? = .some v ∧ v ∈ pre.take k
  none : ∀ (k : Nat) v, pre[k]? = .some v → dup k = none → v ∉ pre.take k ∧ ∃ j, kept[j]? = .some v ∧ (j = k ↔ (pre.take k).Nodup)

theorem dedupLoop_spec : ∀ (rest : List (V3 ℝ)) (pre kept : List (V3 ℝ)) (dup : Nat → Option Nat), DedupInv pre kept dup →
    DedupInv (pre ++ rest) (dedupLoop rest pre.length kept dup).1 (dedupLoop rest pre.length kept dup).2 := by
  intro rest
  induction rest with
  | nil => intro pre kept dup h; simpa [dedupLoop] using h
  | cons v rest ih =>
    intro pre kept dup h
    have hin := dedup_inner v pre.length kept 0 (dup, false) h.nodup
    simp only at hin
    unfold dedupLoop
    simp only
    have hap : pre ++ v :: rest = (pre ++ [v]) ++ rest := by simp
    have hlen : pre.length + 1 = (pre ++ [v]).length := by simp
    by_cases hv : v ∈ kept
    · obtain ⟨j, j1, j2⟩ := hin.2 hv
      rw [j2]
      simp only [if_true]
      rw [hap, hlen]
      apply ih
      have hvp := (h.mem v).1 hv
      refine ⟨h.nodup, ?_, ?_, ?_, ?_, ?_, ?_⟩
      · intro w; simp only [h.mem, List.mem_append, List.mem_singleton]
        constructor
        · exact Or.inl
        · rintro (h | rfl)
          · exact h
          · exact hvp
      · simp only [List.length_append, List.length_singleton]; have := h.le; omega
      · have := h.le
        constructor
        · intro e; simp only [List.length_append, List.length_singleton] at e; omega
        · intro hn; rw [List.nodup_append] at hn; exact absurd rfl (hn.2.2 v hvp v (by simp))
      · intro k hk; simp only [List.length_append, List.length_singleton] at hk
        rw [if_neg (by omega)]; exact h.later k (by omega)
      · intro k j' hk
        by_cases hkp : k = pre.length
        · subst hkp
          rw [if_pos rfl] at hk
          have hj : j' = j := by simpa using hk.symm
          subst hj
          exact ⟨v, by simp, j1, by simpa using hvp⟩
        · rw [if_neg hkp] at hk
          obtain ⟨w, w1, w2, w3⟩ := h.some k j' hk
          have hkl := (List.getElem?_eq_some_iff.1 w1).1
          exact ⟨w, by rw [List.getElem?_append_left hkl]; exact w1, w2, by rw [List.take_append_of_le_length hkl.le]; exact w3⟩
      · intro k w hw hk
        have hkp : k ≠ pre.length := by rintro rfl; rw [if_pos rfl] at hk; cases hk
        rw [if_neg hkp] at hk
        have hkl : k < pre.length := by
          have := (List.getElem?_eq_some_iff.1 hw).1
          simp at this; omega
        rw [List.getElem?_append_left hkl] at hw
        rw [List.take_append_of_le_length hkl.le]
        exact h.none k w hw hk
    · rw [hin.1 hv]
      simp only [Bool.false_eq_true, if_false]
      rw [hap, hlen]
      apply ih
      have hvp : v ∉ pre := fun hc => hv ((h.mem v).2 hc)
      refine ⟨?_, ?_, ?_, ?_, ?_, ?_, ?_⟩
      · exact List.nodup_append.2 ⟨h.nodup, by simp, by intro a ha b hb; simp at hb; subst hb; rintro rfl; exact hv ha⟩
      · intro w; simp [h.mem]
      · simp only [List.length_append, List.length_singleton]; have := h.le; omega
      · simp only [List.length_append, List.length_singleton]
        constructor
        · intro e
          exact List.nodup_append.2 ⟨h.eq.1 (by omega), by simp, by intro a ha b hb; simp at hb; subst hb; rintro rfl; exact hvp ha⟩
        · intro hn; have := h.eq.2 (List.nodup_append.1 hn).1; omega
      · intro k hk; simp only [List.length_append, List.length_singleton] at hk; exact h.later k (by omega)
      · intro k j hk
        obtain ⟨w, w1, w2, w3⟩ := h.some k j hk
        have hkl := (List.getElem?_eq_some_iff.1 w1).1
        have hjl := (List.getElem?_eq_some_iff.1 w2).1
        exact ⟨w, by rw [List.getElem?_append_left hkl]; exact w1, by rw [List.getElem?_append_left hjl]; exact w2,
          by rw [List.take_append_of_le_length hkl.le]; exact w3⟩
      · intro k w hw hk
        have hkl : k < pre.length + 1 := by
          have := (List.getElem?_eq_some_iff.1 hw).1
          simpa using this
        by_cases hkp : k = pre.length
        · subst hkp
          simp only [List.getElem?_append_right (le_refl _), Nat.sub_self, List.getElem?_cons_zero, Option.some.injEq] at hw
          subst hw
          refine ⟨by simpa using hvp, kept.length, by simp, ?_⟩
          simpa using h.eq
        · rw [List.getElem?_append_left (by omega)] at hw
          rw [List.take_append_of_le_length (by omega)]
          obtain ⟨n1, j, n2, n3⟩ := h.none k w hw hk
          have hjl := (List.getElem?_eq_some_iff.1 n2).1
          exact ⟨n1, j, by rw [List.getElem?_append_left hjl]; exact n2, n3⟩

theorem dedup_spec (vs : List (V3 ℝ)) : DedupInv vs (dedupVertices vs).1 (dedupVertices vs).2 := by
  have := dedupLoop_spec vs [] [] (fun _ => none) ⟨by simp, by simp, by simp, by simp, by simp, by simp, by simp⟩
  simpa [dedupVertices] using this

/-- C51, partial (missing: indices after a duplicate, for which it is false, see `c51_panics` and `c51_false`): no two stored vertices are equal, they are exactly the
given points, and the remapped index of vertex `k` denotes the same point exactly if `k` repeats an earlier vertex or no two vertices before `k` are equal. -/
theorem c51_dedup_partial (vs : List (V3 ℝ)) : (dedupVertices vs).1.Nodup ∧ (∀ v, v ∈ (dedupVertices vs).1 ↔ v ∈ vs) ∧
    ∀ (k : Nat) v, vs[k]? = some v →
      ((dedupVertices vs).1[((dedupVertices vs).2 k).getD k]? = some v ↔ (v ∈ vs.take k ∨ (vs.take k).Nodup)) := by
  have h := dedup_spec vs
  refine ⟨h.nodup, h.mem, ?_⟩
  intro k v hk
  cases hd : (dedupVertices vs).2 k with
  | some j =>
    obtain ⟨w, w1, w2, w3⟩ := h.some k j hd
    rw [hk] at w1; cases w1
    simp only [Option.getD_some]
    exact ⟨fun _ => Or.inl w3, fun _ => w2⟩
  | none =>
    obtain ⟨n1, j, n2, n3⟩ := h.none k v hk hd
    simp only [Option.getD_none]
    constructor
    · intro he
      right
      apply n3.1
      exact (List.getElem?_inj (List.getElem?_eq_some_iff.1 n2).1 h.nodup).1 (n2.trans he.symm)
    · rintro (hc | hc)
      · exact absurd hc n1
      · rw [← n3.2 hc]; exact n2

/-- C51, partial: if all repetitions come after the distinct vertices, the faces keep their corners. -/
theorem c51_trailing_partial (us ws : List (V3 ℝ)) (hu : us.Nodup) (hw : ∀ w ∈ ws, w ∈ us) (fs : List Tri) :
    (dedupVertices (us ++ ws)).1 = us ∧ ∀ (k : Nat) f a b c, fs[k]? = some f → (us ++ ws)[f.1]? = some a → (us ++ ws)[f.2.1]? = some b → (us ++ ws)[f.2.2]? = some c →
      ∃ g, (dedupFaces fs (dedupVertices (us ++ ws)).2)[k]? = some g ∧ us[g.1]? = some a ∧ us[g.2.1]? = some b ∧ us[g.2.2]? = some c := by
  have key : (dedupVertices (us ++ ws)).1 = us := by
    have hex := c51_dedup_partial (us ++ ws)
    apply List.ext_getElem?
    intro k
    by_cases hk : k < us.length
    · rw [List.getElem?_eq_getElem hk]
      have hv : (us ++ ws)[k]? = some us[k] := by rw [List.getElem?_append_left hk, List.getElem?_eq_getElem hk]
      have ht : ((us ++ ws).take k).Nodup := by
        rw [List.take_append_of_le_length hk.le]; exact hu.sublist (List.take_sublist _ _)
      have h := dedup_spec (us ++ ws)
      cases hd : (dedupVertices (us ++ ws)).2 k with
      | some j =>
        obtain ⟨w, w1, w2, w3⟩ := h.some k j hd
        rw [hv] at w1; cases w1
        rw [List.take_append_of_le_length hk.le] at w3
        obtain ⟨i, hi, e⟩ := List.mem_take_iff_getElem.1 w3
        have := (List.Nodup.getElem_inj_iff hu).1 e
        omega
      | none =>
        have := (hex.2.2 k us[k] hv).2 (Or.inr ht)
        rw [hd] at this
        exact this
    · have hlen : (dedupVertices (us ++ ws)).1.length ≤ us.length := by
        have hs : (dedupVertices (us ++ ws)).1 ⊆ us := by
          intro v hv
          rcases List.mem_append.1 ((hex.2.1 v).1 hv) with h | h
          · exact h
          · exact hw v h
        exact (List.subperm_of_subset hex.1 hs).length_le
      rw [List.getElem?_eq_none (by omega), List.getElem?_eq_none (by omega)]
  refine ⟨key, ?_⟩
  intro k f a b c hf ha hb hc
  have idx : ∀ (i : Nat) v, (us ++ ws)[i]? = some v → us[((dedupVertices (us ++ ws)).2 i).getD i]? = some v := by
    intro i v hv
    have := ((c51_dedup_partial (us ++ ws)).2.2 i v hv).2
    rw [key] at this
    apply this
    by_cases hi : i < us.length
    · right; rw [List.take_append_of_le_length hi.le]; exact hu.sublist (List.take_sublist _ _)
    · left
      rw [List.getElem?_append_right (by omega)] at hv
      have := hw v (List.mem_of_getElem? hv)
      rw [List.take_append]
      rw [List.take_of_length_le (by omega)]
      exact List.mem_append_left _ this
  refine ⟨(((dedupVertices (us ++ ws)).2 f.1).getD f.1, ((dedupVertices (us ++ ws)).2 f.2.1).getD f.2.1, ((dedupVertices (us ++ ws)).2 f.2.2).getD f.2.2), ?_,
    idx _ _ ha, idx _ _ hb, idx _ _ hc⟩
  simp [dedupFaces, List.getElem?_map, hf]

/-- C51 is false: a distinct vertex after a repeated one is looked up at its old number; here beyond the end of the list, and the constructor panics although all faces
are proper. -/
theorem c51_panics : Polyhedron.newWithFacesDedup [⟨0, 0, 0⟩, ⟨0, 0, 0⟩, ⟨1, 0, 0⟩, ⟨0, 1, 0⟩] [(0, 2, 3)] = .panic := by
  have h1 : (⟨0, 0, 0⟩ : V3 ℝ) ≠ ⟨1, 0, 0⟩ := by intro h; have := congrArg V3.x h; simp at this
  have h2 : (⟨0, 0, 0⟩ : V3 ℝ) ≠ ⟨0, 1, 0⟩ := by intro h; have := congrArg V3.y h; simp at this
  have h3 : (⟨1, 0, 0⟩ : V3 ℝ) ≠ ⟨0, 1, 0⟩ := by intro h; have := congrArg V3.x h; simp at this
  have hd : dedupVertices [⟨0, 0, 0⟩, ⟨0, 0, 0⟩, ⟨1, 0, 0⟩, ⟨0, 1, 0⟩] = ([⟨0, 0, 0⟩, ⟨1, 0, 0⟩, ⟨0, 1, 0⟩], fun k => if k = 1 then some 0 else none) := by
    simp [dedupVertices, dedupLoop, List.zipIdx, h1, h2, h3]
  unfold Polyhedron.newWithFacesDedup
  rw [hd]
  simp [dedupFaces, Polyhedron.newWithFaces, facePlanes, facePlane]

/-- C51 is false: with one more vertex the constructor succeeds and the face has a different corner. -/
theorem c51_false : ∃ Q, Polyhedron.newWithFacesDedup [⟨0, 0, 0⟩, ⟨0, 0, 0⟩, ⟨1, 0, 0⟩, ⟨0, 1, 0⟩, ⟨0, 0, 1⟩] [(0, 2, 3)] = .ok Q ∧
    Q.faceAt 0 = .ok (some (⟨0, 0, 0⟩, ⟨0, 1, 0⟩, ⟨0, 0, 1⟩)) := by
  have h1 : (⟨0, 0, 0⟩ : V3 ℝ) ≠ ⟨1, 0, 0⟩ := by intro h; have := congrArg V3.x h; simp at this
  have h2 : (⟨0, 0, 0⟩ : V3 ℝ) ≠ ⟨0, 1, 0⟩ := by intro h; have := congrArg V3.y h; simp at this
  have h3 : (⟨1, 0, 0⟩ : V3 ℝ) ≠ ⟨0, 1, 0⟩ := by intro h; have := congrArg V3.x h; simp at this
  have h4 : (⟨0, 0, 0⟩ : V3 ℝ) ≠ ⟨0, 0, 1⟩ := by intro h; have := congrArg V3.z h; simp at this
  have h5 : (⟨1, 0, 0⟩ : V3 ℝ) ≠ ⟨0, 0, 1⟩ := by intro h; have := congrArg V3.x h; simp at this
  have h6 : (⟨0, 1, 0⟩ : V3 ℝ) ≠ ⟨0, 0, 1⟩ := by intro h; have := congrArg V3.y h; simp at this
  have hd : dedupVertices [⟨0, 0, 0⟩, ⟨0, 0, 0⟩, ⟨1, 0, 0⟩, ⟨0, 1, 0⟩, ⟨0, 0, 1⟩] =
      ([⟨0, 0, 0⟩, ⟨1, 0, 0⟩, ⟨0, 1, 0⟩, ⟨0, 0, 1⟩], fun k => if k = 1 then some 0 else none) := by
    simp [dedupVertices, dedupLoop, List.zipIdx, h1, h2, h3, h4, h5, h6]
  unfold Polyhedron.newWithFacesDedup
  rw [hd]
  have hfs : dedupFaces [(0, 2, 3)] (fun k => if k = 1 then some 0 else none) = [(0, 2, 3)] := by simp [dedupFaces]
  simp only [hfs]
  obtain ⟨Q, q1, q2, -⟩ := c62_faces_iter (vs := [⟨0, 0, 0⟩, ⟨1, 0, 0⟩, ⟨0, 1, 0⟩, ⟨0, 0, 1⟩]) (fs := [(0, 2, 3)]) (by simp [TriOk]) (by unfold Oriented; decide) (by
    intro f hf
    simp only [List.mem_singleton] at hf
    subst hf
    refine ⟨⟨0, 0, 0⟩, ⟨0, 1, 0⟩, ⟨0, 0, 1⟩, rfl, rfl, rfl, ?_⟩
    intro h; have := congrArg V3.x h; simp [V3.cross] at this)
  exact ⟨Q, q1, q2 0 (0, 2, 3) _ _ _ rfl rfl rfl rfl⟩

end Verif.Primitive
