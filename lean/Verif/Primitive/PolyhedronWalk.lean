import Verif.Primitive.PolyhedronRay
import Verif.Primitive.PolyhedronExample
/-!
# The face walk of the ray test: C63
-/
namespace Verif.Primitive
open Verif Verif.Geom
set_option linter.unusedSectionVars false

/-- what `new_with_faces` establishes -/
structure Built (vs : List (V3 ℝ)) (fs : List Tri) (p : Polyhedron) : Prop where
  pos : p.positions = vs
  mesh : Describes p.mesh vs.length fs
  planes : facePlanes vs fs = .ok p.planes

theorem facePlanes_get {vs : List (V3 ℝ)} : ∀ {fs : List Tri} {ps : List (Plane ℝ)}, facePlanes vs fs = .ok ps →
    ∀ (k : Nat) f, fs[k]? = some f → ∃ p, ps[k]? = some p ∧ facePlane vs f = .ok p := by
  intro fs
  induction fs with
  | nil => intro ps _ k f hk; simp at hk
  | cons g fs ih =>
    intro ps hps k f hk
    simp only [facePlanes, Res.bind_eq_ok, Res.pure_eq] at hps
    obtain ⟨pl, h1, ps', h2, h3⟩ := hps
    cases h3
    cases k with
    | zero => simp at hk; subst hk; exact ⟨pl, by simp, h1⟩
    | succ k => simp only [List.getElem?_cons_succ] at hk ⊢; exact ih h2 k f hk

section
variable {vs : List (V3 ℝ)} {fs : List Tri} {p : Polyhedron} (hb : Built vs fs p)
include hb

theorem Built.len : p.mesh.faces.length = fs.length := by
  have := congrArg List.length hb.mesh.faces
  simpa using this

theorem Built.face {i : Nat} {f : Tri} (hi : fs[i]? = some f) : ∃ hf pl, p.mesh.faces[i]? = some hf ∧ hf.verts = f ∧ p.planes[i]? = some pl ∧ facePlane vs f = .ok pl := by
  obtain ⟨pl, e1, e2⟩ := facePlanes_get hb.planes i f hi
  have : (p.mesh.faces.map HFace.verts)[i]? = some f := by rw [hb.mesh.faces]; exact hi
  rw [List.getElem?_map] at this
  obtain ⟨hf, e3, e4⟩ := Option.map_eq_some_iff.1 this
  exact ⟨hf, pl, e3, e4, e1, e2⟩

/-- the three coordinates of the crossing point -/
noncomputable def coords (vs : List (V3 ℝ)) (r : Ray3 ℝ) (f : Tri) : ℝ × ℝ × ℝ :=
  (side (nf vs f) (P vs f.2.1) (P vs f.2.2) (r.at (time vs r f)) / (nf vs f).dot (nf vs f),
   side (nf vs f) (P vs f.2.2) (P vs f.1) (r.at (time vs r f)) / (nf vs f).dot (nf vs f),
   side (nf vs f) (P vs f.1) (P vs f.2.1) (r.at (time vs r f)) / (nf vs f).dot (nf vs f))

theorem Built.ray {i : Nat} {f : Tri} (hok : TriOk vs.length f) (hi : fs[i]? = some f) (r : Ray3 ℝ) : ∃ hf pl, p.mesh.faces[i]? = some hf ∧ hf.verts = f ∧ p.planes[i]? = some pl ∧
    ((¬ Front vs r f ∧ rayFace p.positions pl hf r = .ok none) ∨ (Front vs r f ∧ rayFace p.positions pl hf r = .ok (some (coords vs r f)))) := by
  obtain ⟨hf, pl, e1, e2, e3, e4⟩ := hb.face hi
  refine ⟨hf, pl, e1, e2, e3, ?_⟩
  rw [hb.pos]
  subst e2
  obtain ⟨l1, l2, l3, -⟩ := hok
  rcases rayFace_spec (getD3_eq l1) (getD3_eq l2) (getD3_eq l3) e4 r with ⟨h1, h2⟩ | ⟨h1, h2, h3⟩
  · exact Or.inl ⟨h1, h2⟩
  · exact Or.inr ⟨⟨h1, h2⟩, h3⟩

/-! ## The choice of the next face -/

omit hb in
theorem unchecked_spec {m : Mesh} {n L : Nat} (hm : MInv m n L) (checked : Nat → Bool) : ∀ es : List Nat, (∀ e ∈ es, e < m.edges.length) →
    ∃ o, uncheckedNeighbour m checked es = .ok o ∧ ∀ j, o = some j → j < L ∧ checked j = false := by
  intro es
  induction es with
  | nil => intro _; exact ⟨none, rfl, by simp⟩
  | cons e es ih =>
    intro he
    have h1 := he e (by simp)
    obtain ⟨k, hk⟩ := hm.surj e h1
    obtain ⟨-, -, -, ed, x1, x2, x3⟩ := hm.edge k.1 k.2 e hk
    obtain ⟨-, -, -, tw, y1, -⟩ := hm.edge _ _ _ x3
    obtain ⟨o, o1, o2⟩ := ih fun e' h => he e' (by simp [h])
    simp only [uncheckedNeighbour, x1, y1, Res.ofOption_some, Res.bind_ok]
    by_cases hc : checked tw.left = true
    · rw [if_pos hc]; exact ⟨o, o1, o2⟩
    · rw [if_neg hc]
      refine ⟨_, rfl, ?_⟩
      rintro j ⟨⟩
      exact ⟨(hm.range _ _ y1).2.2, by simpa using hc⟩

theorem Built.edges {i : Nat} {hf : HFace} (hi : p.mesh.faces[i]? = some hf) (htri : TriOk vs.length hf.verts) (target : Nat) :
    ∃ es, faceEdges p.mesh hf target = .ok es ∧ (∀ e ∈ es, e < p.mesh.edges.length) ∧
      ∀ x y z, IsRot hf.verts x y z → target = y → ∃ e rest, es = e :: rest ∧ p.mesh.emap (x, y) = some e := by
  have hmem : hf ∈ p.mesh.faces := List.mem_of_getElem? hi
  have hfs : hf.verts ∈ fs := by rw [← hb.mesh.faces]; exact List.mem_map.2 ⟨hf, hmem, rfl⟩
  have he := hb.mesh.faceEdge hf hmem
  obtain ⟨fe, a, b, c⟩ := hf
  simp only at he hfs htri
  obtain ⟨-, -, -, n1, n2, n3⟩ := htri
  simp only at n1 n2 n3
  obtain ⟨i2, e2, q1, q2, q3, q4⟩ := hb.mesh.next _ hfs c a b (Or.inr (Or.inl rfl))
  rw [he] at q1; cases q1
  obtain ⟨i1, e1, s1, s2, s3, s4⟩ := hb.mesh.next _ hfs b c a (Or.inr (Or.inr rfl))
  rw [q4] at s1; cases s1
  obtain ⟨-, -, -, e2', w1, w2, -⟩ := hb.mesh.inv.edge _ _ _ he
  rw [q2] at w1; cases w1
  obtain ⟨-, -, -, e1', v1, v2, -⟩ := hb.mesh.inv.edge _ _ _ q4
  rw [s2] at v1; cases v1
  have lt : ∀ k e, p.mesh.emap k = some e → e < p.mesh.edges.length := by
    rintro ⟨x, y⟩ e hk
    obtain ⟨-, -, -, ed, x1, -⟩ := hb.mesh.inv.edge x y e hk
    exact (List.getElem?_eq_some_iff.1 x1).1
  have rots : ∀ x y z, IsRot (a, b, c) x y z → (x = a ∧ y = b) ∨ (x = b ∧ y = c) ∨ (x = c ∧ y = a) := by
    intro x y z hr; unfold IsRot at hr; simp only [Prod.mk.injEq] at hr; omega
  unfold faceEdges
  simp only [q2, Res.ofOption_some, Res.bind_ok, w2]
  by_cases ht : a = target
  · rw [if_pos ht]
    refine ⟨_, rfl, ?_, ?_⟩
    · intro e hm; simp only [List.mem_cons, List.not_mem_nil, or_false] at hm
      rcases hm with rfl | rfl | rfl
      · exact lt _ _ he
      · exact lt _ _ q3
      · exact lt _ _ q4
    · intro x y z hr hy
      refine ⟨_, _, rfl, ?_⟩
      rcases rots x y z hr with ⟨h1, h2⟩ | ⟨h1, h2⟩ | ⟨h1, h2⟩
      · omega
      · omega
      · rw [h1, h2]; exact he
  · rw [if_neg ht]
    simp only [s2, Res.ofOption_some, Res.bind_ok, v2]
    by_cases ht2 : c = target
    · rw [if_pos ht2]
      refine ⟨_, rfl, ?_, ?_⟩
      · intro e hm; simp only [List.mem_cons, List.not_mem_nil, or_false] at hm
        rcases hm with rfl | rfl | rfl
        · exact lt _ _ q4
        · exact lt _ _ he
        · exact lt _ _ q3
      · intro x y z hr hy
        refine ⟨_, _, rfl, ?_⟩
        rcases rots x y z hr with ⟨h1, h2⟩ | ⟨h1, h2⟩ | ⟨h1, h2⟩
        · omega
        · rw [h1, h2]; exact q4
        · omega
    · rw [if_neg ht2]
      refine ⟨_, rfl, ?_, ?_⟩
      · intro e hm; simp only [List.mem_cons, List.not_mem_nil, or_false] at hm
        rcases hm with rfl | rfl | rfl
        · exact lt _ _ q3
        · exact lt _ _ q4
        · exact lt _ _ he
      · intro x y z hr hy
        refine ⟨_, _, rfl, ?_⟩
        rcases rots x y z hr with ⟨h1, h2⟩ | ⟨h1, h2⟩ | ⟨h1, h2⟩
        · rw [h1, h2]; exact q3
        · omega
        · omega

omit hb in
theorem find_spec {n : Nat} {q : Nat → Bool} {j : Nat} (h : (List.range n).find? q = some j) : j < n ∧ q j = true := by
  have h1 := List.find?_some h
  have h2 := List.mem_of_find?_eq_some h
  exact ⟨List.mem_range.1 h2, h1⟩

/-- the next face is in range and new -/
theorem Built.next (htri : ∀ f ∈ fs, TriOk vs.length f) {i : Nat} (hi : i < fs.length) (uvw : Option (ℝ × ℝ × ℝ)) (checked : Nat → Bool) :
    ∃ o, nextFace p.mesh i uvw checked = .ok o ∧ ∀ j, o = some j → j < fs.length ∧ ((fs.length < 10 ∧ j = i + 1) ∨ checked j = false) := by
  unfold nextFace
  rw [hb.len]
  by_cases h10 : fs.length < 10
  · rw [if_pos h10]
    split
    · exact ⟨_, rfl, by simp⟩
    · refine ⟨_, rfl, ?_⟩
      rintro j ⟨⟩
      exact ⟨by omega, Or.inl ⟨h10, rfl⟩⟩
  · rw [if_neg h10]
    obtain ⟨hf, pl, e1, e2, -⟩ := hb.face (List.getElem?_eq_getElem hi)
    cases uvw with
    | none =>
      refine ⟨_, rfl, ?_⟩
      intro j hj
      obtain ⟨j1, j2⟩ := find_spec hj
      simp only [Bool.and_eq_true, Bool.not_eq_true', decide_eq_true_eq] at j2
      exact ⟨j1, Or.inr j2.2⟩
    | some uvw =>
      obtain ⟨u, v, w⟩ := uvw
      simp only [e1, Res.ofOption_some, Res.bind_ok]
      have ht : TriOk vs.length hf.verts := by rw [e2]; exact htri _ (List.getElem_mem hi)
      obtain ⟨es, s1, s2, -⟩ := hb.edges e1 ht (if u < 0 then hf.verts.2.2 else if v < 0 then hf.verts.1 else hf.verts.2.1)
      obtain ⟨o, o1, o2⟩ := unchecked_spec hb.mesh.inv checked es s2
      rw [s1]
      simp only [Res.bind_ok, o1]
      cases o with
      | none =>
        refine ⟨_, rfl, ?_⟩
        intro j hj
        obtain ⟨j1, j2⟩ := find_spec hj
        exact ⟨j1, Or.inr (by simpa using j2)⟩
      | some k =>
        refine ⟨_, rfl, ?_⟩
        rintro j ⟨⟩
        exact ⟨(o2 k rfl).1, Or.inr (o2 k rfl).2⟩

omit hb in
/-- number of faces not yet visited -/
def unv (n : Nat) (checked : Nat → Bool) : Nat := ((Finset.range n).filter fun k => checked k = false).card

omit hb in
theorem unv_lt {n : Nat} {checked : Nat → Bool} {i : Nat} (hi : i < n) (hc : checked i = false) : unv n (fun k => decide (k = i) || checked k) < unv n checked := by
  unfold unv
  apply Finset.card_lt_card
  rw [Finset.ssubset_iff_of_subset]
  · exact ⟨i, by simp [hi, hc], by simp⟩
  · intro k hk
    simp only [Finset.mem_filter, Finset.mem_range, Bool.or_eq_false_iff] at hk ⊢
    exact ⟨hk.1, hk.2.2⟩

/-- the loop ends without panic -/
theorem Built.total (htri : ∀ f ∈ fs, TriOk vs.length f) (r : Ray3 ℝ) : ∀ (fuel i : Nat) (checked : Nat → Bool), i < fs.length → checked i = false →
    (fs.length < 10 → ∀ k, checked k = true → k < i) → unv fs.length checked ≤ fuel → ∃ o, findFaceLoop p r fuel i checked = .ok o := by
  intro fuel
  induction fuel with
  | zero =>
    intro i checked hi hc _ hu
    have := unv_lt hi hc
    omega
  | succ fuel ih =>
    intro i checked hi hc hlin hu
    obtain ⟨hf, pl, e1, e2, e3, e4⟩ := hb.ray (htri _ (List.getElem_mem hi)) (List.getElem?_eq_getElem hi) r
    have hray : ∃ x, rayFace p.positions pl hf r = .ok x := by rcases e4 with e | e <;> exact ⟨_, e.2⟩
    obtain ⟨x, hx⟩ := hray
    obtain ⟨o, o1, o2⟩ := hb.next htri hi x (fun k => decide (k = i) || checked k)
    have hnext : ∃ o', (do
        let o ← nextFace p.mesh i x (fun k => decide (k = i) || checked k)
        match o with
        | some j => findFaceLoop p r fuel j (fun k => decide (k = i) || checked k)
        | none => return none : Res (Option (Nat × ℝ × ℝ × ℝ))) = .ok o' := by
      rw [o1]
      cases o with
      | none => exact ⟨_, rfl⟩
      | some j =>
        obtain ⟨j1, j2⟩ := o2 j rfl
        simp only [Res.bind_ok]
        have hun := unv_lt hi hc
        refine ih j _ j1 ?_ ?_ (by omega)
        · rcases j2 with ⟨h10, rfl⟩ | j2
          · simp only [Bool.or_eq_false_iff, decide_eq_false_iff_not]
            refine ⟨by omega, ?_⟩
            cases hck : checked (i + 1) with
            | false => rfl
            | true => have := hlin h10 _ hck; omega
          · exact j2
        · intro h10 k hk
          simp only [Bool.or_eq_true, decide_eq_true_eq] at hk
          rcases j2 with ⟨-, rfl⟩ | j2
          · rcases hk with rfl | hk
            · omega
            · have := hlin h10 k hk; omega
          · -- below ten faces the next face is the successor
            have : j = i + 1 := by
              unfold nextFace at o1
              rw [hb.len, if_pos h10] at o1
              split at o1
              · cases o1
              · cases o1; rfl
            subst this
            rcases hk with rfl | hk
            · omega
            · have := hlin h10 k hk; omega
    unfold findFaceLoop
    simp only [e1, e3, hx, Res.ofOption_some, Res.bind_ok]
    split
    · split
      · exact ⟨_, rfl⟩
      · exact hnext
    · exact hnext

omit hb in
/-- a reported face was hit -/
theorem loop_sound (r : Ray3 ℝ) : ∀ (fuel i : Nat) (checked : Nat → Bool) (k : Nat) (uvw : ℝ × ℝ × ℝ), findFaceLoop p r fuel i checked = .ok (some (k, uvw)) →
    ∃ hf pl, p.mesh.faces[k]? = some hf ∧ p.planes[k]? = some pl ∧ rayFace p.positions pl hf r = .ok (some uvw) ∧ inRange uvw.1 ∧ inRange uvw.2.1 ∧ inRange uvw.2.2 := by
  intro fuel
  induction fuel with
  | zero => intro i checked k uvw h; cases h
  | succ fuel ih =>
    intro i checked k uvw h
    unfold findFaceLoop at h
    simp only [Res.bind_eq_ok] at h
    obtain ⟨hf, h1, pl, h2, x, h3, h4⟩ := h
    have hnext : (do
        let o ← nextFace p.mesh i x (fun k => decide (k = i) || checked k)
        match o with
        | some j => findFaceLoop p r fuel j (fun k => decide (k = i) || checked k)
        | none => return none : Res (Option (Nat × ℝ × ℝ × ℝ))) = .ok (some (k, uvw)) →
        ∃ hf pl, p.mesh.faces[k]? = some hf ∧ p.planes[k]? = some pl ∧ rayFace p.positions pl hf r = .ok (some uvw) ∧ inRange uvw.1 ∧ inRange uvw.2.1 ∧ inRange uvw.2.2 := by
      intro hn
      rw [Res.bind_eq_ok] at hn
      obtain ⟨o, -, hn⟩ := hn
      cases o with
      | none => cases hn
      | some j => exact ih j _ k uvw hn
    split at h4
    · split at h4
      · next hr =>
        simp only [Res.pure_eq, Res.ok.injEq, Option.some.injEq, Prod.mk.injEq] at h4
        obtain ⟨rfl, rfl⟩ := h4
        refine ⟨hf, pl, ?_, ?_, h3, hr⟩
        · cases hh : p.mesh.faces[i]? with
          | none => rw [hh] at h1; cases h1
          | some y => rw [hh] at h1; cases h1; rfl
        · cases hh : p.planes[i]? with
          | none => rw [hh] at h2; cases h2
          | some y => rw [hh] at h2; cases h2; rfl
      · exact hnext h4
    · exact hnext h4

end
end Verif.Primitive
