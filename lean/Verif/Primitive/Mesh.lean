import Verif.Primitive.PolyhedronModel
import Mathlib.Tactic.Tauto
/-!
# The half-edge structure built from the faces
-/
namespace Verif.Primitive
open Verif Verif.Geom
set_option linter.unusedSectionVars false

/-! ## Specification -/

/-- Specification: the three directed edges of a triangle. -/
def triEdges (f : Tri) : List (Nat × Nat) := [(f.2.2, f.1), (f.1, f.2.1), (f.2.1, f.2.2)]
/-- Specification: `a`, `b`, `c` are the corners of the triangle in its cyclic order. -/
def IsRot (f : Tri) (a b c : Nat) : Prop := f = (a, b, c) ∨ f = (b, c, a) ∨ f = (c, a, b)
/-- Specification: the corners of a triangle are in range and distinct. -/
def TriOk (n : Nat) (f : Tri) : Prop := f.1 < n ∧ f.2.1 < n ∧ f.2.2 < n ∧ f.1 ≠ f.2.1 ∧ f.2.1 ≠ f.2.2 ∧ f.2.2 ≠ f.1
/-- Specification: no directed edge occurs twice (neighbouring triangles have consistent orientation, at most two triangles at an edge). -/
def Oriented (fs : List Tri) : Prop := (fs.flatMap triEdges).Nodup
/-- Specification: every edge has a triangle on its other side. -/
def Closed (fs : List Tri) : Prop := ∀ a b, (a, b) ∈ fs.flatMap triEdges → (b, a) ∈ fs.flatMap triEdges

/-! ## Invariant of the construction -/

/-- what holds between any two steps; `L` bounds the face numbers stored in the edges -/
structure MInv (m : Mesh) (n L : Nat) : Prop where
  len : m.verts.length = n
  edge : ∀ a b i, m.emap (a, b) = some i → a ≠ b ∧ a < n ∧ b < n ∧ ∃ ed, m.edges[i]? = some ed ∧ ed.target = b ∧ m.emap (b, a) = some ed.twin
  inj : ∀ k k' i, m.emap k = some i → m.emap k' = some i → k = k'
  surj : ∀ i, i < m.edges.length → ∃ k, m.emap k = some i
  range : ∀ (i : Nat) ed, m.edges[i]? = some ed → ed.next < m.edges.length ∧ ed.prev < m.edges.length ∧ ed.left < L

/-- `m'` arises from `m` without changing existing links -/
structure Ext' (m m' : Mesh) : Prop where
  emap : ∀ k i, m.emap k = some i → m'.emap k = some i
  edges : ∀ (i : Nat) ed, m.edges[i]? = some ed → ∃ ed', m'.edges[i]? = some ed' ∧ ed'.next = ed.next ∧ ed'.prev = ed.prev ∧
    (ed.ready = true → ed'.ready = true ∧ ed'.left = ed.left)
  verts : ∀ (v : Nat) x, m.verts[v]? = some x → ∃ x', m'.verts[v]? = some x' ∧ (x.ready = true → x' = x)
  faces : m'.faces = m.faces

theorem Ext'.refl (m : Mesh) : Ext' m m := ⟨fun _ _ h => h, fun _ ed h => ⟨ed, h, rfl, rfl, fun h => ⟨h, rfl⟩⟩, fun _ x h => ⟨x, h, fun _ => rfl⟩, rfl⟩
theorem Ext'.trans {m m' m'' : Mesh} (h : Ext' m m') (h' : Ext' m' m'') : Ext' m m'' := by
  refine ⟨fun k i e => h'.emap k i (h.emap k i e), ?_, ?_, h'.faces.trans h.faces⟩
  · intro i ed e
    obtain ⟨ed', e1, e2, e3, e4⟩ := h.edges i ed e
    obtain ⟨ed'', f1, f2, f3, f4⟩ := h'.edges i ed' e1
    exact ⟨ed'', f1, f2.trans e2, f3.trans e3, fun hr => ⟨(f4 (e4 hr).1).1, (f4 (e4 hr).1).2.trans (e4 hr).2⟩⟩
  · intro v x e
    obtain ⟨x', e1, e2⟩ := h.verts v x e
    obtain ⟨x'', f1, f2⟩ := h'.verts v x' e1
    refine ⟨x'', f1, fun hr => ?_⟩
    have := e2 hr
    rw [f2 (by rw [this]; exact hr), this]

theorem updAt_ok {α : Type} {l : List α} {i : Nat} (h : i < l.length) (f : α → α) : updAt l i f = .ok (l.set i (f l[i])) := by
  simp [updAt, List.getElem?_eq_getElem h]

theorem mapIns_self {m : Nat × Nat → Option Nat} {k : Nat × Nat} {v : Nat} (h : m k = some v) : mapIns m k v = m := by
  funext k'; unfold mapIns; split
  · next e => rw [e, h]
  · rfl

theorem findEdge_spec {m : Mesh} {n L : Nat} (h : MInv m n L) (hL : 0 < L) {v0 v1 : Nat} (hne : v0 ≠ v1) (h0 : v0 < n) (h1 : v1 < n) :
    ∃ m' i, m.findEdge v0 v1 = .ok (m', i) ∧ MInv m' n L ∧ Ext' m m' ∧ m'.emap (v0, v1) = some i ∧ m'.verts = m.verts ∧
      (∀ k, m'.emap k ≠ none → m.emap k ≠ none ∨ k = (v0, v1) ∨ k = (v1, v0)) ∧
      (∀ (j : Nat) ed', m'.edges[j]? = some ed' → ed'.ready = true → m.edges[j]? = some ed') := by
  unfold Mesh.findEdge
  cases he : m.emap (v0, v1) with
  | some e =>
    obtain ⟨-, -, -, ed, h3, h4, h5⟩ := h.edge _ _ _ he
    simp only [h3, Res.ofOption_some, Res.bind_ok, Res.pure_eq]
    rw [mapIns_self he, mapIns_self h5]
    exact ⟨m, e, rfl, h, Ext'.refl m, he, rfl, fun k hk => Or.inl hk, fun _ _ h _ => h⟩
  | none =>
    simp only [Res.pure_eq]
    have he' : m.emap (v1, v0) = none := by
      cases hc : m.emap (v1, v0) with
      | none => rfl
      | some j =>
        obtain ⟨-, -, -, ed, -, -, h5⟩ := h.edge _ _ _ hc
        rw [he] at h5; cases h5
    set E := m.edges.length with hE
    let em := mapIns (mapIns m.emap (v0, v1) E) (v1, v0) (E + 1)
    have em1 : em (v1, v0) = some (E + 1) := by simp [em, mapIns]
    have em0 : em (v0, v1) = some E := by
      have : (v0, v1) ≠ (v1, v0) := by intro e; exact hne (congrArg Prod.fst e)
      simp [em, mapIns, this]
    have emo : ∀ k, k ≠ (v0, v1) → k ≠ (v1, v0) → em k = m.emap k := by
      intro k k0 k1; simp [em, mapIns, k0, k1]
    have old : ∀ k i, m.emap k = some i → i < E := by
      rintro ⟨a, b⟩ i hk
      obtain ⟨-, -, -, ed, h3, -⟩ := h.edge _ _ _ hk
      exact (List.getElem?_eq_some_iff.1 h3).1
    have emold : ∀ k i, m.emap k = some i → em k = some i := by
      intro k i hk
      rw [emo k (by rintro rfl; rw [he] at hk; cases hk) (by rintro rfl; rw [he'] at hk; cases hk), hk]
    have emcases : ∀ k i, em k = some i → (k = (v0, v1) ∧ i = E) ∨ (k = (v1, v0) ∧ i = E + 1) ∨ (m.emap k = some i ∧ i < E) := by
      intro k i hk
      by_cases k0 : k = (v0, v1)
      · left; refine ⟨k0, ?_⟩; rw [k0, em0] at hk; exact (Option.some.inj hk).symm
      · by_cases k1 : k = (v1, v0)
        · right; left; refine ⟨k1, ?_⟩; rw [k1, em1] at hk; exact (Option.some.inj hk).symm
        · right; right; rw [emo k k0 k1] at hk; exact ⟨hk, old k i hk⟩
    have gold : ∀ (i : Nat) ed, m.edges[i]? = some ed →
        (m.edges ++ [({ target := v1, twin := E + 1 } : HEdge), ({ target := v0, twin := E } : HEdge)])[i]? = some ed := by
      intro i ed hi
      have := (List.getElem?_eq_some_iff.1 hi).1
      rw [List.getElem?_append_left this]; exact hi
    have g0 : (m.edges ++ [({ target := v1, twin := E + 1 } : HEdge), ({ target := v0, twin := E } : HEdge)])[E]? = some { target := v1, twin := E + 1 } := by
      rw [List.getElem?_append_right (by omega)]; simp [hE]
    have g1 : (m.edges ++ [({ target := v1, twin := E + 1 } : HEdge), ({ target := v0, twin := E } : HEdge)])[E + 1]? = some { target := v0, twin := E } := by
      rw [List.getElem?_append_right (by omega)]; simp [hE]
    have gl : (m.edges ++ [({ target := v1, twin := E + 1 } : HEdge), ({ target := v0, twin := E } : HEdge)]).length = E + 2 := by simp [hE]
    refine ⟨_, _, rfl, ⟨h.len, ?_, ?_, ?_, ?_⟩, ⟨emold, ?_, fun _ x hx => ⟨x, hx, fun _ => rfl⟩, rfl⟩, em0, rfl, ?_, ?_⟩
    · intro a b i hk
      rcases emcases _ _ hk with ⟨e1, e2⟩ | ⟨e1, e2⟩ | ⟨e1, e2⟩
      · cases e1; subst e2; exact ⟨hne, h0, h1, _, g0, rfl, em1⟩
      · cases e1; subst e2; exact ⟨hne.symm, h1, h0, _, g1, rfl, em0⟩
      · obtain ⟨x1, x2, x3, ed, x4, x5, x6⟩ := h.edge _ _ _ e1
        exact ⟨x1, x2, x3, ed, gold _ _ x4, x5, emold _ _ x6⟩
    · intro k k' i hk hk'
      rcases emcases _ _ hk with ⟨e1, e2⟩ | ⟨e1, e2⟩ | ⟨e1, e2⟩ <;> rcases emcases _ _ hk' with ⟨f1, f2⟩ | ⟨f1, f2⟩ | ⟨f1, f2⟩
      · rw [e1, f1]
      · omega
      · omega
      · omega
      · rw [e1, f1]
      · omega
      · omega
      · omega
      · exact h.inj _ _ _ e1 f1
    · intro i hi
      simp only [gl] at hi
      by_cases hiE : i < E
      · obtain ⟨k, hk⟩ := h.surj i hiE; exact ⟨k, emold _ _ hk⟩
      · by_cases i0 : i = E
        · exact ⟨_, by rw [i0]; exact em0⟩
        · exact ⟨_, by rw [show i = E + 1 by omega]; exact em1⟩
    · intro i ed hi
      simp only [gl]
      have hil := (List.getElem?_eq_some_iff.1 hi).1
      simp only [gl] at hil
      by_cases hiE : i < E
      · rw [List.getElem?_append_left hiE] at hi
        obtain ⟨r1, r2, r3⟩ := h.range i ed hi
        exact ⟨by omega, by omega, r3⟩
      · by_cases i0 : i = E
        · subst i0; rw [g0] at hi; cases hi; exact ⟨by simp, by simp, hL⟩
        · have i1 : i = E + 1 := by omega
          subst i1; rw [g1] at hi; cases hi; exact ⟨by simp, by simp, hL⟩
    · exact fun i ed hi => ⟨ed, gold i ed hi, rfl, rfl, fun h => ⟨h, rfl⟩⟩
    · intro k hk
      by_cases k0 : k = (v0, v1)
      · exact Or.inr (Or.inl k0)
      · by_cases k1 : k = (v1, v0)
        · exact Or.inr (Or.inr k1)
        · left; rw [← emo k k0 k1]; exact hk
    · intro j ed' hj hr
      have hjl := (List.getElem?_eq_some_iff.1 hj).1
      simp only [gl] at hjl
      by_cases hiE : j < E
      · rw [List.getElem?_append_left hiE] at hj; exact hj
      · by_cases i0 : j = E
        · subst i0; rw [g0] at hj; cases hj; simp at hr
        · have i1 : j = E + 1 := by omega
          subst i1; rw [g1] at hj; cases hj; simp at hr

/-- updating an edge without touching `target` and `twin` keeps the invariant -/
theorem MInv.updEdge {m : Mesh} {n L : Nat} (h : MInv m n L) {i : Nat} (hi : i < m.edges.length) (f : HEdge → HEdge)
    (ht : ∀ ed, (f ed).target = ed.target) (hw : ∀ ed, (f ed).twin = ed.twin)
    (hr : ∀ ed, ed.next < m.edges.length → ed.prev < m.edges.length → ed.left < L →
      (f ed).next < m.edges.length ∧ (f ed).prev < m.edges.length ∧ (f ed).left < L) :
    MInv { m with edges := m.edges.set i (f m.edges[i]) } n L := by
  have hget : ∀ (j : Nat) ed, m.edges[j]? = some ed → (m.edges.set i (f m.edges[i]))[j]? = some (if i = j then f ed else ed) := by
    intro j ed hj
    rw [List.getElem?_set]
    split
    · next e =>
      subst e
      rw [List.getElem?_eq_getElem hi] at hj
      cases hj; simp [hi]
    · exact hj
  refine ⟨h.len, ?_, h.inj, ?_, ?_⟩
  · intro a b j hj
    obtain ⟨x1, x2, x3, ed, x4, x5, x6⟩ := h.edge a b j hj
    refine ⟨x1, x2, x3, _, hget j ed x4, ?_, ?_⟩
    · split <;> simp [ht, x5]
    · split <;> simp [hw, x6]
  · intro j hj; simp only [List.length_set] at hj; exact h.surj j hj
  · intro j ed hj
    simp only [List.length_set]
    have hjl : j < m.edges.length := by have := (List.getElem?_eq_some_iff.1 hj).1; simpa using this
    obtain ⟨ed0, h0⟩ : ∃ ed0, m.edges[j]? = some ed0 := ⟨_, List.getElem?_eq_getElem hjl⟩
    have := hget j ed0 h0
    rw [this] at hj
    obtain ⟨r1, r2, r3⟩ := h.range j ed0 h0
    have hj := (Option.some.inj hj).symm
    subst hj
    split
    · exact hr ed0 r1 r2 r3
    · exact ⟨r1, r2, r3⟩

theorem halfEdge_spec {m : Mesh} {n L fi : Nat} (h : MInv m n L) (hfi : fi < L) {v0 v1 : Nat} (hne : v0 ≠ v1) (h0 : v0 < n) (h1 : v1 < n) :
    ∃ m' i, m.halfEdge fi v0 v1 = .ok (m', i) ∧ MInv m' n L ∧ Ext' m m' ∧ m'.emap (v0, v1) = some i ∧
      (∀ k, m'.emap k ≠ none → m.emap k ≠ none ∨ k = (v0, v1) ∨ k = (v1, v0)) ∧
      (∀ (v : Nat) x, m'.verts[v]? = some x → x.ready = true → m.verts[v]? = some x ∨ (v = v0 ∧ x.edge = i)) ∧
      (∃ x, m'.verts[v0]? = some x ∧ x.ready = true) ∧
      (∀ (j : Nat) ed', m'.edges[j]? = some ed' → ed'.ready = true → j = i ∨ ∃ ed, m.edges[j]? = some ed ∧ ed.ready = true) ∧
      ((∀ ed, m.edges[i]? = some ed → ed.ready = false) → ∃ ed', m'.edges[i]? = some ed' ∧ ed'.ready = true ∧ ed'.left = fi) := by
  obtain ⟨m1, e, hf, hinv, hext, hem, hv, hk, hold⟩ := findEdge_spec h (by omega) hne h0 h1
  obtain ⟨-, -, -, ed, hed, -⟩ := hinv.edge _ _ _ hem
  have hel := (List.getElem?_eq_some_iff.1 hed).1
  have hvl : v0 < m1.verts.length := by rw [hinv.len]; exact h0
  have heq : m.halfEdge fi v0 v1 = .ok ({ m1 with
      edges := m1.edges.set e ((fun ed : HEdge => if ed.ready then ed else { ed with left := fi, ready := true }) m1.edges[e])
      verts := m1.verts.set v0 ((fun v : HVert => if v.ready then v else { edge := e, ready := true }) m1.verts[v0]) }, e) := by
    unfold Mesh.halfEdge
    rw [hf]
    simp only [Res.bind_ok, updAt_ok hel, updAt_ok hvl, Res.pure_eq]
  have hup := hinv.updEdge hel (fun ed : HEdge => if ed.ready then ed else { ed with left := fi, ready := true })
    (by intro ed; split <;> rfl) (by intro ed; split <;> rfl)
    (by intro ed r1 r2 r3; split <;> [exact ⟨r1, r2, r3⟩; exact ⟨r1, r2, hfi⟩])
  refine ⟨_, e, heq, ⟨?_, hup.edge, hup.inj, hup.surj, hup.range⟩, ?_, hem, hk, ?_, ?_, ?_, ?_⟩
  · simp only [List.length_set]; exact hinv.len
  · refine hext.trans ⟨fun _ _ h => h, ?_, ?_, rfl⟩
    · intro i ed' hi
      by_cases hie : e = i
      · subst hie
        rw [List.getElem?_eq_getElem hel] at hi
        cases hi
        refine ⟨_, by rw [List.getElem?_set_self hel], ?_, ?_, ?_⟩
        · dsimp only; split <;> rfl
        · dsimp only; split <;> rfl
        · intro hr; dsimp only; rw [if_pos hr]; exact ⟨hr, rfl⟩
      · exact ⟨ed', by rw [List.getElem?_set_ne hie]; exact hi, rfl, rfl, fun h => ⟨h, rfl⟩⟩
    · intro v x hx
      by_cases hvv : v0 = v
      · subst hvv
        rw [List.getElem?_eq_getElem hvl] at hx
        cases hx
        refine ⟨_, by rw [List.getElem?_set_self hvl], ?_⟩
        intro hr
        dsimp only
        rw [if_pos hr]
      · exact ⟨x, by rw [List.getElem?_set_ne hvv]; exact hx, fun _ => rfl⟩
  · intro v x hx hr
    by_cases hvv : v0 = v
    · subst hvv
      rw [List.getElem?_set_self hvl] at hx
      have hx := (Option.some.inj hx).symm
      dsimp only at hx
      split at hx
      · left; rw [hx, ← hv, List.getElem?_eq_getElem hvl]
      · right; rw [hx]; exact ⟨rfl, rfl⟩
    · rw [List.getElem?_set_ne hvv, hv] at hx; exact Or.inl hx
  · refine ⟨_, by rw [List.getElem?_set_self hvl], ?_⟩
    dsimp only
    split
    · next h => exact h
    · rfl
  · intro j ed' hj hr
    by_cases hje : e = j
    · exact Or.inl hje.symm
    · rw [List.getElem?_set_ne hje] at hj
      exact Or.inr ⟨ed', hold j ed' hj hr, hr⟩
  · intro hun
    refine ⟨_, by rw [List.getElem?_set_self hel], ?_⟩
    have : m1.edges[e].ready = false := by
      cases hr : m1.edges[e].ready with
      | false => rfl
      | true =>
        have := hold e _ (List.getElem?_eq_getElem hel) hr
        rw [hun _ this] at hr; cases hr
    dsimp only
    rw [this]
    exact ⟨rfl, rfl⟩

theorem linkEdges_spec {m : Mesh} {n L : Nat} (h : MInv m n L) {i j : Nat} (hi : i < m.edges.length) (hj : j < m.edges.length) :
    ∃ es, linkEdges m.edges i j = .ok es ∧ MInv { m with edges := es } n L ∧ es.length = m.edges.length ∧
      (∀ (k : Nat) ed, m.edges[k]? = some ed → ∃ ed', es[k]? = some ed' ∧ ed'.next = (if k = i then j else ed.next) ∧
        ed'.prev = (if k = j then i else ed.prev) ∧ ed'.ready = ed.ready ∧ ed'.left = ed.left) := by
  have h1 := h.updEdge hi (fun ed => { ed with next := j }) (fun _ => rfl) (fun _ => rfl) (fun ed r1 r2 r3 => ⟨hj, r2, r3⟩)
  have hj' : j < (m.edges.set i { m.edges[i] with next := j }).length := by simpa using hj
  have h2 := h1.updEdge hj' (fun ed => { ed with prev := i }) (fun _ => rfl) (fun _ => rfl)
    (fun ed r1 r2 r3 => ⟨r1, by simpa using hi, r3⟩)
  refine ⟨_, ?_, h2, by simp, ?_⟩
  · unfold linkEdges
    rw [updAt_ok hi]
    simp only [Res.bind_ok]
    rw [updAt_ok hj']
  · intro k ed hk
    have hkl := (List.getElem?_eq_some_iff.1 hk).1
    have a1 : ∃ ed1, (m.edges.set i { m.edges[i] with next := j })[k]? = some ed1 ∧ ed1.next = (if k = i then j else ed.next) ∧
        ed1.prev = ed.prev ∧ ed1.ready = ed.ready ∧ ed1.left = ed.left := by
      by_cases hki : i = k
      · subst hki
        rw [List.getElem?_eq_getElem hi] at hk
        cases hk
        refine ⟨{ m.edges[i] with next := j }, ?_, ?_, rfl, rfl, rfl⟩
        · rw [List.getElem?_set_self hi]
        · rw [if_pos rfl]
      · refine ⟨ed, by rw [List.getElem?_set_ne hki]; exact hk, ?_, rfl, rfl, rfl⟩
        rw [if_neg (fun e => hki e.symm)]
    obtain ⟨ed1, x1, x2, x3, x4, x5⟩ := a1
    by_cases hkj : j = k
    · subst hkj
      rw [List.getElem?_eq_getElem hj'] at x1
      have x1 := (Option.some.inj x1)
      subst x1
      refine ⟨{ (m.edges.set i { m.edges[i] with next := j })[j] with prev := i }, ?_, x2, ?_, x4, x5⟩
      · rw [List.getElem?_set_self hj']
      · rw [if_pos rfl]
    · refine ⟨ed1, by rw [List.getElem?_set_ne hkj]; exact x1, x2, ?_, x4, x5⟩
      rw [if_neg (fun e => hkj e.symm)]; exact x3

/-- The structure describes the faces `fs`. -/
structure Describes (m : Mesh) (n : Nat) (fs : List Tri) : Prop where
  inv : MInv m n fs.length
  faces : m.faces.map HFace.verts = fs
  faceEdge : ∀ f ∈ m.faces, m.emap (f.verts.2.2, f.verts.1) = some f.edge
  domain : ∀ a b, m.emap (a, b) ≠ none → (a, b) ∈ fs.flatMap triEdges ∨ (b, a) ∈ fs.flatMap triEdges
  next : ∀ f ∈ fs, ∀ a b c, IsRot f a b c → ∃ i ed, m.emap (a, b) = some i ∧ m.edges[i]? = some ed ∧ m.emap (b, c) = some ed.next ∧ m.emap (c, a) = some ed.prev
  left : ∀ (k : Nat) f, fs[k]? = some f → ∀ a b c, IsRot f a b c → ∃ i ed, m.emap (a, b) = some i ∧ m.edges[i]? = some ed ∧ ed.ready = true ∧ ed.left = k
  unready : ∀ a b i ed, m.emap (a, b) = some i → m.edges[i]? = some ed → ed.ready = true → (a, b) ∈ fs.flatMap triEdges
  ready : ∀ f ∈ fs, ∀ v, (v = f.1 ∨ v = f.2.1 ∨ v = f.2.2) → ∃ x, m.verts[v]? = some x ∧ x.ready = true
  vedge : ∀ (v : Nat) x, m.verts[v]? = some x → x.ready = true → ∃ w, (v, w) ∈ fs.flatMap triEdges ∧ m.emap (v, w) = some x.edge

theorem rot_edges {f : Tri} {a b c : Nat} (h : IsRot f a b c) : (a, b) ∈ triEdges f ∧ (b, c) ∈ triEdges f ∧ (c, a) ∈ triEdges f := by
  rcases h with rfl | rfl | rfl <;> simp [triEdges]

theorem edge_rot {f : Tri} {a b : Nat} (h : (a, b) ∈ triEdges f) : ∃ c, IsRot f a b c := by
  obtain ⟨x, y, z⟩ := f
  simp only [triEdges, List.mem_cons, Prod.mk.injEq, List.not_mem_nil, or_false] at h
  rcases h with ⟨rfl, rfl⟩ | ⟨rfl, rfl⟩ | ⟨rfl, rfl⟩
  · exact ⟨y, Or.inr (Or.inl rfl)⟩
  · exact ⟨z, Or.inl rfl⟩
  · exact ⟨x, Or.inr (Or.inr rfl)⟩

set_option maxHeartbeats 1000000 in
theorem addFace_spec {m : Mesh} {n : Nat} {fs : List Tri} (h : Describes m n fs) {f : Tri} (hf : TriOk n f)
    (hnew : ∀ e ∈ triEdges f, e ∉ fs.flatMap triEdges) : ∃ m', m.addFace f = .ok m' ∧ Describes m' n (fs ++ [f]) := by
  obtain ⟨a, b, c⟩ := f
  obtain ⟨ha, hb, hc, hab, hbc, hca⟩ := hf
  simp only at ha hb hc hab hbc hca
  have hfl : m.faces.length = fs.length := by rw [← h.faces, List.length_map]
  have hI : MInv m n (fs.length + 1) := ⟨h.inv.len, h.inv.edge, h.inv.inj, h.inv.surj, fun i ed hi => by
    obtain ⟨r1, r2, r3⟩ := h.inv.range i ed hi; exact ⟨r1, r2, by omega⟩⟩
  obtain ⟨m1, e2, q1, i1, x1, k1, d1, v1, rd1, u1, b1⟩ := halfEdge_spec (fi := fs.length) hI (by omega) hca hc ha
  obtain ⟨m2, e0, q2, i2, x2, k2, d2, v2, rd2, u2, b2⟩ := halfEdge_spec (fi := fs.length) i1 (by omega) hab ha hb
  obtain ⟨m3, e1, q3, i3, x3, k3, d3, v3, rd3, u3, b3⟩ := halfEdge_spec (fi := fs.length) i2 (by omega) hbc hb hc
  have K2 : m3.emap (c, a) = some e2 := x3.emap _ _ (x2.emap _ _ k1)
  have K0 : m3.emap (a, b) = some e0 := x3.emap _ _ k2
  have lt_of : ∀ k i, m3.emap k = some i → i < m3.edges.length := by
    rintro ⟨p, q⟩ i hk
    obtain ⟨-, -, -, ed, h3, -⟩ := i3.edge _ _ _ hk
    exact (List.getElem?_eq_some_iff.1 h3).1
  have l2 := lt_of _ _ K2
  have l0 := lt_of _ _ K0
  have l1 := lt_of _ _ k3
  obtain ⟨es1, s1, j1, n1, t1⟩ := linkEdges_spec i3 l2 l0
  obtain ⟨es2, s2, j2, n2, t2⟩ := linkEdges_spec j1 (i := e0) (j := e1) (by simpa [n1] using l0) (by simpa [n1] using l1)
  obtain ⟨es3, s3, j3, n3, t3⟩ := linkEdges_spec j2 (i := e1) (j := e2) (by simpa [n2, n1] using l1) (by simpa [n2, n1] using l2)
  simp only at n1 n2 n3 t1 t2 t3 s1 s2 s3
  -- distinct edge numbers
  have ne20 : e2 ≠ e0 := fun e => by have := i3.inj _ _ _ K2 (e ▸ K0); exact hca (congrArg Prod.fst this)
  have ne01 : e0 ≠ e1 := fun e => by have := i3.inj _ _ _ K0 (e ▸ k3); exact hab (congrArg Prod.fst this)
  have ne12 : e1 ≠ e2 := fun e => by have := i3.inj _ _ _ k3 (e ▸ K2); exact hbc (congrArg Prod.fst this)
  have tt : ∀ (k : Nat) ed, m3.edges[k]? = some ed → ∃ ed', es3[k]? = some ed' ∧
      ed'.next = (if k = e1 then e2 else if k = e0 then e1 else if k = e2 then e0 else ed.next) ∧
      ed'.prev = (if k = e2 then e1 else if k = e1 then e0 else if k = e0 then e2 else ed.prev) ∧ ed'.ready = ed.ready ∧ ed'.left = ed.left := by
    intro k ed hk
    obtain ⟨a1, b1, c1, p1, r1, l1⟩ := t1 k ed hk
    obtain ⟨a2, b2, c2, p2, r2, l2⟩ := t2 k a1 b1
    obtain ⟨a3, b3, c3, p3, r3, l3⟩ := t3 k a2 b2
    exact ⟨a3, b3, by rw [c3, c2, c1], by rw [p3, p2, p1], by rw [r3, r2, r1], by rw [l3, l2, l1]⟩
  -- the three edges are not ready before
  have fresh : ∀ p q i ed, (p, q) ∈ triEdges (a, b, c) → m3.emap (p, q) = some i → m.edges[i]? = some ed → ed.ready = false := by
    intro p q i ed hpq hk hi
    cases hr : ed.ready with
    | false => rfl
    | true =>
      exfalso
      obtain ⟨⟨p', q'⟩, hk'⟩ := h.inv.surj i (List.getElem?_eq_some_iff.1 hi).1
      have := h.unready p' q' i ed hk' hi hr
      have e := i3.inj _ _ _ hk (((x1.trans (x2.trans x3)).emap _ _ hk'))
      rw [← e] at this
      exact hnew _ hpq this
  have X : Ext' m m3 := x1.trans (x2.trans x3)
  have L : es3.length = m3.edges.length := by rw [n3, n2, n1]
  refine ⟨{ m3 with faces := m3.faces ++ [({ edge := e2, verts := (a, b, c) } : HFace)], edges := es3 }, ?_, ?_⟩
  · unfold Mesh.addFace
    simp only [hfl, q1, q2, q3, s1, s2, s3, Res.bind_ok, Res.pure_eq]
  have hmem : ∀ p q : Nat, (p, q) ∈ (fs ++ [(a, b, c)]).flatMap triEdges ↔ (p, q) ∈ fs.flatMap triEdges ∨ (p, q) ∈ triEdges (a, b, c) := by
    intro p q; simp [List.flatMap_append]
  have newmem : ∀ p q, (p, q) = (c, a) ∨ (p, q) = (a, b) ∨ (p, q) = (b, c) → (p, q) ∈ triEdges (a, b, c) := by
    intro p q h; simpa [triEdges] using h
  refine ⟨?_, ?_, ?_, ?_, ?_, ?_, ?_, ?_, ?_⟩
  · simp only [List.length_append, List.length_cons, List.length_nil]
    exact ⟨j3.len, j3.edge, j3.inj, j3.surj, j3.range⟩
  · simp only [List.map_append, List.map_cons, List.map_nil]
    rw [X.faces, h.faces]
  · intro g hg
    simp only [List.mem_append, List.mem_singleton] at hg
    rcases hg with hg | rfl
    · rw [X.faces] at hg
      exact X.emap _ _ (h.faceEdge g hg)
    · exact K2
  · intro p q hpq
    simp only at hpq
    rw [hmem, hmem]
    rcases d3 _ hpq with hpq | hpq | hpq
    · rcases d2 _ hpq with hpq | hpq | hpq
      · rcases d1 _ hpq with hpq | hpq | hpq
        · rcases h.domain p q hpq with h1 | h1
          · exact Or.inl (Or.inl h1)
          · exact Or.inr (Or.inl h1)
        · exact Or.inl (Or.inr (newmem p q (Or.inl hpq)))
        · cases hpq; exact Or.inr (Or.inr (newmem _ _ (Or.inl rfl)))
      · exact Or.inl (Or.inr (newmem p q (Or.inr (Or.inl hpq))))
      · cases hpq; exact Or.inr (Or.inr (newmem _ _ (Or.inr (Or.inl rfl))))
    · exact Or.inl (Or.inr (newmem p q (Or.inr (Or.inr hpq))))
    · cases hpq; exact Or.inr (Or.inr (newmem _ _ (Or.inr (Or.inr rfl))))
  · intro g hg p q s hrot
    simp only [List.mem_append, List.mem_singleton] at hg
    simp only
    rcases hg with hg | rfl
    · obtain ⟨i, ed, y1, y2, y3, y4⟩ := h.next g hg p q s hrot
      obtain ⟨ed', z1, z2, z3, -⟩ := X.edges i ed y2
      obtain ⟨ed'', w1, w2, w3, -⟩ := tt i ed' z1
      refine ⟨i, ed'', X.emap _ _ y1, w1, ?_⟩
      have hin : (p, q) ∈ fs.flatMap triEdges := List.mem_flatMap.2 ⟨g, hg, (rot_edges hrot).1⟩
      have hne : ∀ k e, (k = (c, a) ∨ k = (a, b) ∨ k = (b, c)) → m3.emap k = some e → i ≠ e := by
        rintro ⟨k, l⟩ e hk hk2 rfl
        have := i3.inj _ _ _ (X.emap _ _ y1) hk2
        rw [this] at hin
        exact hnew _ (newmem k l hk) hin
      constructor
      · rw [w2, if_neg (hne _ _ (by simp) k3), if_neg (hne _ _ (by simp) K0), if_neg (hne _ _ (by simp) K2), z2]
        exact X.emap _ _ y3
      · rw [w3, if_neg (hne _ _ (by simp) K2), if_neg (hne _ _ (by simp) k3), if_neg (hne _ _ (by simp) K0), z3]
        exact X.emap _ _ y4
    · obtain ⟨ed2, g2⟩ : ∃ ed, m3.edges[e2]? = some ed := ⟨_, List.getElem?_eq_getElem l2⟩
      obtain ⟨ed0, g0⟩ : ∃ ed, m3.edges[e0]? = some ed := ⟨_, List.getElem?_eq_getElem l0⟩
      obtain ⟨ed1, g1⟩ : ∃ ed, m3.edges[e1]? = some ed := ⟨_, List.getElem?_eq_getElem l1⟩
      obtain ⟨E2, G2, N2, P2, -⟩ := tt _ _ g2
      obtain ⟨E0, G0, N0, P0, -⟩ := tt _ _ g0
      obtain ⟨E1, G1, N1, P1, -⟩ := tt _ _ g1
      rw [if_pos rfl] at P2
      rw [if_neg ne20.symm, if_neg ne01, if_pos rfl] at P0
      rw [if_neg ne12, if_pos rfl] at P1
      rw [if_neg ne12.symm, if_neg ne20, if_pos rfl] at N2
      rw [if_neg ne01, if_pos rfl] at N0
      rw [if_pos rfl] at N1
      rcases hrot with hr | hr | hr <;> cases hr
      · exact ⟨e0, E0, K0, G0, by rw [N0]; exact k3, by rw [P0]; exact K2⟩
      · exact ⟨e2, E2, K2, G2, by rw [N2]; exact K0, by rw [P2]; exact k3⟩
      · exact ⟨e1, E1, k3, G1, by rw [N1]; exact K2, by rw [P1]; exact K0⟩
  · intro k g hk p q s hrot
    simp only
    by_cases hkl : k < fs.length
    · rw [List.getElem?_append_left hkl] at hk
      obtain ⟨i, ed, y1, y2, y3, y4⟩ := h.left k g hk p q s hrot
      obtain ⟨ed', z1, -, -, z4⟩ := X.edges i ed y2
      obtain ⟨ed'', w1, -, -, w4, w5⟩ := tt i ed' z1
      exact ⟨i, ed'', X.emap _ _ y1, w1, by rw [w4]; exact (z4 y3).1, by rw [w5, (z4 y3).2, y4]⟩
    · rw [List.getElem?_append_right (by omega)] at hk
      have hk0 : k = fs.length := by
        have := (List.getElem?_eq_some_iff.1 hk).1
        simp at this
        omega
      subst hk0
      simp only [Nat.sub_self, List.getElem?_cons_zero, Option.some.injEq] at hk
      subst hk
      have r2 : ∃ ed, es3[e2]? = some ed ∧ ed.ready = true ∧ ed.left = fs.length := by
        obtain ⟨ed, a1, a2, a3⟩ := b1 fun ed hed => fresh c a e2 ed (newmem _ _ (Or.inl rfl)) K2 hed
        obtain ⟨ed', z1, -, -, z4⟩ := (x2.trans x3).edges _ _ a1
        obtain ⟨ed'', w1, -, -, w4, w5⟩ := tt _ ed' z1
        exact ⟨ed'', w1, by rw [w4]; exact (z4 a2).1, by rw [w5, (z4 a2).2, a3]⟩
      have r0 : ∃ ed, es3[e0]? = some ed ∧ ed.ready = true ∧ ed.left = fs.length := by
        obtain ⟨ed, a1, a2, a3⟩ := b2 fun ed hed => by
          cases hr : ed.ready with
          | false => rfl
          | true =>
            rcases u1 _ _ hed hr with e | ⟨ed0, f1, f2⟩
            · exact absurd e.symm ne20
            · rw [fresh a b e0 ed0 (newmem _ _ (Or.inr (Or.inl rfl))) K0 f1] at f2; cases f2
        obtain ⟨ed', z1, -, -, z4⟩ := x3.edges _ _ a1
        obtain ⟨ed'', w1, -, -, w4, w5⟩ := tt _ ed' z1
        exact ⟨ed'', w1, by rw [w4]; exact (z4 a2).1, by rw [w5, (z4 a2).2, a3]⟩
      have r1 : ∃ ed, es3[e1]? = some ed ∧ ed.ready = true ∧ ed.left = fs.length := by
        obtain ⟨ed, a1, a2, a3⟩ := b3 fun ed hed => by
          cases hr : ed.ready with
          | false => rfl
          | true =>
            rcases u2 _ _ hed hr with e | ⟨ed0, f1, f2⟩
            · exact absurd e.symm ne01
            · rcases u1 _ _ f1 f2 with e | ⟨ed1, g1, g2⟩
              · exact absurd e ne12
              · rw [fresh b c e1 ed1 (newmem _ _ (Or.inr (Or.inr rfl))) k3 g1] at g2; cases g2
        obtain ⟨ed'', w1, -, -, w4, w5⟩ := tt _ ed a1
        exact ⟨ed'', w1, by rw [w4]; exact a2, by rw [w5, a3]⟩
      rcases hrot with hr | hr | hr <;> cases hr
      · obtain ⟨ed, z⟩ := r0; exact ⟨e0, ed, K0, z⟩
      · obtain ⟨ed, z⟩ := r2; exact ⟨e2, ed, K2, z⟩
      · obtain ⟨ed, z⟩ := r1; exact ⟨e1, ed, k3, z⟩
  · intro p q i ed hk hi hr
    simp only at hk hi
    rw [hmem]
    have hil : i < m3.edges.length := by rw [← L]; exact (List.getElem?_eq_some_iff.1 hi).1
    obtain ⟨ed', w1, -, -, w4, -⟩ := tt i _ (List.getElem?_eq_getElem hil)
    rw [hi] at w1
    have w1 := Option.some.inj w1
    rw [← w1, hr] at w4
    rcases u3 i _ (List.getElem?_eq_getElem hil) w4.symm with rfl | ⟨ed2, f1, f2⟩
    · right; have := i3.inj _ _ _ hk k3; rw [this]; exact newmem _ _ (Or.inr (Or.inr rfl))
    · rcases u2 i _ f1 f2 with rfl | ⟨ed1, g1, g2⟩
      · right; have := i3.inj _ _ _ hk K0; rw [this]; exact newmem _ _ (Or.inr (Or.inl rfl))
      · rcases u1 i _ g1 g2 with rfl | ⟨ed0, o1, o2⟩
        · right; have := i3.inj _ _ _ hk K2; rw [this]; exact newmem _ _ (Or.inl rfl)
        · left
          obtain ⟨⟨p', q'⟩, hk'⟩ := h.inv.surj i (List.getElem?_eq_some_iff.1 o1).1
          have e := i3.inj _ _ _ hk (X.emap _ _ hk')
          rw [e]
          exact h.unready p' q' i ed0 hk' o1 o2
  · intro g hg v hv
    simp only [List.mem_append, List.mem_singleton] at hg
    simp only
    rcases hg with hg | rfl
    · obtain ⟨x, y1, y2⟩ := h.ready g hg v hv
      obtain ⟨x', z1, z2⟩ := X.verts v x y1
      exact ⟨x', z1, by rw [z2 y2]; exact y2⟩
    · have up1 : ∀ (v : Nat) x, m1.verts[v]? = some x → x.ready = true → ∃ x, m3.verts[v]? = some x ∧ x.ready = true := by
        intro v x y1 y2
        obtain ⟨x', z1, z2⟩ := (x2.trans x3).verts v x y1
        exact ⟨x', z1, by rw [z2 y2]; exact y2⟩
      have up2 : ∀ (v : Nat) x, m2.verts[v]? = some x → x.ready = true → ∃ x, m3.verts[v]? = some x ∧ x.ready = true := by
        intro v x y1 y2
        obtain ⟨x', z1, z2⟩ := x3.verts v x y1
        exact ⟨x', z1, by rw [z2 y2]; exact y2⟩
      rcases hv with rfl | rfl | rfl
      · obtain ⟨x, y1, y2⟩ := rd2; exact up2 _ x y1 y2
      · exact rd3
      · obtain ⟨x, y1, y2⟩ := rd1; exact up1 _ x y1 y2
  · intro v x hx hr
    simp only at hx ⊢
    simp only [hmem]
    rcases v3 v x hx hr with hx | ⟨rfl, hxe⟩
    · rcases v2 v x hx hr with hx | ⟨rfl, hxe⟩
      · rcases v1 v x hx hr with hx | ⟨rfl, hxe⟩
        · obtain ⟨w, y1, y2⟩ := h.vedge v x hx hr
          exact ⟨w, Or.inl y1, X.emap _ _ y2⟩
        · exact ⟨a, Or.inr (newmem _ _ (Or.inl rfl)), by rw [hxe]; exact K2⟩
      · exact ⟨b, Or.inr (newmem _ _ (Or.inr (Or.inl rfl))), by rw [hxe]; exact K0⟩
    · exact ⟨c, Or.inr (newmem _ _ (Or.inr (Or.inr rfl))), by rw [hxe]; exact k3⟩

theorem addFaces_spec {n : Nat} (gs : List Tri) : ∀ {m : Mesh} {fs : List Tri}, Describes m n fs → (∀ f ∈ gs, TriOk n f) → Oriented (fs ++ gs) →
    ∃ m', m.addFaces gs = .ok m' ∧ Describes m' n (fs ++ gs) := by
  induction gs with
  | nil => intro m fs h _ _; exact ⟨m, rfl, by simpa using h⟩
  | cons g gs ih =>
    intro m fs h hok hor
    obtain ⟨m1, e1, h1⟩ := addFace_spec h (hok g (by simp)) (by
      intro e he hin
      unfold Oriented at hor
      rw [List.flatMap_append, List.nodup_append] at hor
      exact hor.2.2 e hin e (by simp [he]) rfl)
    obtain ⟨m2, e2, h2⟩ := ih h1 (fun f hf => hok f (by simp [hf])) (by simpa using hor)
    refine ⟨m2, ?_, by simpa using h2⟩
    simp [Mesh.addFaces, e1, e2]

theorem init_describes (n : Nat) : Describes (Mesh.init n) n [] := by
  refine ⟨⟨by simp [Mesh.init], by simp [Mesh.init], by simp [Mesh.init], by simp [Mesh.init], by simp [Mesh.init]⟩, rfl, by simp [Mesh.init],
    by simp [Mesh.init], by simp, by simp, by simp [Mesh.init], by simp, ?_⟩
  intro v x hx hr
  simp only [Mesh.init, List.getElem?_replicate] at hx
  split at hx
  · cases hx; simp at hr
  · cases hx

/-- The construction succeeds on every orientable list of proper triangles and describes exactly them. -/
theorem build_spec {n : Nat} {fs : List Tri} (hok : ∀ f ∈ fs, TriOk n f) (hor : Oriented fs) :
    ∃ m, (Mesh.init n).addFaces fs = .ok m ∧ Describes m n fs := by
  have := addFaces_spec fs (init_describes n) hok (by simpa using hor)
  simpa using this

end Verif.Primitive
