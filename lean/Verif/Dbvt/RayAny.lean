import Verif.Dbvt.RayClosest
/-!
# `query_ray_closest` for every ray (C16)

Without any condition on the origin of the ray (which may lie inside branch volumes) and on the height:
the answer is `None` exactly if no value is hit, and an answer is a value that is hit, at the point reported.
-/
namespace Verif.Dbvt
open Verif Geom
set_option linter.unusedSectionVars false
variable {V B S P E : Type}

section
variable (O : Ops V B S) (s : Dbvt V B) (isect : B → Option P) (tOf : P → E) (lt : E → E → Bool) (inf : E)
  (hlt : ∀ b p, isect b = some p → lt (tOf p) inf = true)

include hlt in
/-- A walk that reports nothing has left the bound at infinity and passed by no value that is hit. -/
theorem qT_none (hv : ValsOK s.nodes s.values) (u : T) :
    (∀ (i : Nat) (b : Branch B), s.nodes[i]? = some (.branch b) → ∀ w : T, (∃ p, Rep (skelAt s.nodes) p w) → w.root = i →
      ∀ j ∈ w.leaves, ∀ l e, s.nodes[j]? = some (.leaf l) → s.values[l.value]? = some e →
        isect b.bound = none → isect (O.bound e.2) = none) →
    (∃ p, Rep (skelAt s.nodes) p u) →
      (qT O s (closestVisitor isect tOf lt) u inf).1 = [] →
      (qT O s (closestVisitor isect tOf lt) u inf).2 = inf ∧
      (∀ j ∈ u.leaves, ∀ l e, s.nodes[j]? = some (.leaf l) → s.values[l.value]? = some e →
        isect (O.bound e.2) = none) := by
  intro henc
  induction u with
  | leaf i =>
    rintro ⟨p, hrep⟩
    obtain ⟨l, hl', -⟩ := skelAt_leaf hrep
    obtain ⟨v, hval⟩ := hv.toVal i l hl'
    have hq : qT O s (closestVisitor isect tOf lt) (.leaf i) inf =
        match closestVisitor isect tOf lt inf (O.bound v) true with
        | (some r, st') => ([(l.value, r)], st')
        | (none, st') => ([], st') := by
      simp only [qT, hl', hval]
      rcases closestVisitor isect tOf lt inf (O.bound v) true with ⟨_ | r, st'⟩ <;> rfl
    rw [hq]
    cases hi : isect (O.bound v) with
    | none =>
      have hc : closestVisitor isect tOf lt inf (O.bound v) true = (none, inf) := by simp [closestVisitor, hi]
      rw [hc]
      refine fun _ => ⟨rfl, ?_⟩
      intro j hj l' e h1 h2
      simp at hj; subst hj
      rw [hl'] at h1; simp at h1; subst h1
      rw [hval] at h2; simp at h2; subst h2; exact hi
    | some q =>
      have hc : closestVisitor isect tOf lt inf (O.bound v) true = (some q, tOf q) := by
        simp [closestVisitor, hi, hlt _ _ hi]
      rw [hc]
      simp
  | node i l r ihl ihr =>
    rintro ⟨p, hrep⟩
    obtain ⟨b, hb, -⟩ := skelAt_branch hrep.1
    have hdesc := henc i b hb (.node i l r) ⟨p, hrep⟩ rfl
    have hq : qT O s (closestVisitor isect tOf lt) (.node i l r) inf =
        match closestVisitor isect tOf lt inf b.bound false with
        | (some _, st') =>
          ((qT O s (closestVisitor isect tOf lt) r st').1 ++
            (qT O s (closestVisitor isect tOf lt) l (qT O s (closestVisitor isect tOf lt) r st').2).1,
            (qT O s (closestVisitor isect tOf lt) l (qT O s (closestVisitor isect tOf lt) r st').2).2)
        | (none, st') => ([], st') := by
      simp only [qT, hb]
      rcases closestVisitor isect tOf lt inf b.bound false with ⟨_ | r, st'⟩ <;> rfl
    rw [hq]
    cases hi : isect b.bound with
    | none =>
      have hc : closestVisitor isect tOf lt inf b.bound false = (none, inf) := by simp [closestVisitor, hi]
      rw [hc]
      exact fun _ => ⟨rfl, fun j hj l' e h1 h2 => hdesc j hj l' e h1 h2 hi⟩
    | some q =>
      have hc : closestVisitor isect tOf lt inf b.bound false = (some q, inf) := by
        simp [closestVisitor, hi, hlt _ _ hi]
      rw [hc]
      dsimp only
      intro hnil
      rw [List.append_eq_nil_iff] at hnil
      obtain ⟨n1, n2⟩ := hnil
      obtain ⟨a1, a2⟩ := ihr ⟨_, hrep.2.2⟩ n1
      rw [a1] at n2 ⊢
      obtain ⟨b1, b2⟩ := ihl ⟨_, hrep.2.1⟩ n2
      refine ⟨b1, ?_⟩
      intro j hj
      simp only [T.leaves_node, List.mem_append] at hj
      rcases hj with hj | hj
      · exact b2 j hj
      · exact a2 j hj

/-- The scan over the reported hits keeps its start, or one of them. -/
theorem foldl_closest_mem (l : List (V × P)) (acc : E × Option (V × P)) :
    (l.foldl (closestStep tOf lt) acc = acc ∨ ∃ x ∈ l, l.foldl (closestStep tOf lt) acc = (tOf x.2, some x)) := by
  induction l generalizing acc with
  | nil => exact Or.inl rfl
  | cons a l ih =>
    simp only [List.foldl_cons]
    have step : closestStep tOf lt acc a = acc ∨ closestStep tOf lt acc a = (tOf a.2, some a) := by
      unfold closestStep; split
      · exact Or.inr rfl
      · exact Or.inl rfl
    rcases ih (closestStep tOf lt acc a) with h | ⟨x, hx, h⟩
    · rcases step with s | s
      · left; rw [h, s]
      · right; exact ⟨a, by simp, by rw [h, s]⟩
    · right; exact ⟨x, by simp [hx], h⟩

include hlt in
/-- Generic form: no order of the hits is needed. -/
theorem closest_any_generic {enc : B → B → Prop} (hen : Encloses O enc)
    (hfat : ∀ v, O.contains (O.fat v) (O.bound v) = true)
    {h : Hist V} (he : Exec O h s) (hd : Disciplined O h) (hu : UpToDate O h)
    (hr : Refitted! h) {n : Nat} (hh : s.height = .ok n)
    (hbr : ∀ b v, enc b (O.bound v) → isect b = none → isect (O.bound v) = none) :
    (∃ res, queryRayClosest O s isect tOf lt inf = .ok res ∧
      (res = none ↔ ∀ e ∈ s.values, isect (O.bound e.2) = none) ∧
      ∀ v p, res = some (v, p) → v ∈ s.values.map Prod.snd ∧ isect (O.bound v) = some p) ∨
    (queryRayClosest O s isect tOf lt inf = .panic ∧ 256 < n) := by
  have hi := exec_inv O he
  rcases hi.wf with hw | ⟨t, hw⟩
  · left
    refine ⟨none, ?_, ?_, by simp⟩
    · have := query_map O (queryForIndices_empty O hw (closestVisitor isect tOf lt) inf) (by simp)
      simp [queryRayClosest, this]
    · simp [hw.values]
  · have hht : n = t.height := by
      obtain ⟨m, h1, -, h2, h3, h4⟩ := c04_height O he hr
      rw [hh] at h1; simp at h1; subst h1
      have hl := (leaves_values hw).length_eq
      simp only [List.length_map] at hl
      have hp := t.leaves_pos
      have hne : s.values ≠ [] := by intro e; rw [e] at hl; simp at hl; omega
      refine levels_unique (h2 hne) ?_
      rw [hw.shape.root_eq]; exact levels_of_rep t 0 hw.shape.rep
    rcases queryForIndices_tree O hw (closestVisitor isect tOf lt) inf with h1 | ⟨hp, h1⟩
    swap
    · right
      refine ⟨?_, by omega⟩
      simp [queryRayClosest, Dbvt.query, hp]
    left
    have hcov := hi.cov (fun _ => True) (fun v _ => hfat v) hd
    have henc : ∀ (i : Nat) (l : Leaf B) (e : Nat × V), s.nodes[i]? = some (.leaf l) →
        s.values[l.value]? = some e → enc l.bound (O.bound e.2) := by
      intro i l e hl hv
      rcases hcov e (List.mem_of_getElem? hv) trivial with h | h | ⟨bd, h2, h3⟩
      · rw [hu.1] at h; simp at h
      · exact absurd h (hu.2 _)
      · obtain ⟨w, hw'⟩ := hw.vals.toVal i l hl
        rw [hv] at hw'
        simp at hw'; subst hw'
        rw [leafAt_of hl] at h2
        simp at h2; subst h2
        exact hen.contains h3
    have hnone := qT_none O s isect tOf lt inf hlt hw.vals t (by
      rintro i b hb w ⟨p, hrep⟩ rfl j hj l e hl hv
      obtain ⟨z, hz, hez⟩ := encl_of_ok O hen (local_ok O he hr) henc w p hrep j hj l e hl hv
      simp [hbAt, hb, Node.hb] at hz
      rw [← hz] at hez
      exact hbr _ e.2 hez) ⟨0, hw.shape.rep⟩
    set Q := qT O s (closestVisitor isect tOf lt) t inf with hQ
    have hall : Q.1 = [] → ∀ e ∈ s.values, isect (O.bound e.2) = none := by
      intro hq e hm
      obtain ⟨k, hk, hke⟩ := List.getElem_of_mem hm
      have hk' : s.values[k]? = some e := by rw [List.getElem?_eq_getElem hk, hke]
      have hmem : e.1 ∈ t.leaves := (leaves_values hw).mem_iff.1 (List.mem_map.2 ⟨e, hm, rfl⟩)
      obtain ⟨l, hl', hlk⟩ := hw.vals.toLeaf k e.1 e.2 hk'
      exact (hnone hq).2 e.1 hmem l e hl' (by rw [hlk]; exact hk')
    have hres : ∀ x ∈ Q.1, ∃ e, s.values[x.1]? = some e ∧ isect (O.bound e.2) = some x.2 := by
      intro x hx
      obtain ⟨i, l, e, st', -, -, hk, hv, hvis⟩ := qT_sound O s _ t inf x.1 x.2 hx
      refine ⟨e, hv, ?_⟩
      unfold closestVisitor at hvis
      cases hq : isect (O.bound e.2) with
      | none => simp [hq] at hvis
      | some q =>
        simp only [hq] at hvis
        split at hvis
        · simpa using hvis
        · simp at hvis
    have hlt' : ∀ p ∈ Q.1, p.1 < s.values.length := by
      intro x hx
      obtain ⟨e, hv, -⟩ := hres x hx
      exact (List.getElem?_eq_some_iff.1 hv).1
    have hquery := query_map O h1 hlt'
    set l := Q.1.filterMap fun p => (s.values[p.1]?).map fun e => (e.2, p.2) with hldef
    have hlmem : ∀ y ∈ l, y.1 ∈ s.values.map Prod.snd ∧ isect (O.bound y.1) = some y.2 := by
      intro y hy
      rw [hldef, List.mem_filterMap] at hy
      obtain ⟨x, hx, hy⟩ := hy
      obtain ⟨e, hv, hp⟩ := hres x hx
      rw [hv] at hy; simp at hy; subst hy
      exact ⟨List.mem_map.2 ⟨e, List.mem_of_getElem? hv, rfl⟩, hp⟩
    refine ⟨(l.foldl (closestStep tOf lt) (inf, none)).2, by simp [queryRayClosest, hquery], ?_, ?_⟩
    · constructor
      · intro hn
        apply hall
        by_contra hne
        obtain ⟨x, Q', hxQ⟩ := List.exists_cons_of_ne_nil hne
        obtain ⟨e, hv, hp⟩ := hres x (by rw [hxQ]; simp)
        have hl : l = (e.2, x.2) :: Q'.filterMap fun p => (s.values[p.1]?).map fun e => (e.2, p.2) := by
          rw [hldef, hxQ]; simp [hv]
        rw [hl, List.foldl_cons] at hn
        have hst : closestStep tOf lt (inf, none) (e.2, x.2) = (tOf x.2, some (e.2, x.2)) := by
          simp [closestStep, hlt _ _ hp]
        rw [hst] at hn
        rcases foldl_closest_mem tOf lt (Q'.filterMap fun p => (s.values[p.1]?).map fun e => (e.2, p.2))
          (tOf x.2, some (e.2, x.2)) with h | ⟨y, -, h⟩ <;> rw [h] at hn <;> simp at hn
      · intro hn
        rcases foldl_closest_mem tOf lt l (inf, none) with f4 | ⟨x, hx, f4⟩
        · rw [f4]
        · obtain ⟨e, hm, he'⟩ := List.mem_map.1 (hlmem x hx).1
          have := hn e hm
          rw [he', (hlmem x hx).2] at this; simp at this
    · intro v p hvp
      rcases foldl_closest_mem tOf lt l (inf, none) with f4 | ⟨x, hx, f4⟩
      · rw [f4] at hvp; simp at hvp
      · rw [f4] at hvp; simp at hvp; subst hvp
        exact ⟨(hlmem _ hx).1, (hlmem _ hx).2⟩
end

section Boxes
open Ext
variable {K : Type} [Field K] [LinearOrder K] [IsStrictOrderedRing K]

/-- C16 (2D), the part that holds for every ray, from inside branch volumes too (missing: that the answer is
the nearest, which is false there, see `c16_false`): the answer is `None` exactly if the ray meets no value, and
otherwise a value the ray meets at the point reported. The only way out is the panic above 256 levels. -/
theorem c16_some_iff2 {V : Type} (bound fat : V → Box2 K) (im : K)
    (hfat : ∀ v, (fat v).1.contains (bound v).1 = true)
    {h : Hist V} {s : Dbvt V (Box2 K)} (he : Exec (boxOps2 bound fat im) h s)
    (hd : Disciplined (boxOps2 bound fat im) h) (hu : UpToDate (boxOps2 bound fat im) h)
    (hr : Refitted! h) {n : Nat} (hh : s.height = .ok n) (r : Ray2 K) (hdir : r.direction ≠ 0) :
    (∃ res, queryRayClosest2 (boxOps2 bound fat im) s r = .ok res ∧
      (res = none ↔ ∀ v ∈ s.values.map Prod.snd, ¬ ∃ t, r.Meets (bound v).1 t) ∧
      ∀ v p, res = some (v, p) → v ∈ s.values.map Prod.snd ∧
        ∃ t, r.Meets (bound v).1 t ∧ p = (r.at t).toExt ∧ HitAt2 r (bound v).1 t) ∨
    (queryRayClosest2 (boxOps2 bound fat im) s r = .panic ∧ 256 < n) := by
  have hpt : ∀ (b : Box2 K) p, r.intersectionAabb b.1 = some p →
      ∃ t, r.Meets b.1 t ∧ p = (r.at t).toExt := by
    intro b p hp
    obtain ⟨t, h1, h2, -⟩ := (c30_ray_aabb2 r b.1 b.2 hdir).2.2 p hp
    exact ⟨t, h1, h2⟩
  rcases closest_any_generic (boxOps2 bound fat im) s (fun b : Box2 K => r.intersectionAabb b.1)
    (rayT2 r) Ext.lt pinf (by
      intro b p hp
      obtain ⟨t, -, rfl⟩ := hpt b p hp
      rw [rayT2_at]; simp [Ext.lt]) (encloses2 bound fat im) hfat he hd hu hr hh (by
      intro b v hen hb
      rw [(c30_ray_aabb2 r _ b.2 hdir).1] at hb
      show r.intersectionAabb (bound v).1 = none
      rw [(c30_ray_aabb2 r _ (bound v).2 hdir).1]
      rintro ⟨t, ht⟩
      exact hb ⟨t, ht.mono hen⟩) with ⟨res, h1, h2, h3⟩ | h
  · refine Or.inl ⟨res, h1, ?_, ?_⟩
    · rw [h2]
      constructor
      · intro H v hv
        obtain ⟨e, he, rfl⟩ := List.mem_map.1 hv
        exact (c30_ray_aabb2 r _ (bound e.2).2 hdir).1.1 (H e he)
      · intro H e he
        exact (c30_ray_aabb2 r _ (bound e.2).2 hdir).1.2 (H e.2 (List.mem_map.2 ⟨e, he, rfl⟩))
    · intro v p hvp
      obtain ⟨a1, a2⟩ := h3 v p hvp
      obtain ⟨t, ht, rfl⟩ := hpt _ p a2
      exact ⟨a1, t, ht, rfl, ht.1, a2⟩
  · exact Or.inr h

/-- C16 (3D), the part that holds for every ray. -/
theorem c16_some_iff3 {V : Type} (bound fat : V → Box3 K) (im : K)
    (hfat : ∀ v, (fat v).1.contains (bound v).1 = true)
    {h : Hist V} {s : Dbvt V (Box3 K)} (he : Exec (boxOps3 bound fat im) h s)
    (hd : Disciplined (boxOps3 bound fat im) h) (hu : UpToDate (boxOps3 bound fat im) h)
    (hr : Refitted! h) {n : Nat} (hh : s.height = .ok n) (nz : V3 Bool) (r : Ray3 K) (hdir : r.direction ≠ 0) :
    (∃ res, queryRayClosest3 (boxOps3 bound fat im) s nz r = .ok res ∧
      (res = none ↔ ∀ v ∈ s.values.map Prod.snd, ¬ ∃ t, r.Meets (bound v).1 t) ∧
      ∀ v p, res = some (v, p) → v ∈ s.values.map Prod.snd ∧
        ∃ t, r.Meets (bound v).1 t ∧ p = (r.at t).toExt ∧ HitAt3 nz r (bound v).1 t) ∨
    (queryRayClosest3 (boxOps3 bound fat im) s nz r = .panic ∧ 256 < n) := by
  have hc : ∀ b : Box3 K, _ := fun b => c31_ray_aabb3 nz r b.1 (Aabb3_pos_valid b.2) hdir (fun _ => b.2.1) (fun _ => b.2.2.1) (fun _ => b.2.2.2)
  have hpt : ∀ (b : Box3 K) p, r.intersectionAabb nz b.1 = some p →
      ∃ t, r.Meets b.1 t ∧ p = (r.at t).toExt := by
    intro b p hp
    obtain ⟨t, h1, h2, -⟩ := (hc b).2.2 p hp
    exact ⟨t, h1, h2⟩
  rcases closest_any_generic (boxOps3 bound fat im) s (fun b : Box3 K => r.intersectionAabb nz b.1)
    (rayT3 r) Ext.lt pinf (by
      intro b p hp
      obtain ⟨t, -, rfl⟩ := hpt b p hp
      rw [rayT3_at]; simp [Ext.lt]) (encloses3 bound fat im) hfat he hd hu hr hh (by
      intro b v hen hb
      rw [(hc b).1] at hb
      show r.intersectionAabb nz (bound v).1 = none
      rw [(hc (bound v)).1]
      rintro ⟨t, ht⟩
      exact hb ⟨t, ht.mono hen⟩) with ⟨res, h1, h2, h3⟩ | h
  · refine Or.inl ⟨res, h1, ?_, ?_⟩
    · rw [h2]
      constructor
      · intro H v hv
        obtain ⟨e, he, rfl⟩ := List.mem_map.1 hv
        exact (hc (bound e.2)).1.1 (H e he)
      · intro H e he
        exact (hc (bound e.2)).1.2 (H e.2 (List.mem_map.2 ⟨e, he, rfl⟩))
    · intro v p hvp
      obtain ⟨a1, a2⟩ := h3 v p hvp
      obtain ⟨t, ht, rfl⟩ := hpt _ p a2
      exact ⟨a1, t, ht, rfl, ht.1, a2⟩
  · exact Or.inr h
end Boxes
end Verif.Dbvt
