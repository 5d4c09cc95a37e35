import Verif.Dbvt.BoxTree
/-!
# `query_ray_closest` (C16)
-/
namespace Verif.Dbvt
open Verif Geom
set_option linter.unusedSectionVars false
variable {V B S P E : Type}

/-- `RayClosestVisitor::accept`, `src/dbvt/util.rs:55-71`; the state is `self.min`, `isect` is
`|b| b.intersection(&self.ray)`, `tOf p` is `(p - ray.origin).dot(ray.direction)`. -/
def closestVisitor (isect : B → Option P) (tOf : P → E) (lt : E → E → Bool) : Visitor E B P :=
  fun min b isLeaf =>
    match isect b with
    | some p => if lt (tOf p) min then (some p, if isLeaf then tOf p else min) else (none, min)
    | none => (none, min)

/-- Body of the `for` loop of `query_ray_closest` on `(tmin, saved)`, `src/dbvt/util.rs:106-111` -/
def closestStep (tOf : P → E) (lt : E → E → Bool) (acc : E × Option (V × P)) (x : V × P) : E × Option (V × P) :=
  if lt (tOf x.2) acc.1 then (tOf x.2, some x) else acc

/-- `query_ray_closest`, `src/dbvt/util.rs:86-114`; `inf` is `S::infinity()` -/
def queryRayClosest (O : Ops V B S) (s : Dbvt V B) (isect : B → Option P) (tOf : P → E) (lt : E → E → Bool)
    (inf : E) : Res (Option (V × P)) := do
  let l ← s.query O (closestVisitor isect tOf lt) inf
  return (l.foldl (closestStep tOf lt) (inf, none)).2

/-- `lt` behaves like `<` of a linear order on the scalars satisfying `Good` (not NaN). -/
structure OrdOn (lt : E → E → Bool) (Good : E → Prop) : Prop where
  asymm : ∀ {a b}, Good a → Good b → lt a b = true → lt b a = false
  trans : ∀ {a b c}, Good a → Good b → Good c → lt a b = false → lt b c = false → lt a c = false

theorem OrdOn.irrefl {lt : E → E → Bool} {Good : E → Prop} (h : OrdOn lt Good) {a : E} (ha : Good a) : lt a a = false := by
  cases h' : lt a a with
  | false => rfl
  | true => rw [← h', h.asymm ha ha h']

section
variable (O : Ops V B S) (s : Dbvt V B) (isect : B → Option P) (tOf : P → E) (lt : E → E → Bool)
  {Good : E → Prop} (hl : OrdOn lt Good) (hgood : ∀ b p, isect b = some p → Good (tOf p))

include hl hgood in
theorem qT_closest (hv : ValsOK s.nodes s.values) (u : T) :
    (∀ (i : Nat) (b : Branch B), s.nodes[i]? = some (.branch b) → ∀ w : T, (∃ p, Rep (skelAt s.nodes) p w) → w.root = i →
      ∀ j ∈ w.leaves, ∀ l e, s.nodes[j]? = some (.leaf l) → s.values[l.value]? = some e →
        ∀ p, isect (O.bound e.2) = some p → ∃ q, isect b.bound = some q ∧ lt (tOf p) (tOf q) = false) →
    (∃ p, Rep (skelAt s.nodes) p u) → ∀ m, Good m →
      Good (qT O s (closestVisitor isect tOf lt) u m).2 ∧
      lt m (qT O s (closestVisitor isect tOf lt) u m).2 = false ∧
      (∀ j ∈ u.leaves, ∀ l e, s.nodes[j]? = some (.leaf l) → s.values[l.value]? = some e →
        ∀ p, isect (O.bound e.2) = some p → lt (tOf p) (qT O s (closestVisitor isect tOf lt) u m).2 = false) ∧
      ((qT O s (closestVisitor isect tOf lt) u m).2 = m ∨
        ∃ x ∈ (qT O s (closestVisitor isect tOf lt) u m).1, tOf x.2 = (qT O s (closestVisitor isect tOf lt) u m).2) := by
  intro henc
  induction u with
  | leaf i =>
    rintro ⟨p, hrep⟩ m hm
    obtain ⟨l, hl', -⟩ := skelAt_leaf hrep
    obtain ⟨v, hval⟩ := hv.toVal i l hl'
    have hq : qT O s (closestVisitor isect tOf lt) (.leaf i) m =
        match closestVisitor isect tOf lt m (O.bound v) true with
        | (some r, st') => ([(l.value, r)], st')
        | (none, st') => ([], st') := by
      simp only [qT, hl', hval]
      rcases closestVisitor isect tOf lt m (O.bound v) true with ⟨_ | r, st'⟩ <;> rfl
    have hleaf : ∀ j ∈ (T.leaf i).leaves, ∀ l' e, s.nodes[j]? = some (.leaf l') → s.values[l'.value]? = some e →
        e.2 = v := by
      intro j hj l' e h1 h2
      simp at hj; subst hj
      rw [hl'] at h1; simp at h1; subst h1
      rw [hval] at h2; simp at h2; subst h2; rfl
    rw [hq]
    cases hi : isect (O.bound v) with
    | none =>
      have hc : closestVisitor isect tOf lt m (O.bound v) true = (none, m) := by simp [closestVisitor, hi]
      rw [hc]
      refine ⟨hm, hl.irrefl hm, ?_, Or.inl rfl⟩
      intro j hj l' e h1 h2 p hp
      rw [hleaf j hj l' e h1 h2, hi] at hp; simp at hp
    | some q =>
      have hg := hgood _ _ hi
      by_cases ht : lt (tOf q) m = true
      · have hc : closestVisitor isect tOf lt m (O.bound v) true = (some q, tOf q) := by
          simp [closestVisitor, hi, ht]
        rw [hc]
        refine ⟨hg, hl.asymm hg hm ht, ?_, Or.inr ⟨(l.value, q), by simp, rfl⟩⟩
        intro j hj l' e h1 h2 p hp
        rw [hleaf j hj l' e h1 h2, hi] at hp; simp at hp; subst hp
        exact hl.irrefl hg
      · have hc : closestVisitor isect tOf lt m (O.bound v) true = (none, m) := by simp [closestVisitor, hi, ht]
        rw [hc]
        refine ⟨hm, hl.irrefl hm, ?_, Or.inl rfl⟩
        intro j hj l' e h1 h2 p hp
        rw [hleaf j hj l' e h1 h2, hi] at hp; simp at hp; subst hp
        simpa using ht
  | node i l r ihl ihr =>
    rintro ⟨p, hrep⟩ m hm
    obtain ⟨b, hb, -⟩ := skelAt_branch hrep.1
    have hdesc := henc i b hb (.node i l r) ⟨p, hrep⟩ rfl
    have hq : qT O s (closestVisitor isect tOf lt) (.node i l r) m =
        match closestVisitor isect tOf lt m b.bound false with
        | (some _, st') =>
          ((qT O s (closestVisitor isect tOf lt) r st').1 ++
            (qT O s (closestVisitor isect tOf lt) l (qT O s (closestVisitor isect tOf lt) r st').2).1,
            (qT O s (closestVisitor isect tOf lt) l (qT O s (closestVisitor isect tOf lt) r st').2).2)
        | (none, st') => ([], st') := by
      simp only [qT, hb]
      rcases closestVisitor isect tOf lt m b.bound false with ⟨_ | r, st'⟩ <;> rfl
    rw [hq]
    cases hi : isect b.bound with
    | none =>
      have hc : closestVisitor isect tOf lt m b.bound false = (none, m) := by simp [closestVisitor, hi]
      rw [hc]
      refine ⟨hm, hl.irrefl hm, ?_, Or.inl rfl⟩
      intro j hj l' e h1 h2 p hp
      obtain ⟨q, hq, -⟩ := hdesc j hj l' e h1 h2 p hp
      rw [hi] at hq; simp at hq
    | some q =>
      by_cases ht : lt (tOf q) m = true
      · have hc : closestVisitor isect tOf lt m b.bound false = (some q, m) := by simp [closestVisitor, hi, ht]
        rw [hc]
        dsimp only
        obtain ⟨a1, a2, a3, a4⟩ := ihr ⟨_, hrep.2.2⟩ m hm
        generalize qT O s (closestVisitor isect tOf lt) r m = R at a1 a2 a3 a4 ⊢
        obtain ⟨b1, b2, b3, b4⟩ := ihl ⟨_, hrep.2.1⟩ R.2 a1
        generalize qT O s (closestVisitor isect tOf lt) l R.2 = L at b1 b2 b3 b4 ⊢
        refine ⟨b1, hl.trans hm a1 b1 a2 b2, ?_, ?_⟩
        · intro j hj l' e h1 h2 p hp
          simp only [T.leaves_node, List.mem_append] at hj
          rcases hj with hj | hj
          · exact b3 j hj l' e h1 h2 p hp
          · exact hl.trans (hgood _ _ hp) a1 b1 (a3 j hj l' e h1 h2 p hp) b2
        · rcases b4 with b4 | ⟨x, hx, b4⟩
          · rcases a4 with a4 | ⟨x, hx, a4⟩
            · left; rw [b4, a4]
            · right; exact ⟨x, by simp [hx], by rw [b4, a4]⟩
          · right; exact ⟨x, by simp [hx], b4⟩
      · have hc : closestVisitor isect tOf lt m b.bound false = (none, m) := by simp [closestVisitor, hi, ht]
        rw [hc]
        refine ⟨hm, hl.irrefl hm, ?_, Or.inl rfl⟩
        intro j hj l' e h1 h2 p hp
        obtain ⟨q', hq', hle⟩ := hdesc j hj l' e h1 h2 p hp
        rw [hi] at hq'; simp at hq'; subst hq'
        exact hl.trans (hgood _ _ hp) (hgood _ _ hi) hm hle (by simpa using ht)

include hl in
theorem foldl_closest (l : List (V × P)) (acc : E × Option (V × P)) (ha : Good acc.1)
    (hg : ∀ x ∈ l, Good (tOf x.2)) :
    let r := l.foldl (closestStep tOf lt) acc
    Good r.1 ∧ lt acc.1 r.1 = false ∧ (∀ x ∈ l, lt (tOf x.2) r.1 = false) ∧
    (r = acc ∨ ∃ x ∈ l, r = (tOf x.2, some x)) := by
  induction l generalizing acc with
  | nil => exact ⟨ha, hl.irrefl ha, by simp, Or.inl rfl⟩
  | cons a l ih =>
    have hga := hg a (by simp)
    have step : Good (closestStep tOf lt acc a).1 ∧ lt acc.1 (closestStep tOf lt acc a).1 = false ∧
        lt (tOf a.2) (closestStep tOf lt acc a).1 = false ∧
        (closestStep tOf lt acc a = acc ∨ closestStep tOf lt acc a = (tOf a.2, some a)) := by
      unfold closestStep
      by_cases h : lt (tOf a.2) acc.1 = true
      · simp only [h, if_true]; exact ⟨hga, hl.asymm hga ha h, hl.irrefl hga, Or.inr trivial⟩
      · simp only [h]; exact ⟨ha, hl.irrefl ha, by simpa using h, Or.inl rfl⟩
    obtain ⟨s1, s2, s3, s4⟩ := step
    obtain ⟨i1, i2, i3, i4⟩ := ih (closestStep tOf lt acc a) s1 (fun x hx => hg x (by simp [hx]))
    simp only [List.foldl_cons]
    refine ⟨i1, hl.trans ha s1 i1 s2 i2, ?_, ?_⟩
    · intro x hx
      rcases List.mem_cons.1 hx with rfl | hx
      · exact hl.trans hga s1 i1 s3 i2
      · exact i3 x hx
    · rcases i4 with i4 | ⟨x, hx, i4⟩
      · rcases s4 with s4 | s4
        · left; rw [i4, s4]
        · right; exact ⟨a, by simp, by rw [i4, s4]⟩
      · right; exact ⟨x, by simp [hx], i4⟩

include hl hgood in
/-- Generic form of C16: if along the tree every branch volume is hit no later than any value it
encloses, the answer is a nearest hit (and is `None` exactly if nothing is hit). -/
theorem closest_generic {enc : B → B → Prop} (hen : Encloses O enc)
    (hfat : ∀ v, O.contains (O.fat v) (O.bound v) = true)
    {h : Hist V} (he : Exec O h s) (hd : Disciplined O h) (hu : UpToDate O h)
    (hr : Refitted! h) {n : Nat} (hh : s.height = .ok n) (hn : n ≤ 256) (inf : E) (hinf : Good inf)
    (hlt : ∀ v p, isect (O.bound v) = some p → lt (tOf p) inf = true)
    (hbr : ∀ (i : Nat) (b : Branch B), s.nodes[i]? = some (.branch b) → ∀ v, enc b.bound (O.bound v) →
      ∀ p, isect (O.bound v) = some p → ∃ q, isect b.bound = some q ∧ lt (tOf p) (tOf q) = false) :
    ∃ res, queryRayClosest O s isect tOf lt inf = .ok res ∧
      (res = none ↔ ∀ e ∈ s.values, isect (O.bound e.2) = none) ∧
      ∀ v p, res = some (v, p) → v ∈ s.values.map Prod.snd ∧ isect (O.bound v) = some p ∧
        ∀ e ∈ s.values, ∀ p', isect (O.bound e.2) = some p' → lt (tOf p') (tOf p) = false := by
  have hi := exec_inv O he
  rcases hi.wf with hw | ⟨t, hw⟩
  · refine ⟨none, ?_, ?_, by simp⟩
    · have := query_map O (queryForIndices_empty O hw (closestVisitor isect tOf lt) inf) (by simp)
      simp [queryRayClosest, this]
    · simp [hw.values]
  · have hht : n = t.height := by
      obtain ⟨m, h1, -, h2, h3, h4⟩ := c04_height O he hr
      rw [hh] at h1; simp at h1; subst h1
      have hl := (leaves_values hw).length_eq
      simp only [List.length_map] at hl
      have hp := t.leaves_pos
      have hne : s.values ≠ [] := by intro e; rw [e] at hl; simp at hl; omega
      refine levels_unique (h2 hne) ?_
      rw [hw.shape.root_eq]; exact levels_of_rep t 0 hw.shape.rep
    have h1 := (queryForIndices_tree O hw (closestVisitor isect tOf lt) inf).resolve_right (by rintro ⟨-, h⟩; omega)
    have hcov := hi.cov (fun _ => True) (fun v _ => hfat v) hd
    have henc : ∀ (i : Nat) (l : Leaf B) (e : Nat × V), s.nodes[i]? = some (.leaf l) →
        s.values[l.value]? = some e → enc l.bound (O.bound e.2) := by
      intro i l e hl hv
      rcases hcov e (List.mem_of_getElem? hv) trivial with h | h | ⟨bd, h2, h3⟩
      · rw [hu.1] at h; simp at h
      · exact absurd h (hu.2 _)
      · obtain ⟨w, hw'⟩ := hw.vals.toVal i l hl
        rw [hv] at hw'
        simp at hw'; subst hw'
        rw [leafAt_of hl] at h2
        simp at h2; subst h2
        exact hen.contains h3
    obtain ⟨c1, c2, c3, c4⟩ := qT_closest O s isect tOf lt hl hgood hw.vals t (by
      rintro i b hb w ⟨p, hrep⟩ rfl j hj l e hl hv
      obtain ⟨z, hz, hez⟩ := encl_of_ok O hen (local_ok O he hr) henc w p hrep j hj l e hl hv
      simp [hbAt, hb, Node.hb] at hz
      rw [← hz] at hez
      exact hbr _ b hb e.2 hez) ⟨0, hw.shape.rep⟩ inf hinf
    set Q := qT O s (closestVisitor isect tOf lt) t inf with hQ
    -- every value is on a leaf
    have hall : ∀ e ∈ s.values, ∀ p, isect (O.bound e.2) = some p → lt (tOf p) Q.2 = false := by
      intro e hm p hp
      obtain ⟨k, hk, hke⟩ := List.getElem_of_mem hm
      have hk' : s.values[k]? = some e := by rw [List.getElem?_eq_getElem hk, hke]
      have hmem : e.1 ∈ t.leaves := (leaves_values hw).mem_iff.1 (List.mem_map.2 ⟨e, hm, rfl⟩)
      obtain ⟨l, hl', hlk⟩ := hw.vals.toLeaf k e.1 e.2 hk'
      exact c3 e.1 hmem l e hl' (by rw [hlk]; exact hk') p hp
    have hres : ∀ x ∈ Q.1, ∃ e, s.values[x.1]? = some e ∧ isect (O.bound e.2) = some x.2 := by
      intro x hx
      obtain ⟨i, l, e, st', -, -, hk, hv, hvis⟩ := qT_sound O s _ t inf x.1 x.2 hx
      refine ⟨e, hv, ?_⟩
      unfold closestVisitor at hvis
      cases hq : isect (O.bound e.2) with
      | none => simp [hq] at hvis
      | some q =>
        simp only [hq] at hvis
        split at hvis
        · simpa using hvis
        · simp at hvis
    have hlt' : ∀ p ∈ Q.1, p.1 < s.values.length := by
      intro x hx
      obtain ⟨e, hv, -⟩ := hres x hx
      exact (List.getElem?_eq_some_iff.1 hv).1
    have hquery := query_map O h1 hlt'
    set l := Q.1.filterMap fun p => (s.values[p.1]?).map fun e => (e.2, p.2) with hldef
    have hlmem : ∀ y ∈ l, y.1 ∈ s.values.map Prod.snd ∧ isect (O.bound y.1) = some y.2 := by
      intro y hy
      rw [hldef, List.mem_filterMap] at hy
      obtain ⟨x, hx, hy⟩ := hy
      obtain ⟨e, hv, hp⟩ := hres x hx
      rw [hv] at hy; simp at hy; subst hy
      exact ⟨List.mem_map.2 ⟨e, List.mem_of_getElem? hv, rfl⟩, hp⟩
    obtain ⟨f1, f2, f3, f4⟩ := foldl_closest tOf lt hl l (inf, none) hinf (fun x hx => hgood _ _ (hlmem x hx).2)
    have hnone : (∃ e ∈ s.values, isect (O.bound e.2) ≠ none) → l ≠ [] ∧ ∃ y ∈ l, tOf y.2 = Q.2 := by
      rintro ⟨e, hm, hne⟩
      obtain ⟨p, hp⟩ := Option.ne_none_iff_exists'.1 hne
      have h2 := hall e hm p hp
      rcases c4 with c4 | ⟨x, hx, c4⟩
      · rw [c4, hlt _ _ hp] at h2; simp at h2
      · obtain ⟨e', hv, hp'⟩ := hres x hx
        have : (e'.2, x.2) ∈ l := by
          rw [hldef, List.mem_filterMap]; exact ⟨x, hx, by simp [hv]⟩
        exact ⟨List.ne_nil_of_mem this, _, this, c4⟩
    refine ⟨(l.foldl (closestStep tOf lt) (inf, none)).2, by simp [queryRayClosest, hquery], ?_, ?_⟩
    · constructor
      · intro hn e hm
        by_contra hne
        obtain ⟨-, y, hy, -⟩ := hnone ⟨e, hm, hne⟩
        rcases f4 with f4 | ⟨x, hx, f4⟩
        · have := f3 y hy
          rw [f4, hlt _ _ (hlmem y hy).2] at this; simp at this
        · rw [f4] at hn; simp at hn
      · intro hn
        rcases f4 with f4 | ⟨x, hx, f4⟩
        · rw [f4]
        · obtain ⟨e, hm, he'⟩ := List.mem_map.1 (hlmem x hx).1
          have := hn e hm
          rw [he', (hlmem x hx).2] at this; simp at this
    · intro v p hvp
      rcases f4 with f4 | ⟨x, hx, f4⟩
      · rw [f4] at hvp; simp at hvp
      · rw [f4] at hvp; simp at hvp; subst hvp
        refine ⟨(hlmem _ hx).1, (hlmem _ hx).2, ?_⟩
        intro e hm p' hp'
        obtain ⟨-, y, hy, hyQ⟩ := hnone ⟨e, hm, by simp [hp']⟩
        have h1 := hall e hm p' hp'
        have h2 := f3 y hy
        rw [f4] at h2
        rw [hyQ] at h2
        exact hl.trans (hgood _ _ hp') c1 (hgood _ _ (hlmem _ hx).2) h1 h2
end

/-! ## Boxes -/
section Boxes
open Ext
variable {K : Type} [Field K] [LinearOrder K]

/-- `(point - ray.origin).dot(ray.direction)` in 2D, `src/dbvt/util.rs:58-59, 106-107` -/
def rayT2 (r : Ray2 K) (p : V2 (Ext K)) : Ext K :=
  add (mul (add p.x (fin (-r.origin.x))) (fin r.direction.x)) (mul (add p.y (fin (-r.origin.y))) (fin r.direction.y))
/-- `(point - ray.origin).dot(ray.direction)` in 3D, `src/dbvt/util.rs:58-59, 106-107` -/
def rayT3 (r : Ray3 K) (p : V3 (Ext K)) : Ext K :=
  add (add (mul (add p.x (fin (-r.origin.x))) (fin r.direction.x)) (mul (add p.y (fin (-r.origin.y))) (fin r.direction.y)))
    (mul (add p.z (fin (-r.origin.z))) (fin r.direction.z))

/-- `query_ray_closest` on 2D boxes, `src/dbvt/util.rs:86-114` -/
def queryRayClosest2 {V : Type} (O : Ops V (Box2 K) K) (s : Dbvt V (Box2 K)) (r : Ray2 K) :
    Res (Option (V × V2 (Ext K))) :=
  queryRayClosest O s (fun b => r.intersectionAabb b.1) (rayT2 r) Ext.lt pinf
/-- `query_ray_closest` on 3D boxes, `src/dbvt/util.rs:86-114` -/
def queryRayClosest3 {V : Type} (O : Ops V (Box3 K) K) (s : Dbvt V (Box3 K)) (nz : V3 Bool) (r : Ray3 K) :
    Res (Option (V × V3 (Ext K))) :=
  queryRayClosest O s (fun b => r.intersectionAabb nz b.1) (rayT3 r) Ext.lt pinf

variable [IsStrictOrderedRing K]

theorem ext_ordOn : OrdOn (Ext.lt (K := K)) (· ≠ nan) where
  asymm := by
    intro a b ha hb h
    cases a <;> cases b <;> simp_all [Ext.lt]
    exact h.le
  trans := by
    intro a b c ha hb hc h1 h2
    cases a <;> cases b <;> cases c <;> simp_all [Ext.lt]
    exact h2.trans h1

theorem rayT2_at (r : Ray2 K) (t : K) : rayT2 r (r.at t).toExt = fin (t * r.direction.dot r.direction) := by
  simp [rayT2, V2.toExt, Ray2.at, Ext.add, Ext.mul, V2.dot]; ring
theorem rayT3_at (r : Ray3 K) (t : K) : rayT3 r (r.at t).toExt = fin (t * r.direction.dot r.direction) := by
  simp [rayT3, V3.toExt, Ray3.at, Ext.add, Ext.mul, V3.dot]; ring

/-- Specification: value `v` is hit, at ray parameter `t`, by the point the ray/box test reports. -/
def HitAt2 (r : Ray2 K) (b : Aabb2 K) (t : K) : Prop := 0 ≤ t ∧ r.intersectionAabb b = some (r.at t).toExt
/-- Specification: value `v` is hit, at ray parameter `t`, by the point the ray/box test reports. -/
def HitAt3 (nz : V3 Bool) (r : Ray3 K) (b : Aabb3 K) (t : K) : Prop :=
  0 ≤ t ∧ r.intersectionAabb nz b = some (r.at t).toExt

theorem dot_pos2 {d : V2 K} (h : d ≠ 0) : 0 < d.dot d := by
  have : d.x ≠ 0 ∨ d.y ≠ 0 := by
    by_contra hc; push Not at hc; exact h (by ext <;> simp [hc])
  rcases this with h | h
  · have := mul_self_pos.2 h; have := mul_self_nonneg d.y; simp [V2.dot]; linarith
  · have := mul_self_pos.2 h; have := mul_self_nonneg d.x; simp [V2.dot]; linarith
theorem dot_pos3 {d : V3 K} (h : d ≠ 0) : 0 < d.dot d := by
  have : d.x ≠ 0 ∨ d.y ≠ 0 ∨ d.z ≠ 0 := by
    by_contra hc; push Not at hc; exact h (by ext <;> simp [hc])
  have hx := mul_self_nonneg d.x
  have hy := mul_self_nonneg d.y
  have hz := mul_self_nonneg d.z
  rcases this with h | h | h <;> have := mul_self_pos.2 h <;> simp [V3.dot] <;> linarith

/-- C16 (2D), under the condition that the origin of the ray lies in no branch volume of the tree (missing:
rays that start inside a branch volume, for which the property is false, see `c16_false`). The tree is
refitted, up to date and has at most 256 levels. -/
theorem c16_closest2_partial {V : Type} (bound fat : V → Box2 K) (im : K)
    (hfat : ∀ v, (fat v).1.contains (bound v).1 = true)
    {h : Hist V} {s : Dbvt V (Box2 K)} (he : Exec (boxOps2 bound fat im) h s)
    (hd : Disciplined (boxOps2 bound fat im) h) (hu : UpToDate (boxOps2 bound fat im) h)
    (hr : Refitted! h) {n : Nat} (hh : s.height = .ok n) (hn : n ≤ 256)
    (r : Ray2 K) (hdir : r.direction ≠ 0)
    (hout : ∀ (i : Nat) (b : Branch (Box2 K)), s.nodes[i]? = some (Node.branch b) → ¬ b.bound.1.Mem r.origin) :
    ∃ res, queryRayClosest2 (boxOps2 bound fat im) s r = .ok res ∧
      (res = none ↔ ∀ v ∈ s.values.map Prod.snd, ¬ ∃ t, r.Meets (bound v).1 t) ∧
      ∀ v p, res = some (v, p) → v ∈ s.values.map Prod.snd ∧ ∃ t, p = (r.at t).toExt ∧ HitAt2 r (bound v).1 t ∧
        ∀ w ∈ s.values.map Prod.snd, ∀ u, HitAt2 r (bound w).1 u → t ≤ u := by
  have hdd := dot_pos2 hdir
  have hpt : ∀ (b : Box2 K) p, r.intersectionAabb b.1 = some p →
      ∃ t, r.Meets b.1 t ∧ p = (r.at t).toExt := by
    intro b p hp
    obtain ⟨t, h1, h2, -⟩ := (c30_ray_aabb2 r b.1 b.2 hdir).2.2 p hp
    exact ⟨t, h1, h2⟩
  obtain ⟨res, h1, h2, h3⟩ := closest_generic (boxOps2 bound fat im) s (fun b : Box2 K => r.intersectionAabb b.1)
    (rayT2 r) Ext.lt ext_ordOn (by
      intro b p hp
      obtain ⟨t, -, rfl⟩ := hpt b p hp
      rw [rayT2_at]; simp) (encloses2 bound fat im) hfat he hd hu hr hh hn pinf (by simp) (by
      intro b p hp
      obtain ⟨t, -, rfl⟩ := hpt _ p hp
      rw [rayT2_at]; simp [Ext.lt]) (by
      intro i b hb v hen p hp
      obtain ⟨t, ht, rfl⟩ := hpt _ p hp
      have hm : r.Meets b.bound.1 t := ht.mono hen
      have hne : r.intersectionAabb b.bound.1 ≠ none := by
        rw [ne_eq, (c30_ray_aabb2 r _ b.bound.2 hdir).1, not_not]; exact ⟨t, hm⟩
      obtain ⟨q, hq⟩ := Option.ne_none_iff_exists'.1 hne
      obtain ⟨u, -, rfl, hf, -⟩ := (c30_ray_aabb2 r _ b.bound.2 hdir).2.2 q hq
      refine ⟨_, hq, ?_⟩
      rw [rayT2_at, rayT2_at]
      have := hf (hout i b hb) t hm
      simp only [Ext.lt, decide_eq_false_iff_not, not_lt]
      exact mul_le_mul_of_nonneg_right this hdd.le)
  refine ⟨res, h1, ?_, ?_⟩
  · rw [h2]
    constructor
    · intro H v hv
      obtain ⟨e, he, rfl⟩ := List.mem_map.1 hv
      exact (c30_ray_aabb2 r _ (bound e.2).2 hdir).1.1 (H e he)
    · intro H e he
      exact (c30_ray_aabb2 r _ (bound e.2).2 hdir).1.2 (H e.2 (List.mem_map.2 ⟨e, he, rfl⟩))
  · intro v p hvp
    obtain ⟨a1, a2, a3⟩ := h3 v p hvp
    obtain ⟨t, ht, rfl⟩ := hpt _ p a2
    refine ⟨a1, t, rfl, ⟨ht.1, a2⟩, ?_⟩
    intro w hw u hu'
    obtain ⟨e, he, rfl⟩ := List.mem_map.1 hw
    have := a3 e he _ hu'.2
    rw [rayT2_at, rayT2_at] at this
    simp only [Ext.lt, decide_eq_false_iff_not, not_lt] at this
    exact le_of_mul_le_mul_right this hdd

/-- C16 (3D), same condition. -/
theorem c16_closest3_partial {V : Type} (bound fat : V → Box3 K) (im : K)
    (hfat : ∀ v, (fat v).1.contains (bound v).1 = true)
    {h : Hist V} {s : Dbvt V (Box3 K)} (he : Exec (boxOps3 bound fat im) h s)
    (hd : Disciplined (boxOps3 bound fat im) h) (hu : UpToDate (boxOps3 bound fat im) h)
    (hr : Refitted! h) {n : Nat} (hh : s.height = .ok n) (hn : n ≤ 256)
    (nz : V3 Bool) (r : Ray3 K) (hdir : r.direction ≠ 0)
    (hout : ∀ (i : Nat) (b : Branch (Box3 K)), s.nodes[i]? = some (Node.branch b) → ¬ b.bound.1.Mem r.origin) :
    ∃ res, queryRayClosest3 (boxOps3 bound fat im) s nz r = .ok res ∧
      (res = none ↔ ∀ v ∈ s.values.map Prod.snd, ¬ ∃ t, r.Meets (bound v).1 t) ∧
      ∀ v p, res = some (v, p) → v ∈ s.values.map Prod.snd ∧ ∃ t, p = (r.at t).toExt ∧ HitAt3 nz r (bound v).1 t ∧
        ∀ w ∈ s.values.map Prod.snd, ∀ u, HitAt3 nz r (bound w).1 u → t ≤ u := by
  have hdd := dot_pos3 hdir
  have hc : ∀ b : Box3 K, _ := fun b => c31_ray_aabb3 nz r b.1 (Aabb3_pos_valid b.2) hdir (fun _ => b.2.1) (fun _ => b.2.2.1) (fun _ => b.2.2.2)
  have hpt : ∀ (b : Box3 K) p, r.intersectionAabb nz b.1 = some p →
      ∃ t, r.Meets b.1 t ∧ p = (r.at t).toExt := by
    intro b p hp
    obtain ⟨t, h1, h2, -⟩ := (hc b).2.2 p hp
    exact ⟨t, h1, h2⟩
  obtain ⟨res, h1, h2, h3⟩ := closest_generic (boxOps3 bound fat im) s (fun b : Box3 K => r.intersectionAabb nz b.1)
    (rayT3 r) Ext.lt ext_ordOn (by
      intro b p hp
      obtain ⟨t, -, rfl⟩ := hpt b p hp
      rw [rayT3_at]; simp) (encloses3 bound fat im) hfat he hd hu hr hh hn pinf (by simp) (by
      intro b p hp
      obtain ⟨t, -, rfl⟩ := hpt _ p hp
      rw [rayT3_at]; simp [Ext.lt]) (by
      intro i b hb v hen p hp
      obtain ⟨t, ht, rfl⟩ := hpt _ p hp
      have hm : r.Meets b.bound.1 t := ht.mono hen
      have hne : r.intersectionAabb nz b.bound.1 ≠ none := by
        rw [ne_eq, (hc b.bound).1, not_not]; exact ⟨t, hm⟩
      obtain ⟨q, hq⟩ := Option.ne_none_iff_exists'.1 hne
      obtain ⟨u, -, rfl, hf, -⟩ := (hc b.bound).2.2 q hq
      refine ⟨_, hq, ?_⟩
      rw [rayT3_at, rayT3_at]
      have := hf (hout i b hb) t hm
      simp only [Ext.lt, decide_eq_false_iff_not, not_lt]
      exact mul_le_mul_of_nonneg_right this hdd.le)
  refine ⟨res, h1, ?_, ?_⟩
  · rw [h2]
    constructor
    · intro H v hv
      obtain ⟨e, he, rfl⟩ := List.mem_map.1 hv
      exact (hc (bound e.2)).1.1 (H e he)
    · intro H e he
      exact (hc (bound e.2)).1.2 (H e.2 (List.mem_map.2 ⟨e, he, rfl⟩))
  · intro v p hvp
    obtain ⟨a1, a2, a3⟩ := h3 v p hvp
    obtain ⟨t, ht, rfl⟩ := hpt _ p a2
    refine ⟨a1, t, rfl, ⟨ht.1, a2⟩, ?_⟩
    intro w hw u hu'
    obtain ⟨e, he, rfl⟩ := List.mem_map.1 hw
    have := a3 e he _ hu'.2
    rw [rayT3_at, rayT3_at] at this
    simp only [Ext.lt, decide_eq_false_iff_not, not_lt] at this
    exact le_of_mul_le_mul_right this hdd

end Boxes

/-! ## The property is false in general -/

/-- A normalised box from two corners. -/
def mkBox2 (x0 y0 x1 y1 : ℚ) : Box2 ℚ := ⟨Aabb2.new ⟨x0, y0⟩ ⟨x1, y1⟩, (c24_new2 _ _).1⟩

/-- Histories that insert some values and then `tick` are disciplined, up to date and refitted. -/
theorem run_inserts {V B S : Type} {O : Ops V B S} {fuel : Nat} {vs : List V} {rng : Nat → Nat} {h : Hist V} {s : Dbvt V B}
    (hr : runCalls O fuel (vs.map .insert ++ [.tick rng]) [] Dbvt.new = some (h, s)) :
    Exec O h s ∧ Disciplined O h ∧ UpToDate O h ∧ Refitted! h := by
  have he : Exec O h s := exec_of_run (by
    intro c hc ws; simp at hc
    rcases hc with ⟨v, -, rfl⟩ | rfl <;> simp) .new hr
  refine ⟨he, ?_⟩
  have gen : ∀ (vs : List V) (h0 : Hist V) (s0 : Dbvt V B), Disciplined O h0 → (∀ i, ¬ Stale O h0 i) →
      runCalls O fuel (vs.map .insert ++ [.tick rng]) h0 s0 = some (h, s) →
      Disciplined O h ∧ UpToDate O h ∧ Refitted! h := by
    intro vs
    induction vs with
    | nil =>
      intro h0 s0 hd hst hr
      simp only [List.map_nil, List.nil_append, runCalls] at hr
      split at hr
      · simp only [Option.some.injEq, Prod.mk.injEq] at hr
        obtain ⟨rfl, rfl⟩ := hr
        exact ⟨⟨hd, fun i hi => absurd hi (hst i)⟩, upToDate_tick O _ _ _, trivial⟩
      · simp at hr
    | cons v vs ih =>
      intro h0 s0 hd hst hr
      simp only [List.map_cons, List.cons_append, runCalls] at hr
      split at hr
      · exact ih ((Call.insert v, _) :: h0) _ hd hst hr
      · simp at hr
  exact gen vs [] Dbvt.new trivial (by simp [Stale]) hr

/-- The boxes of the counterexample; the values are the boxes themselves. -/
def closestBoxes : List (Box2 ℚ) := [mkBox2 1 (-3) 2 2, mkBox2 2 (-2) 7 2, mkBox2 (-2) (-5) (-1) (-2)]

/-- A ray starting in none of the three boxes (but inside the branch volume of the first and third). -/
def closestRay : Ray2 ℚ := ⟨⟨0, 0⟩, ⟨1, 0⟩⟩

/-- What goes wrong, as a computation: the answer is the second box, although the first is in the tree. -/
def closestCheck (s : Dbvt (Box2 ℚ) (Box2 ℚ)) : Bool :=
  (match s.height with | .ok n => n ≤ 256 | _ => false) &&
  (s.values.any fun e => e.2.1 = (mkBox2 1 (-3) 2 2).1) &&
  (s.values.all fun e => e.2.1.max.x < 0 || 0 < e.2.1.min.x) &&
  (match queryRayClosest2 (boxOps2 (K := ℚ) id id (1 / 10)) s closestRay with
    | .ok (some (v, p)) => decide (v.1 = (mkBox2 2 (-2) 7 2).1 ∧ p = (closestRay.at 2).toExt)
    | _ => false)

/-- C16 as stated is false: after three insertions and a `tick`, `query_ray_closest` answers with a value
hit at parameter 2 although another value in the tree is hit at parameter 1; the origin of the ray is
outside all three (closed) boxes. A branch volume that contains the origin is pruned by the distance
at which the ray *leaves* it. -/
theorem c16_false : ∃ (h : Hist (Box2 ℚ)) (s : Dbvt (Box2 ℚ) (Box2 ℚ)) (n : Nat) (v w : Box2 ℚ) (p : V2 (Ext ℚ)),
    Exec (boxOps2 (K := ℚ) id id (1 / 10)) h s ∧ Disciplined (boxOps2 (K := ℚ) id id (1 / 10)) h ∧
    UpToDate (boxOps2 (K := ℚ) id id (1 / 10)) h ∧ Refitted! h ∧ s.height = .ok n ∧ n ≤ 256 ∧
    closestRay.direction ≠ 0 ∧ (∀ e ∈ s.values, ¬ e.2.1.Mem closestRay.origin) ∧
    queryRayClosest2 (boxOps2 (K := ℚ) id id (1 / 10)) s closestRay = .ok (some (v, p)) ∧
    p = (closestRay.at 2).toExt ∧ w ∈ s.values.map Prod.snd ∧ HitAt2 closestRay w.1 1 := by
  have h0 : (runCalls (boxOps2 (K := ℚ) id id (1 / 10)) 20 (closestBoxes.map .insert ++ [.tick (fun _ => 0)]) [] Dbvt.new).map
      (fun p => closestCheck p.2) = some true := by decide +kernel
  obtain ⟨⟨h, s⟩, hrun, hc⟩ := Option.map_eq_some_iff.1 h0
  obtain ⟨he, hd, hu, hr⟩ := run_inserts hrun
  simp only [closestCheck, Bool.and_eq_true, List.any_eq_true, List.all_eq_true] at hc
  obtain ⟨⟨⟨c1, e, hem, c2⟩, c3⟩, c4⟩ := hc
  cases hh : s.height with
  | ok n =>
    rw [hh] at c1
    split at c4
    · rename_i v p hq
      simp only [decide_eq_true_eq] at c1 c2 c4
      refine ⟨h, s, n, v, e.2, p, he, hd, hu, hr, hh, c1, ?_, ?_, hq, c4.2, List.mem_map.2 ⟨e, hem, rfl⟩, ?_⟩
      · intro h; have := congrArg V2.x h; simp [closestRay] at this
      · intro e he hm
        have h1 := c3 e he
        simp only [Bool.or_eq_true, decide_eq_true_eq] at h1
        simp only [closestRay, Aabb2.Mem] at hm
        rcases h1 with h1 | h1
        · exact absurd hm.1.2 (not_le.2 h1)
        · exact absurd hm.1.1 (not_le.2 h1)
      · rw [c2]
        exact ⟨by norm_num, by decide +kernel⟩
    · simp at c4
  | panic => rw [hh] at c1; simp at c1
  | timeout => rw [hh] at c1; simp at c1

/-- A tree and a ray meeting all hypotheses of C15 and `c16_closest2_partial`. -/
example : ∃ (h : Hist (Box2 ℚ)) (s : Dbvt (Box2 ℚ) (Box2 ℚ)) (n : Nat) (r : Ray2 ℚ),
    Exec (boxOps2 (K := ℚ) id id (1 / 10)) h s ∧ Disciplined (boxOps2 (K := ℚ) id id (1 / 10)) h ∧
    UpToDate (boxOps2 (K := ℚ) id id (1 / 10)) h ∧ Refitted! h ∧ s.height = .ok n ∧ n ≤ 256 ∧ r.direction ≠ 0 ∧
    (∀ v : Box2 ℚ, (id v).1.contains (id v).1 = true) ∧ s.values.length = 3 ∧
    (∀ (i : Nat) (b : Branch (Box2 ℚ)), s.nodes[i]? = some (Node.branch b) → ¬ b.bound.1.Mem r.origin) ∧
    ∃ e ∈ s.values, ∃ t, r.Meets e.2.1 t := by
  have h0 : (runCalls (boxOps2 (K := ℚ) id id (1 / 10)) 20 (closestBoxes.map .insert ++ [.tick (fun _ => 0)]) [] Dbvt.new).map
      (fun p => (match p.2.height with | .ok n => n ≤ 256 | _ => false) && (p.2.values.length = 3) &&
        (p.2.values.any fun e => e.2.1 = (mkBox2 1 (-3) 2 2).1) &&
        (p.2.nodes.all fun n => match n with | .branch b => (-5 < b.bound.1.min.x : Bool) | _ => true)) = some true := by decide +kernel
  obtain ⟨⟨h, s⟩, hrun, hc⟩ := Option.map_eq_some_iff.1 h0
  obtain ⟨he, hd, hu, hr⟩ := run_inserts hrun
  simp only [Bool.and_eq_true, List.any_eq_true, List.all_eq_true] at hc
  obtain ⟨⟨⟨c1, c2⟩, e, hem, c3⟩, c4⟩ := hc
  cases hh : s.height with
  | ok n =>
    rw [hh] at c1
    simp only [decide_eq_true_eq] at c1 c2 c3
    refine ⟨h, s, n, ⟨⟨-5, 0⟩, ⟨1, 0⟩⟩, he, hd, hu, hr, hh, c1, ?_, fun v => (c26_order2.1 _), c2, ?_, e, hem, 6, ?_⟩
    · intro h; have := congrArg V2.x h; simp at this
    · intro i b hb hm
      have := c4 _ (List.mem_of_getElem? hb)
      simp only [decide_eq_true_eq] at this
      exact absurd hm.1.1 (not_le.2 this)
    · rw [c3]
      simp [Ray2.Meets, mkBox2, Aabb2.new, Aabb2.Mem, Ray2.at]
      norm_num
  | panic => rw [hh] at c1; simp at c1
  | timeout => rw [hh] at c1; simp at c1

end Verif.Dbvt
