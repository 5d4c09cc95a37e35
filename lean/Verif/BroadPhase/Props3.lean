import Verif.BroadPhase.Props2
import Verif.Dbvt.RayClosest
/-!
# The tree accelerated broad phase: C22, C23
-/
namespace Verif.BroadPhase
open Verif Dbvt Geom
set_option linter.unusedSectionVars false

variable {A B K σ V S : Type}

theorem takeWhile_dropWhile_sorted (l : List (Nat × Nat)) (p : Nat × Nat) (hs : LexSorted l) (hp : p ∉ l) :
    (∀ q ∈ l.takeWhile (fun q => decide (plt q p)), plt q p) ∧ (∀ q ∈ l.dropWhile (fun q => decide (plt q p)), plt p q) := by
  constructor
  · intro q hq
    have := List.all_takeWhile (l := l) (p := fun q => decide (plt q p))
    rw [List.all_eq_true] at this
    simpa using this q hq
  · induction l with
    | nil => simp
    | cons a l ih =>
      rw [LexSorted, List.pairwise_cons] at hs
      simp only [List.mem_cons, not_or] at hp
      rw [List.dropWhile_cons]
      split
      · exact ih hs.2 hp.2
      · rename_i h
        simp only [decide_eq_true_eq] at h
        have hpa : plt p a := (plt_total hp.1).resolve_right h
        intro q hq
        rcases List.mem_cons.1 hq with rfl | hq
        · exact hpa
        · exact plt_trans hpa (hs.1 _ hq)

theorem binaryInsert_spec (l : List (Nat × Nat)) (p : Nat × Nat) (hs : LexSorted l) :
    LexSorted (binaryInsert l p) ∧ ∀ q, q ∈ binaryInsert l p ↔ q = p ∨ q ∈ l := by
  unfold binaryInsert
  by_cases hp : p ∈ l
  · rw [if_pos hp]
    refine ⟨hs, fun q => ⟨Or.inr, ?_⟩⟩
    rintro (rfl | h)
    · exact hp
    · exact h
  · rw [if_neg hp]
    obtain ⟨h1, h2⟩ := takeWhile_dropWhile_sorted l p hs hp
    have hl := List.takeWhile_append_dropWhile (p := fun q => decide (plt q p)) (l := l)
    constructor
    · have hs' := hs
      rw [← hl, LexSorted, List.pairwise_append] at hs'
      rw [LexSorted, List.pairwise_append, List.pairwise_cons]
      refine ⟨hs'.1, ⟨h2, hs'.2.1⟩, ?_⟩
      intro a ha b hb
      rcases List.mem_cons.1 hb with rfl | hb
      · exact h1 a ha
      · exact hs'.2.2 a ha b hb
    · intro q
      rw [List.mem_append, List.mem_cons]
      conv_rhs => rw [← hl, List.mem_append]
      tauto

/-- The inner loop over the hits of one dirty shape. -/
theorem hits_loop (k : Nat) (hits : List (Nat × Unit)) : ∀ (pot : List (Nat × Nat)), LexSorted pot →
    ∃ l, forRes (fun potentials (hit : Nat × Unit) =>
        if k = hit.1 then .ok potentials
        else if k < hit.1 then .ok (binaryInsert potentials (k, hit.1))
        else .ok (binaryInsert potentials (hit.1, k))) pot hits = .ok l ∧ LexSorted l ∧
      ∀ i j, (i, j) ∈ l ↔ (i, j) ∈ pot ∨ (i < j ∧ ((i = k ∧ (j, ()) ∈ hits) ∨ (j = k ∧ (i, ()) ∈ hits))) := by
  induction hits with
  | nil => intro pot hp; exact ⟨pot, rfl, hp, by simp⟩
  | cons h hits ih =>
    intro pot hp
    obtain ⟨h, ⟨⟩⟩ := h
    simp only [forRes]
    by_cases h1 : k = h
    · rw [if_pos h1]
      obtain ⟨l, e1, e2, e3⟩ := ih pot hp
      refine ⟨l, e1, e2, ?_⟩
      intro i j
      rw [e3]
      simp only [List.mem_cons, Prod.mk.injEq, and_true]
      grind
    · rw [if_neg h1]
      by_cases h2 : k < h
      · rw [if_pos h2]
        obtain ⟨s1, s2⟩ := binaryInsert_spec pot (k, h) hp
        obtain ⟨l, e1, e2, e3⟩ := ih _ s1
        refine ⟨l, e1, e2, ?_⟩
        intro i j
        rw [e3, s2]
        simp only [List.mem_cons, Prod.mk.injEq, and_true]
        grind
      · rw [if_neg h2]
        obtain ⟨s1, s2⟩ := binaryInsert_spec pot (h, k) hp
        obtain ⟨l, e1, e2, e3⟩ := ih _ s1
        refine ⟨l, e1, e2, ?_⟩
        intro i j
        rw [e3, s2]
        simp only [List.mem_cons, Prod.mk.injEq, and_true]
        grind

/-- Position `i` is marked dirty. -/
def Dirty (dirty : List Bool) (i : Nat) : Prop := dirty[i]? = some true

/-- The broad phase of the tree is right as soon as the queries it makes are. -/
theorem pairs_of_queries (O : Ops V B S) (isect : B → B → Bool) {h : Hist V} {s : Dbvt V B} (he : Exec O h s) {n : Nat}
    (hq : ∀ q : B, (∃ hits, s.queryForIndices O (discreteVisitor fun b => isect b q) () = .ok hits ∧
      ∀ j, (j, ()) ∈ hits ↔ ∃ b, s.values[j]? = some b ∧ isect (O.bound b.2) q = true) ∨
      (256 < n ∧ s.queryForIndices O (discreteVisitor fun b => isect b q) () = .panic))
    (dirty : List Bool) (hdirty : s.values.length ≤ dirty.length) :
    (∃ l, dbvtPairs O isect s dirty = .ok l ∧ LexSorted l ∧
      ∀ i j, (i, j) ∈ l ↔ i < j ∧ ∃ a b, s.values[i]? = some a ∧ s.values[j]? = some b ∧
        ((Dirty dirty i ∧ isect (O.bound b.2) (O.bound a.2) = true) ∨ (Dirty dirty j ∧ isect (O.bound a.2) (O.bound b.2) = true))) ∨
    (256 < n ∧ dbvtPairs O isect s dirty = .panic) := by
  -- `value_index` of entry `k` is `k`
  have hvi : ∀ (k : Nat) e, s.values[k]? = some e → s.valueIndex e.1 = .ok (some k) :=
    fun k e hk => (c02_value_index O he e.1 k).2 ⟨e.2, hk⟩
  -- the loop over a suffix of the values
  have loop : ∀ (vs : List (Nat × V)) (k : Nat) (pot : List (Nat × Nat)), s.values.drop k = vs → LexSorted pot →
      (∃ l, forRes (fun potentials (e : Nat × V) => do
        let shape_value_index ← Res.ofOption (← s.valueIndex e.1)
        let d ← Res.ofOption dirty[shape_value_index]?
        if d then do
          let hits ← s.queryForIndices O (discreteVisitor fun b => isect b (O.bound e.2)) ()
          forRes (fun potentials (hit : Nat × Unit) =>
            if shape_value_index = hit.1 then .ok potentials
            else if shape_value_index < hit.1 then .ok (binaryInsert potentials (shape_value_index, hit.1))
            else .ok (binaryInsert potentials (hit.1, shape_value_index))) potentials hits
        else return potentials) pot vs = .ok l ∧ LexSorted l ∧
      ∀ i j, (i, j) ∈ l ↔ (i, j) ∈ pot ∨ (i < j ∧ ∃ a b, s.values[i]? = some a ∧ s.values[j]? = some b ∧
        ((k ≤ i ∧ Dirty dirty i ∧ isect (O.bound b.2) (O.bound a.2) = true) ∨ (k ≤ j ∧ Dirty dirty j ∧ isect (O.bound a.2) (O.bound b.2) = true)))) ∨
      (256 < n ∧ forRes (fun potentials (e : Nat × V) => do
        let shape_value_index ← Res.ofOption (← s.valueIndex e.1)
        let d ← Res.ofOption dirty[shape_value_index]?
        if d then do
          let hits ← s.queryForIndices O (discreteVisitor fun b => isect b (O.bound e.2)) ()
          forRes (fun potentials (hit : Nat × Unit) =>
            if shape_value_index = hit.1 then .ok potentials
            else if shape_value_index < hit.1 then .ok (binaryInsert potentials (shape_value_index, hit.1))
            else .ok (binaryInsert potentials (hit.1, shape_value_index))) potentials hits
        else return potentials) pot vs = .panic) := by
    intro vs
    induction vs with
    | nil =>
      intro k pot hdr hp
      refine Or.inl ⟨pot, rfl, hp, fun i j => ⟨Or.inl, ?_⟩⟩
      rintro (h | ⟨-, a, b, ha, hb, h⟩)
      · exact h
      · have hlen := List.drop_eq_nil_iff.1 hdr
        have h1 := (List.getElem?_eq_some_iff.1 ha).1
        have h2 := (List.getElem?_eq_some_iff.1 hb).1
        omega
    | cons e vs ih =>
      intro k pot hdr hp
      have hk : s.values[k]? = some e := by
        have := congrArg (fun m => m[0]?) hdr
        simpa using this
      have hdr' : s.values.drop (k + 1) = vs := by
        rw [← List.drop_drop (i := 1), hdr]; rfl
      have hklen := (List.getElem?_eq_some_iff.1 hk).1
      obtain ⟨d, hd'⟩ : ∃ d, dirty[k]? = some d := ⟨_, List.getElem?_eq_getElem (by omega)⟩
      simp only [forRes, hvi k e hk, Res.bind_ok, Res.ofOption_some, hd']
      cases d with
      | false =>
        rcases ih (k + 1) pot hdr' hp with ⟨l, e1, e2, e3⟩ | ⟨e1, e2⟩
        case inr => exact Or.inr ⟨e1, by simpa using e2⟩
        refine Or.inl ⟨l, by simpa using e1, e2, ?_⟩
        intro i j
        rw [e3]
        refine or_congr_right (and_congr_right fun hij => ?_)
        refine exists_congr fun a => exists_congr fun b => and_congr_right fun ha => and_congr_right fun hb => ?_
        have hi : i = k → ¬ Dirty dirty i := by rintro rfl; simp [Dirty, hd']
        have hj : j = k → ¬ Dirty dirty j := by rintro rfl; simp [Dirty, hd']
        clear hq ih hvi e1 e2 e3
        grind
      | true =>
        rcases hq (O.bound e.2) with ⟨hits, q1, q2⟩ | ⟨q1, q2⟩
        case inr => exact Or.inr ⟨q1, by simp only [if_true, q2, Res.bind_panic]⟩
        obtain ⟨l0, l1, l2, l3⟩ := hits_loop k hits pot hp
        simp only [if_true, q1, Res.bind_ok, l1]
        rcases ih (k + 1) l0 hdr' l2 with ⟨l, e1, e2, e3⟩ | ⟨e1, e2⟩
        case inr => exact Or.inr ⟨e1, e2⟩
        refine Or.inl ⟨l, e1, e2, ?_⟩
        intro i j
        rw [e3, l3, q2, q2, or_assoc, ← and_or_left]
        refine or_congr_right (and_congr_right fun hij => ?_)
        have hdk : Dirty dirty k := hd'
        constructor
        · rintro ((⟨rfl, b, hb1, hb2⟩ | ⟨rfl, a, ha1, ha2⟩) | ⟨a, b, ha, hb, h⟩)
          · exact ⟨e, b, hk, hb1, Or.inl ⟨le_rfl, hdk, hb2⟩⟩
          · exact ⟨a, e, ha1, hk, Or.inr ⟨le_rfl, hdk, ha2⟩⟩
          · refine ⟨a, b, ha, hb, ?_⟩
            rcases h with h | h
            · exact Or.inl ⟨by omega, h.2⟩
            · exact Or.inr ⟨by omega, h.2⟩
        · rintro ⟨a, b, ha, hb, h⟩
          rcases h with ⟨h1, h2, h3⟩ | ⟨h1, h2, h3⟩
          · by_cases hik : i = k
            · subst hik
              rw [hk] at ha; simp only [Option.some.injEq] at ha; subst ha
              exact Or.inl (Or.inl ⟨rfl, b, hb, h3⟩)
            · exact Or.inr ⟨a, b, ha, hb, Or.inl ⟨by omega, h2, h3⟩⟩
          · by_cases hjk : j = k
            · subst hjk
              rw [hk] at hb; simp only [Option.some.injEq] at hb; subst hb
              exact Or.inl (Or.inr ⟨rfl, a, ha, h3⟩)
            · exact Or.inr ⟨a, b, ha, hb, Or.inr ⟨by omega, h2, h3⟩⟩
  rcases loop s.values 0 [] rfl (by simp [LexSorted]) with ⟨l, h1, h2, h3⟩ | ⟨h1, h2⟩
  case inr => exact Or.inr ⟨h1, h2⟩
  refine Or.inl ⟨l, h1, h2, fun i j => ?_⟩
  rw [h3]
  simp

/-- C22, for any intersection test that is monotone under the enclosure relation the tree maintains: after refitting an up-to-date
tree, with a dirty flag for every position, the result (if the traversal stack suffices, C11) is sorted, without duplicates, and consists of exactly the
pairs `(i, j)`, `i < j`, of positions in `values()` such that one is dirty and the bound of the other intersects its bound. -/
theorem c22_dbvt_general (O : Ops V B S) (enc : B → B → Prop) (hen : Encloses O enc)
    (hfat : ∀ v, O.contains (O.fat v) (O.bound v) = true) (isect : B → B → Bool)
    (hmono : ∀ big small q, enc big small → isect small q = true → isect big q = true)
    {h : Hist V} {s : Dbvt V B} (he : Exec O h s) (hd : Disciplined O h) (hu : UpToDate O h)
    (hr : Refitted! h) {n : Nat} (hh : s.height = .ok n)
    (dirty : List Bool) (hdirty : s.values.length ≤ dirty.length) :
    (∃ l, dbvtPairs O isect s dirty = .ok l ∧ LexSorted l ∧
      ∀ i j, (i, j) ∈ l ↔ i < j ∧ ∃ a b, s.values[i]? = some a ∧ s.values[j]? = some b ∧
        ((Dirty dirty i ∧ isect (O.bound b.2) (O.bound a.2) = true) ∨ (Dirty dirty j ∧ isect (O.bound a.2) (O.bound b.2) = true))) ∨
    (256 < n ∧ dbvtPairs O isect s dirty = .panic) := by
  refine pairs_of_queries O isect he ?_ dirty hdirty
  intro q
  rcases c07_query O enc hen hfat (fun b _ => if isect b q then some () else none) (by
    intro big small hbs hs
    simp only at hs ⊢
    split at hs
    · rename_i hi; rw [if_pos (hmono _ _ _ hbs hi)]; rfl
    · simp at hs) he hd hu hr hh with ⟨⟨hits, h1, h2⟩, -⟩ | ⟨h1, h2, -⟩
  case inr => exact Or.inr ⟨h1, h2⟩
  refine Or.inl ⟨hits, h1, fun j => ?_⟩
  rw [h2.mem_iff, exactIndices, List.mem_filterMap]
  constructor
  · rintro ⟨k, hk, hb⟩
    rw [Option.bind_eq_some_iff] at hb
    obtain ⟨b, hb1, hb2⟩ := hb
    split at hb2
    · simp only [Option.map_some, Option.some.injEq, Prod.mk.injEq, and_true] at hb2
      subst hb2
      exact ⟨b, hb1, by assumption⟩
    · simp at hb2
  · rintro ⟨b, hb1, hb2⟩
    refine ⟨j, List.mem_range.2 (List.getElem?_eq_some_iff.1 hb1).1, ?_⟩
    rw [hb1]; simp [hb2]

/-- C22: for a symmetric monotone test, exactly the intersecting pairs of which at least one is dirty. -/
theorem c22_dbvt (O : Ops V B S) (enc : B → B → Prop) (hen : Encloses O enc)
    (hfat : ∀ v, O.contains (O.fat v) (O.bound v) = true) (isect : B → B → Bool)
    (hmono : ∀ big small q, enc big small → isect small q = true → isect big q = true) (hsymm : ∀ a b, isect a b = isect b a)
    {h : Hist V} {s : Dbvt V B} (he : Exec O h s) (hd : Disciplined O h) (hu : UpToDate O h)
    (hr : Refitted! h) {n : Nat} (hh : s.height = .ok n)
    (dirty : List Bool) (hdirty : s.values.length ≤ dirty.length) :
    (∃ l, dbvtPairs O isect s dirty = .ok l ∧ LexSorted l ∧
      ∀ i j, (i, j) ∈ l ↔ i < j ∧ Hit (fun e : Nat × V => O.bound e.2) isect s.values i j ∧ (Dirty dirty i ∨ Dirty dirty j)) ∨
    (256 < n ∧ dbvtPairs O isect s dirty = .panic) := by
  rcases c22_dbvt_general O enc hen hfat isect hmono he hd hu hr hh dirty hdirty with ⟨l, h1, h2, h3⟩ | h
  case inr => exact Or.inr h
  refine Or.inl ⟨l, h1, h2, fun i j => ?_⟩
  rw [h3]
  refine and_congr_right fun hij => ?_
  constructor
  · rintro ⟨a, b, ha, hb, h | h⟩
    · exact ⟨⟨a, b, ha, hb, by rw [hsymm]; exact h.2⟩, Or.inl h.1⟩
    · exact ⟨⟨a, b, ha, hb, h.2⟩, Or.inr h.1⟩
  · rintro ⟨⟨a, b, ha, hb, h⟩, h' | h'⟩
    · exact ⟨a, b, ha, hb, Or.inl ⟨h', by rw [hsymm]; exact h⟩⟩
    · exact ⟨a, b, ha, hb, Or.inr ⟨h', h⟩⟩

/-- A dirty list that is too short panics (as soon as the first position it does not cover is reached). -/
theorem c22_short_dirty_panics (O : Ops V B S) (isect : B → B → Bool) {h : Hist V} {s : Dbvt V B} (he : Exec O h s)
    (hne : s.values ≠ []) : dbvtPairs O isect s [] = .panic := by
  unfold dbvtPairs
  obtain ⟨e, vs, hv⟩ := List.exists_cons_of_ne_nil hne
  have := (c02_value_index O he e.1 0).2 ⟨e.2, by rw [hv]; rfl⟩
  rw [hv]
  simp [forRes, this]

/-- Overlap of closed integer intervals. -/
def overlap (a b : Int × Int) : Bool := decide (a.1 ≤ b.2 ∧ b.1 ≤ a.2)

/-- A refitted tree of four intervals, one of them dirty, meeting the hypotheses of C22 and C23. -/
example : ∃ h s n l, Exec demo h s ∧ Disciplined demo h ∧ UpToDate demo h ∧ Refitted! h ∧ s.height = .ok n ∧ n ≤ 256 ∧
    (∀ a b, overlap a b = overlap b a) ∧
    (∀ big small q : Int × Int, big.1 ≤ small.1 ∧ small.2 ≤ big.2 → overlap small q = true → overlap big q = true) ∧
    dbvtPairs demo overlap s [false, true, false, false] = .ok l ∧ l = [(0, 1), (1, 2)] := by
  have h0 : (runCalls demo 20 ([(0, 1), (1, 5), (4, 9), (20, 21)].map .insert ++ [.tick (fun _ => 0)]) [] Dbvt.new).map
      (fun p => (match p.2.height with | .ok n => n ≤ 256 | _ => false) &&
        decide (dbvtPairs demo overlap p.2 [false, true, false, false] = .ok [(0, 1), (1, 2)])) = some true := by decide +kernel
  obtain ⟨⟨h, s⟩, hrun, hc⟩ := Option.map_eq_some_iff.1 h0
  obtain ⟨he, hd, hu, hr⟩ := run_inserts hrun
  simp only [Bool.and_eq_true, decide_eq_true_eq] at hc
  cases hh : s.height with
  | ok n =>
    rw [hh] at hc
    refine ⟨h, s, n, _, he, hd, hu, hr, hh, by simpa using hc.1, ?_, ?_, hc.2, rfl⟩
    · intro a b; simp only [overlap, decide_eq_decide]; omega
    · intro big small q h1 h2; simp only [overlap, decide_eq_true_eq] at *; omega
  | panic => rw [hh] at hc; simp at hc
  | timeout => rw [hh] at hc; simp at hc

/-! ## Boxes -/
section
variable [Field K] [LinearOrder K] [IsStrictOrderedRing K]

/-- Box/box intersection on normalised 2D boxes. -/
def isect2 (a b : Box2 K) : Bool := a.1.intersects b.1
/-- Box/box intersection on 3D boxes. -/
def isect3 (a b : Box3 K) : Bool := a.1.intersects b.1

theorem contains_refl2 (b : Aabb2 K) : b.contains b = true := by simp [Aabb2.contains]
theorem contains_refl3 (b : Aabb3 K) : b.contains b = true := by simp [Aabb3.contains]

theorem mono_isect2 (big small q : Box2 K) (h : big.1.contains small.1 = true) (hi : isect2 small q = true) : isect2 big q = true :=
  (c27_laws2 small.1 q.1).2.1 _ _ h (contains_refl2 _) hi
theorem mono_isect3 (big small q : Box3 K) (h : big.1.contains small.1 = true) (hi : isect3 small q = true) : isect3 big q = true :=
  (c27_laws3 small.1 q.1).2.1 _ _ h (contains_refl3 _) hi

/-- C22 for 2D boxes. -/
theorem c22_boxes2 (bound fat : V → Box2 K) (im : K) (hfat : ∀ v, (fat v).1.contains (bound v).1 = true)
    {h : Hist V} {s : Dbvt V (Box2 K)} (he : Exec (boxOps2 bound fat im) h s) (hd : Disciplined (boxOps2 bound fat im) h)
    (hu : UpToDate (boxOps2 bound fat im) h) (hr : Refitted! h) {n : Nat} (hh : s.height = .ok n)
    (dirty : List Bool) (hdirty : s.values.length ≤ dirty.length) :
    (∃ l, dbvtPairs (boxOps2 bound fat im) isect2 s dirty = .ok l ∧ LexSorted l ∧
      ∀ i j, (i, j) ∈ l ↔ i < j ∧ Hit (fun e : Nat × V => (bound e.2).1) Aabb2.intersects s.values i j ∧ (Dirty dirty i ∨ Dirty dirty j)) ∨ (256 < n ∧ dbvtPairs (boxOps2 bound fat im) isect2 s dirty = .panic) :=
  c22_dbvt _ _ (encloses2 bound fat im) hfat isect2 mono_isect2 (fun a b => (c27_laws2 a.1 b.1).1) he hd hu hr hh dirty hdirty

/-- C22 for 3D boxes. -/
theorem c22_boxes3 (bound fat : V → Box3 K) (im : K) (hfat : ∀ v, (fat v).1.contains (bound v).1 = true)
    {h : Hist V} {s : Dbvt V (Box3 K)} (he : Exec (boxOps3 bound fat im) h s) (hd : Disciplined (boxOps3 bound fat im) h)
    (hu : UpToDate (boxOps3 bound fat im) h) (hr : Refitted! h) {n : Nat} (hh : s.height = .ok n)
    (dirty : List Bool) (hdirty : s.values.length ≤ dirty.length) :
    (∃ l, dbvtPairs (boxOps3 bound fat im) isect3 s dirty = .ok l ∧ LexSorted l ∧
      ∀ i j, (i, j) ∈ l ↔ i < j ∧ Hit (fun e : Nat × V => (bound e.2).1) Aabb3.intersects s.values i j ∧ (Dirty dirty i ∨ Dirty dirty j)) ∨ (256 < n ∧ dbvtPairs (boxOps3 bound fat im) isect3 s dirty = .panic) :=
  c22_dbvt _ _ (encloses3 bound fat im) hfat isect3 mono_isect3 (fun a b => (c27_laws3 a.1 b.1).1) he hd hu hr hh dirty hdirty
end

/-! ## C23 -/

/-- C23, tree and brute force: with every position dirty, the tree broad phase returns the very list brute force returns on
`values()`. -/
theorem c23_dbvt_brute (O : Ops V B S) (enc : B → B → Prop) (hen : Encloses O enc)
    (hfat : ∀ v, O.contains (O.fat v) (O.bound v) = true) (isect : B → B → Bool)
    (hmono : ∀ big small q, enc big small → isect small q = true → isect big q = true) (hsymm : ∀ a b, isect a b = isect b a)
    {h : Hist V} {s : Dbvt V B} (he : Exec O h s) (hd : Disciplined O h) (hu : UpToDate O h)
    (hr : Refitted! h) {n : Nat} (hh : s.height = .ok n) :
    (∃ l, dbvtPairs O isect s (List.replicate s.values.length true) = .ok l ∧
      bruteForce (fun e : Nat × V => O.bound e.2) isect s.values = .ok l) ∨
    (256 < n ∧ dbvtPairs O isect s (List.replicate s.values.length true) = .panic) := by
  rcases c22_dbvt O enc hen hfat isect hmono hsymm he hd hu hr hh (List.replicate s.values.length true) (by simp) with ⟨l, h1, h2, h3⟩ | h
  case inr => exact Or.inr h
  obtain ⟨m, g1, g2, g3⟩ := c19_brute_force (fun e : Nat × V => O.bound e.2) isect s.values
  refine Or.inl ⟨l, h1, ?_⟩
  rw [g1]
  congr 1
  refine g2.ext h2 ?_
  rintro ⟨i, j⟩
  rw [h3, g3]
  refine and_congr_right fun hij => ?_
  constructor
  · intro hh
    refine ⟨hh, Or.inl ?_⟩
    obtain ⟨a, b, ha, -⟩ := hh
    have := (List.getElem?_eq_some_iff.1 ha).1
    simp [Dirty, List.getElem?_replicate, this]
  · exact fun hh => hh.1

/-- A permutation of a list is a bijective renumbering of its positions. -/
theorem exists_renumbering {l l' : List A} (h : l'.Perm l) :
    ∃ π : List Nat, π.Perm (List.range l.length) ∧ ∀ (i : Nat), i < l'.length → ∃ k, π[i]? = some k ∧ l'[i]? = l[k]? := by
  have hl : l.map some = (List.range l.length).map (fun i => l[i]?) := by
    apply List.ext_getElem <;> simp
  have h2 : (l'.map some).Perm ((List.range l.length).map (fun i => l[i]?)) := by
    rw [← hl]; exact h.map _
  have h3 : Relation.Comp (fun a b => a = List.map (fun i => l[i]?) b) (fun a b => a.Perm b) (l'.map some) (List.range l.length) := by
    rw [List.eq_map_comp_perm]; exact h2
  obtain ⟨π, h4, h5⟩ := h3
  refine ⟨π, h5, fun i hi => ?_⟩
  have hlen : π.length = l'.length := by have := congrArg List.length h4; simpa using this.symm
  refine ⟨π[i], List.getElem?_eq_getElem (by omega), ?_⟩
  have := congrArg (fun m => m[i]?) h4
  simp only [List.getElem?_map, List.getElem?_eq_getElem hi, List.getElem?_eq_getElem (show i < π.length by omega),
    Option.map_some, Option.some.injEq] at this
  rw [List.getElem?_eq_getElem hi, ← this]

/-- C23, sweep and prune and brute force: the pairs are the same up to the renumbering `π` (a permutation of the positions) that sweep
and prune applies to the list, and the order of the components. -/
theorem c23_sap_brute [LinearOrder K] (O : SapBound B K) (hsymm : ∀ a b, O.isect a b = O.isect b a) (v : VarOps σ B) (bound : A → B) (s : Sap σ)
    (shapes : List A) (hov : O.Overlaps s.sweep_axis) (hax : s.sweep_axis < O.dim) :
    ∃ pairs shapes' s' brute, ∃ π : List Nat, s.findColliderPairs O v bound shapes = .ok (pairs, shapes', s') ∧
      bruteForce bound O.isect shapes = .ok brute ∧ π.Perm (List.range shapes.length) ∧
      (∀ (i : Nat), i < shapes.length → ∃ k, π[i]? = some k ∧ shapes'[i]? = shapes[k]?) ∧
      ∀ (i j k m : Nat), i < j → π[i]? = some k → π[j]? = some m → ((i, j) ∈ pairs ↔ (k, m) ∈ brute ∨ (m, k) ∈ brute) := by
  obtain ⟨pairs, shapes', s', h1, h2, -, -, h4, -⟩ := c20_sweep_and_prune O v bound s shapes hov hax
  obtain ⟨brute, g1, -, g3⟩ := c19_brute_force bound O.isect shapes
  obtain ⟨π, p1, p2⟩ := exists_renumbering h2
  refine ⟨pairs, shapes', s', brute, π, h1, g1, p1, fun i hi => p2 i (by rw [h2.length_eq]; exact hi), ?_⟩
  intro i j k m hij hk hm
  have hnd : π.Nodup := p1.nodup_iff.2 List.nodup_range
  have hi := (List.getElem?_eq_some_iff.1 hk)
  have hj := (List.getElem?_eq_some_iff.1 hm)
  have hkm : k ≠ m := by
    rw [← hi.2, ← hj.2]
    intro e
    have := (List.Nodup.getElem_inj_iff hnd).1 e
    omega
  have hπlen : π.length = shapes'.length := by rw [p1.length_eq, List.length_range, h2.length_eq]
  have ei : shapes'[i]? = shapes[k]? := by
    obtain ⟨k', a1, a2⟩ := p2 i (by have := hi.1; omega)
    rw [hk] at a1; simp only [Option.some.injEq] at a1; subst a1; exact a2
  have ej : shapes'[j]? = shapes[m]? := by
    obtain ⟨k', a1, a2⟩ := p2 j (by have := hj.1; omega)
    rw [hm] at a1; simp only [Option.some.injEq] at a1; subst a1; exact a2
  rw [h4, g3, g3]
  simp only [Hit, ei, ej]
  constructor
  · rintro ⟨-, a, b, ha, hb, h⟩
    rcases lt_or_gt_of_ne hkm with h' | h'
    · exact Or.inl ⟨h', a, b, ha, hb, h⟩
    · exact Or.inr ⟨h', b, a, hb, ha, by rw [hsymm]; exact h⟩
  · rintro (⟨-, a, b, ha, hb, h⟩ | ⟨-, a, b, ha, hb, h⟩)
    · exact ⟨hij, a, b, ha, hb, h⟩
    · exact ⟨hij, b, a, hb, ha, by rw [hsymm]; exact h⟩

end Verif.BroadPhase
