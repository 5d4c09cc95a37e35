import Verif.BroadPhase.Props3
/-!
# C81: results that do not depend on rounding

The coordinates are any linear order `K` (finite `f32` or `f64` values are one) and the functions that compute with them -- surface
areas, their comparison, difference and quotient, the bound and the fat bound of a value -- are arbitrary, so that whatever rounding
does to them the theorems hold. The only law asked for is that the fat bound of a value contains its bound, which
`c81_margin2`, `c81_margin3` derive for `add_margin` from `x - m ≤ x` and `x ≤ x + m`.
-/
namespace Verif.BroadPhase
open Verif Dbvt Geom

variable {A K σ V S : Type} [LinearOrder K]

/-- A query with a monotone test returns exactly the accepted values, each once. -/
theorem query_discrete {B : Type} (O : Ops V B S) (enc : B → B → Prop) (hen : Encloses O enc)
    (hfat : ∀ v, O.contains (O.fat v) (O.bound v) = true) (test : B → Bool)
    (hmono : ∀ big small, enc big small → test small = true → test big = true)
    {h : Hist V} {s : Dbvt V B} (he : Exec O h s) (hd : Disciplined O h) (hu : UpToDate O h)
    (hr : Refitted! h) {n : Nat} (hh : s.height = .ok n) :
    (∃ l, s.query O (discreteVisitor test) () = .ok l ∧
      (l.map Prod.fst).Perm ((s.values.map Prod.snd).filter fun v => test (O.bound v))) ∨
    (256 < n ∧ s.query O (discreteVisitor test) () = .panic) := by
  rcases c07_query O enc hen hfat (fun b _ => if test b then some () else none) (by
    intro big small hbs hs
    simp only at hs ⊢
    split at hs
    · rename_i hi; rw [if_pos (hmono _ _ hbs hi)]; rfl
    · simp at hs) he hd hu hr hh with ⟨-, l, h1, h2⟩ | ⟨h1, -, h2⟩
  case inr => exact Or.inr ⟨h1, h2⟩
  refine Or.inl ⟨l, h1, (h2.map Prod.fst).trans (List.Perm.of_eq ?_)⟩
  unfold exactValues
  generalize s.values = vs
  induction vs with
  | nil => rfl
  | cons e vs ih =>
    simp only [List.filterMap_cons, List.map_cons, List.filter_cons]
    by_cases ht : test (O.bound e.2) = true
    · rw [if_pos ht, if_pos ht, ← ih]; rfl
    · rw [if_neg ht, if_neg ht, ← ih]; rfl

/-- The tree over 2D boxes (as they are: normalised or not) with arbitrary scalar operations; `union` and `contains` are those of the
library, `src/volume/aabb/aabb2.rs`. -/
def roundOps2 (bound fat : V → Aabb2 K) (area : Aabb2 K → S) (lt : S → S → Bool) (sub div : S → S → S) (im : S) : Ops V (Aabb2 K) S :=
  ⟨bound, fat, Aabb2.union, Aabb2.contains, area, lt, sub, div, im⟩

theorem roundEncloses2 (bound fat : V → Aabb2 K) (area : Aabb2 K → S) (lt : S → S → Bool) (sub div : S → S → S) (im : S) :
    Encloses (roundOps2 bound fat area lt sub div im) (fun a b => a.contains b = true) where
  trans := c26_order2.2.1 _ _ _
  union_left a b := (c25_union_contains2 a b).2.1
  union_right a b := (c25_union_contains2 a b).2.2
  contains h := h

/-- C81, box queries (2D): exactly the values whose bound intersects the box, each once. -/
theorem c81_query2 (bound fat : V → Aabb2 K) (area : Aabb2 K → S) (lt : S → S → Bool) (sub div : S → S → S) (im : S)
    (hfat : ∀ v, (fat v).contains (bound v) = true) (q : Aabb2 K)
    {h : Hist V} {s : Dbvt V (Aabb2 K)} (he : Exec (roundOps2 bound fat area lt sub div im) h s)
    (hd : Disciplined (roundOps2 bound fat area lt sub div im) h) (hu : UpToDate (roundOps2 bound fat area lt sub div im) h)
    (hr : Refitted! h) {n : Nat} (hh : s.height = .ok n) :
    (∃ l, s.query (roundOps2 bound fat area lt sub div im) (discreteVisitor fun b => b.intersects q) () = .ok l ∧
      (l.map Prod.fst).Perm ((s.values.map Prod.snd).filter fun v => (bound v).intersects q)) ∨
    (256 < n ∧ s.query (roundOps2 bound fat area lt sub div im) (discreteVisitor fun b => b.intersects q) () = .panic) :=
  query_discrete _ _ (roundEncloses2 bound fat area lt sub div im) hfat (fun b => b.intersects q)
    (fun _ small hb hi => (c27_laws2 small q).2.1 _ _ hb (c26_order2.1 _) hi) he hd hu hr hh

/-- C81, point queries (2D). -/
theorem c81_point2 (bound fat : V → Aabb2 K) (area : Aabb2 K → S) (lt : S → S → Bool) (sub div : S → S → S) (im : S)
    (hfat : ∀ v, (fat v).contains (bound v) = true) (p : V2 K)
    {h : Hist V} {s : Dbvt V (Aabb2 K)} (he : Exec (roundOps2 bound fat area lt sub div im) h s)
    (hd : Disciplined (roundOps2 bound fat area lt sub div im) h) (hu : UpToDate (roundOps2 bound fat area lt sub div im) h)
    (hr : Refitted! h) {n : Nat} (hh : s.height = .ok n) :
    (∃ l, s.query (roundOps2 bound fat area lt sub div im) (discreteVisitor fun b => b.containsPoint p) () = .ok l ∧
      (l.map Prod.fst).Perm ((s.values.map Prod.snd).filter fun v => (bound v).containsPoint p)) ∨
    (256 < n ∧ s.query (roundOps2 bound fat area lt sub div im) (discreteVisitor fun b => b.containsPoint p) () = .panic) :=
  query_discrete _ _ (roundEncloses2 bound fat area lt sub div im) hfat (fun b => b.containsPoint p)
    (fun _ _ hb hi => by
      simp only [Aabb2.contains, Aabb2.containsPoint, Bool.and_eq_true, decide_eq_true_eq] at hb hi ⊢
      grind) he hd hu hr hh

/-- C81, the broad phase of the tree (2D): exactly the intersecting pairs of which one is dirty; with everything dirty, the list that
brute force returns. -/
theorem c81_pairs2 (bound fat : V → Aabb2 K) (area : Aabb2 K → S) (lt : S → S → Bool) (sub div : S → S → S) (im : S)
    (hfat : ∀ v, (fat v).contains (bound v) = true)
    {h : Hist V} {s : Dbvt V (Aabb2 K)} (he : Exec (roundOps2 bound fat area lt sub div im) h s)
    (hd : Disciplined (roundOps2 bound fat area lt sub div im) h) (hu : UpToDate (roundOps2 bound fat area lt sub div im) h)
    (hr : Refitted! h) {n : Nat} (hh : s.height = .ok n) :
    (∀ dirty : List Bool, s.values.length ≤ dirty.length →
      (∃ l, dbvtPairs (roundOps2 bound fat area lt sub div im) Aabb2.intersects s dirty = .ok l ∧ LexSorted l ∧
        ∀ i j, (i, j) ∈ l ↔ i < j ∧ Hit (fun e : Nat × V => bound e.2) Aabb2.intersects s.values i j ∧ (Dirty dirty i ∨ Dirty dirty j)) ∨
      (256 < n ∧ dbvtPairs (roundOps2 bound fat area lt sub div im) Aabb2.intersects s dirty = .panic)) ∧
    ((∃ l, dbvtPairs (roundOps2 bound fat area lt sub div im) Aabb2.intersects s (List.replicate s.values.length true) = .ok l ∧
        bruteForce (fun e : Nat × V => bound e.2) Aabb2.intersects s.values = .ok l) ∨
      (256 < n ∧ dbvtPairs (roundOps2 bound fat area lt sub div im) Aabb2.intersects s (List.replicate s.values.length true) = .panic)) := by
  have hmono : ∀ big small q : Aabb2 K, big.contains small = true → small.intersects q = true → big.intersects q = true :=
    fun _ small q hb hi => (c27_laws2 small q).2.1 _ _ hb (c26_order2.1 _) hi
  exact ⟨fun dirty hdirty => c22_dbvt _ _ (roundEncloses2 bound fat area lt sub div im) hfat Aabb2.intersects hmono
      (fun a b => (c27_laws2 a b).1) he hd hu hr hh dirty hdirty,
    c23_dbvt_brute _ _ (roundEncloses2 bound fat area lt sub div im) hfat Aabb2.intersects hmono
      (fun a b => (c27_laws2 a b).1) he hd hu hr hh⟩

/-- C81, sweep and prune (2D): whatever the variance computes (any state `σ`, any `v`), exactly the intersecting pairs. -/
theorem c81_sap2 (v : VarOps σ (Aabb2 K)) (bound : A → Aabb2 K) (s : Sap σ) (shapes : List A) (hax : s.sweep_axis < 2) :
    ∃ pairs shapes' s', s.findColliderPairs sapAabb2 v bound shapes = .ok (pairs, shapes', s') ∧ shapes'.Perm shapes ∧ pairs.Nodup ∧
      ∀ i j, (i, j) ∈ pairs ↔ i < j ∧ Hit bound Aabb2.intersects shapes' i j :=
  c20_boxes2 v bound s shapes hax

/-- The tree over 3D boxes (as they are: normalised or not) with arbitrary scalar operations; `union` and `contains` are those of the
library, `src/volume/aabb/aabb3.rs`. -/
def roundOps3 (bound fat : V → Aabb3 K) (area : Aabb3 K → S) (lt : S → S → Bool) (sub div : S → S → S) (im : S) : Ops V (Aabb3 K) S :=
  ⟨bound, fat, Aabb3.union, Aabb3.contains, area, lt, sub, div, im⟩

theorem roundEncloses3 (bound fat : V → Aabb3 K) (area : Aabb3 K → S) (lt : S → S → Bool) (sub div : S → S → S) (im : S) :
    Encloses (roundOps3 bound fat area lt sub div im) (fun a b => a.contains b = true) where
  trans := c26_order3.2.1 _ _ _
  union_left a b := (c25_union_contains3 a b).2.1
  union_right a b := (c25_union_contains3 a b).2.2
  contains h := h

/-- C81, box queries (3D): exactly the values whose bound intersects the box, each once. -/
theorem c81_query3 (bound fat : V → Aabb3 K) (area : Aabb3 K → S) (lt : S → S → Bool) (sub div : S → S → S) (im : S)
    (hfat : ∀ v, (fat v).contains (bound v) = true) (q : Aabb3 K)
    {h : Hist V} {s : Dbvt V (Aabb3 K)} (he : Exec (roundOps3 bound fat area lt sub div im) h s)
    (hd : Disciplined (roundOps3 bound fat area lt sub div im) h) (hu : UpToDate (roundOps3 bound fat area lt sub div im) h)
    (hr : Refitted! h) {n : Nat} (hh : s.height = .ok n) :
    (∃ l, s.query (roundOps3 bound fat area lt sub div im) (discreteVisitor fun b => b.intersects q) () = .ok l ∧
      (l.map Prod.fst).Perm ((s.values.map Prod.snd).filter fun v => (bound v).intersects q)) ∨
    (256 < n ∧ s.query (roundOps3 bound fat area lt sub div im) (discreteVisitor fun b => b.intersects q) () = .panic) :=
  query_discrete _ _ (roundEncloses3 bound fat area lt sub div im) hfat (fun b => b.intersects q)
    (fun _ small hb hi => (c27_laws3 small q).2.1 _ _ hb (c26_order3.1 _) hi) he hd hu hr hh

/-- C81, point queries (3D). -/
theorem c81_point3 (bound fat : V → Aabb3 K) (area : Aabb3 K → S) (lt : S → S → Bool) (sub div : S → S → S) (im : S)
    (hfat : ∀ v, (fat v).contains (bound v) = true) (p : V3 K)
    {h : Hist V} {s : Dbvt V (Aabb3 K)} (he : Exec (roundOps3 bound fat area lt sub div im) h s)
    (hd : Disciplined (roundOps3 bound fat area lt sub div im) h) (hu : UpToDate (roundOps3 bound fat area lt sub div im) h)
    (hr : Refitted! h) {n : Nat} (hh : s.height = .ok n) :
    (∃ l, s.query (roundOps3 bound fat area lt sub div im) (discreteVisitor fun b => b.containsPoint p) () = .ok l ∧
      (l.map Prod.fst).Perm ((s.values.map Prod.snd).filter fun v => (bound v).containsPoint p)) ∨
    (256 < n ∧ s.query (roundOps3 bound fat area lt sub div im) (discreteVisitor fun b => b.containsPoint p) () = .panic) :=
  query_discrete _ _ (roundEncloses3 bound fat area lt sub div im) hfat (fun b => b.containsPoint p)
    (fun _ _ hb hi => by
      simp only [Aabb3.contains, Aabb3.containsPoint, Bool.and_eq_true, decide_eq_true_eq] at hb hi ⊢
      grind) he hd hu hr hh

/-- C81, the broad phase of the tree (3D): exactly the intersecting pairs of which one is dirty; with everything dirty, the list that
brute force returns. -/
theorem c81_pairs3 (bound fat : V → Aabb3 K) (area : Aabb3 K → S) (lt : S → S → Bool) (sub div : S → S → S) (im : S)
    (hfat : ∀ v, (fat v).contains (bound v) = true)
    {h : Hist V} {s : Dbvt V (Aabb3 K)} (he : Exec (roundOps3 bound fat area lt sub div im) h s)
    (hd : Disciplined (roundOps3 bound fat area lt sub div im) h) (hu : UpToDate (roundOps3 bound fat area lt sub div im) h)
    (hr : Refitted! h) {n : Nat} (hh : s.height = .ok n) :
    (∀ dirty : List Bool, s.values.length ≤ dirty.length →
      (∃ l, dbvtPairs (roundOps3 bound fat area lt sub div im) Aabb3.intersects s dirty = .ok l ∧ LexSorted l ∧
        ∀ i j, (i, j) ∈ l ↔ i < j ∧ Hit (fun e : Nat × V => bound e.2) Aabb3.intersects s.values i j ∧ (Dirty dirty i ∨ Dirty dirty j)) ∨
      (256 < n ∧ dbvtPairs (roundOps3 bound fat area lt sub div im) Aabb3.intersects s dirty = .panic)) ∧
    ((∃ l, dbvtPairs (roundOps3 bound fat area lt sub div im) Aabb3.intersects s (List.replicate s.values.length true) = .ok l ∧
        bruteForce (fun e : Nat × V => bound e.2) Aabb3.intersects s.values = .ok l) ∨
      (256 < n ∧ dbvtPairs (roundOps3 bound fat area lt sub div im) Aabb3.intersects s (List.replicate s.values.length true) = .panic)) := by
  have hmono : ∀ big small q : Aabb3 K, big.contains small = true → small.intersects q = true → big.intersects q = true :=
    fun _ small q hb hi => (c27_laws3 small q).2.1 _ _ hb (c26_order3.1 _) hi
  exact ⟨fun dirty hdirty => c22_dbvt _ _ (roundEncloses3 bound fat area lt sub div im) hfat Aabb3.intersects hmono
      (fun a b => (c27_laws3 a b).1) he hd hu hr hh dirty hdirty,
    c23_dbvt_brute _ _ (roundEncloses3 bound fat area lt sub div im) hfat Aabb3.intersects hmono
      (fun a b => (c27_laws3 a b).1) he hd hu hr hh⟩

/-- C81, sweep and prune (3D): whatever the variance computes (any state `σ`, any `v`), exactly the intersecting pairs. -/
theorem c81_sap3 (v : VarOps σ (Aabb3 K)) (bound : A → Aabb3 K) (s : Sap σ) (shapes : List A) (hax : s.sweep_axis < 3) :
    ∃ pairs shapes' s', s.findColliderPairs sapAabb3 v bound shapes = .ok (pairs, shapes', s') ∧ shapes'.Perm shapes ∧ pairs.Nodup ∧
      ∀ i j, (i, j) ∈ pairs ↔ i < j ∧ Hit bound Aabb3.intersects shapes' i j :=
  c20_boxes3 v bound s shapes hax

/-- C81, `add_margin` (2D): the only laws of the arithmetic it takes for the fat box to contain the box. -/
theorem c81_margin2 [Add K] [Sub K] (b : Aabb2 K) (m : V2 K) (hsub : b.min.x - m.x ≤ b.min.x ∧ b.min.y - m.y ≤ b.min.y)
    (hadd : b.max.x ≤ b.max.x + m.x ∧ b.max.y ≤ b.max.y + m.y) : (b.addMargin m).contains b = true := by
  simp only [Aabb2.contains, Aabb2.addMargin, Aabb2.new, pmin_eq, pmax_eq, Bool.and_eq_true, decide_eq_true_eq]
  exact ⟨⟨⟨(min_le_left _ _).trans hsub.1, (min_le_left _ _).trans hsub.2⟩, hadd.1.trans (le_max_right _ _)⟩,
    hadd.2.trans (le_max_right _ _)⟩

/-- C81, `add_margin` (3D). -/
theorem c81_margin3 [Add K] [Sub K] (b : Aabb3 K) (m : V3 K)
    (hsub : b.min.x - m.x ≤ b.min.x ∧ b.min.y - m.y ≤ b.min.y ∧ b.min.z - m.z ≤ b.min.z)
    (hadd : b.max.x ≤ b.max.x + m.x ∧ b.max.y ≤ b.max.y + m.y ∧ b.max.z ≤ b.max.z + m.z) : (b.addMargin m).contains b = true := by
  simp only [Aabb3.contains, Aabb3.addMargin, Aabb3.new, pmin_eq, pmax_eq, Bool.and_eq_true, decide_eq_true_eq]
  exact ⟨⟨⟨⟨⟨(min_le_left _ _).trans hsub.1, (min_le_left _ _).trans hsub.2.1⟩, (min_le_left _ _).trans hsub.2.2⟩,
    hadd.1.trans (le_max_right _ _)⟩, hadd.2.1.trans (le_max_right _ _)⟩, hadd.2.2.trans (le_max_right _ _)⟩

/-- A rounded arithmetic: integer coordinates, areas computed to one significant bit. -/
def coarse : Ops (Aabb2 Int) (Aabb2 Int) Nat :=
  roundOps2 id id (fun b => Nat.log2 ((b.max.x - b.min.x) * (b.max.y - b.min.y)).toNat) (fun x y => decide (x < y)) (· - ·) (· / ·) 0

/-- A refitted tree of four boxes under the rounded arithmetic, meeting the hypotheses of the C81 theorems. -/
example : ∃ h s n l, Exec coarse h s ∧ Disciplined coarse h ∧ UpToDate coarse h ∧ Refitted! h ∧ s.height = .ok n ∧ n ≤ 256 ∧
    (∀ v : Aabb2 Int, (id v).contains (id v) = true) ∧
    dbvtPairs coarse Aabb2.intersects s [true, true, true, true] = .ok l ∧ l = [(0, 1), (1, 2)] := by
  have h0 : (runCalls coarse 20 ([(⟨⟨0, 0⟩, ⟨2, 2⟩⟩ : Aabb2 Int), ⟨⟨1, 1⟩, ⟨5, 4⟩⟩, ⟨⟨4, 0⟩, ⟨9, 3⟩⟩, ⟨⟨20, 20⟩, ⟨21, 25⟩⟩].map .insert ++ [.tick (fun _ => 0)]) [] Dbvt.new).map
      (fun p => (match p.2.height with | .ok n => n ≤ 256 | _ => false) &&
        decide (dbvtPairs coarse Aabb2.intersects p.2 [true, true, true, true] = .ok [(0, 1), (1, 2)])) = some true := by decide +kernel
  obtain ⟨⟨h, s⟩, hrun, hc⟩ := Option.map_eq_some_iff.1 h0
  obtain ⟨he, hd, hu, hr⟩ := run_inserts hrun
  simp only [Bool.and_eq_true, decide_eq_true_eq] at hc
  cases hh : s.height with
  | ok n =>
    rw [hh] at hc
    exact ⟨h, s, n, _, he, hd, hu, hr, hh, by simpa using hc.1, fun v => c26_order2.1 _, hc.2, rfl⟩
  | panic => rw [hh] at hc; simp at hc
  | timeout => rw [hh] at hc; simp at hc

end Verif.BroadPhase
