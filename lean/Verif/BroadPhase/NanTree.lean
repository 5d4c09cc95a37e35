import Verif.BroadPhase.Nan
import Mathlib.Algebra.Order.Ring.Rat
/-!
# C102: the tree and the sweep with a broken shape

Counterexamples (one NaN box hides two others, in the sweep and in the tree), and the recovery: once the broken box is gone from the tree (removed, or
updated with proper numbers) queries and pairs are exact again, whatever went through the tree before.
-/
namespace Verif.BroadPhase
open Verif Dbvt Geom
set_option linter.unusedSectionVars false

section
variable {K V S : Type} [LinearOrder K]

/-- Boxes with proper numbers enclose what they contain. -/
theorem nanEncloses2 (bound fat : V → Aabb2 (Fl K)) (area : Aabb2 (Fl K) → S) (lt : S → S → Bool) (sub div : S → S → S) (im : S) :
    EnclosesOn (nanOps2 bound fat area lt sub div im) (fun b => ∃ p, b = num2 p) (fun a b => containsN2 a b = true) where
  trans := by
    intro a b c h1 h2
    obtain ⟨p, q, rfl, rfl, h⟩ := containsN2_iff.1 h1
    obtain ⟨q', r, e, rfl, h'⟩ := containsN2_iff.1 h2
    have : q = q' := by
      rcases q with ⟨⟨_, _⟩, ⟨_, _⟩⟩; rcases q' with ⟨⟨_, _⟩, ⟨_, _⟩⟩
      simpa [num2] using e
    subst this
    exact containsN2_iff.2 ⟨p, r, rfl, rfl, c26_order2.2.1 _ _ _ h h'⟩
  union := by
    rintro a b ⟨p, rfl⟩ ⟨q, rfl⟩
    have h := c25_union_contains2 p q
    exact ⟨⟨_, unionN2_num p q⟩, containsN2_iff.2 ⟨_, p, unionN2_num p q, rfl, h.2.1⟩, containsN2_iff.2 ⟨_, q, unionN2_num p q, rfl, h.2.2⟩⟩
  contains := by
    intro a b h
    obtain ⟨p, q, rfl, rfl, -⟩ := containsN2_iff.1 h
    exact ⟨⟨p, rfl⟩, h⟩
/-- Boxes with proper numbers enclose what they contain (3D). -/
theorem nanEncloses3 (bound fat : V → Aabb3 (Fl K)) (area : Aabb3 (Fl K) → S) (lt : S → S → Bool) (sub div : S → S → S) (im : S) :
    EnclosesOn (nanOps3 bound fat area lt sub div im) (fun b => ∃ p, b = num3 p) (fun a b => containsN3 a b = true) where
  trans := by
    intro a b c h1 h2
    obtain ⟨p, q, rfl, rfl, h⟩ := containsN3_iff.1 h1
    obtain ⟨q', r, e, rfl, h'⟩ := containsN3_iff.1 h2
    have : q = q' := by
      rcases q with ⟨⟨_, _, _⟩, ⟨_, _, _⟩⟩; rcases q' with ⟨⟨_, _, _⟩, ⟨_, _, _⟩⟩
      simpa [num3] using e
    subst this
    exact containsN3_iff.2 ⟨p, r, rfl, rfl, c26_order3.2.1 _ _ _ h h'⟩
  union := by
    rintro a b ⟨p, rfl⟩ ⟨q, rfl⟩
    have h := c25_union_contains3 p q
    exact ⟨⟨_, unionN3_num p q⟩, containsN3_iff.2 ⟨_, p, unionN3_num p q, rfl, h.2.1⟩, containsN3_iff.2 ⟨_, q, unionN3_num p q, rfl, h.2.2⟩⟩
  contains := by
    intro a b h
    obtain ⟨p, q, rfl, rfl, -⟩ := containsN3_iff.1 h
    exact ⟨⟨p, rfl⟩, h⟩

/-- The pairs of the tree, for any kind of volume of which only some are sound. -/
theorem pairs_healed {B : Type} (O : Ops V B S) (ok : B → Prop) (enc : B → B → Prop) (hen : EnclosesOn O ok enc)
    (hfat : ∀ v, ok (O.bound v) → O.contains (O.fat v) (O.bound v) = true) (isect : B → B → Bool)
    (hmono : ∀ big small q, enc big small → isect small q = true → isect big q = true) (hsymm : ∀ a b, isect a b = isect b a)
    {h : Hist V} {s : Dbvt V B} (he : Exec O h s) (hd : Disciplined O h) (hu : UpToDate O h)
    (hr : Refitted! h) (hok : ∀ e ∈ s.values, ok (O.bound e.2)) {n : Nat} (hh : s.height = .ok n)
    (dirty : List Bool) (hdirty : s.values.length ≤ dirty.length) :
    (∃ l, dbvtPairs O isect s dirty = .ok l ∧ LexSorted l ∧
      ∀ i j, (i, j) ∈ l ↔ i < j ∧ Hit (fun e : Nat × V => O.bound e.2) isect s.values i j ∧ (Dirty dirty i ∨ Dirty dirty j)) ∨
    (256 < n ∧ dbvtPairs O isect s dirty = .panic) := by
  rcases pairs_of_queries O isect he (n := n) (by
    intro q
    rcases query_healed O ok enc hen hfat (fun b _ => if isect b q then some () else none) (by
      intro big small hbs hs
      simp only at hs ⊢
      split at hs
      · rename_i hi; rw [if_pos (hmono _ _ _ hbs hi)]; rfl
      · simp at hs) he hd hu hr hok hh with ⟨⟨hits, h1, h2⟩, -⟩ | ⟨h1, h2, -⟩
    case inr => exact Or.inr ⟨h1, h2⟩
    refine Or.inl ⟨hits, h1, fun j => ?_⟩
    rw [h2.mem_iff, exactIndices, List.mem_filterMap]
    constructor
    · rintro ⟨k, hk, hb⟩
      rw [Option.bind_eq_some_iff] at hb
      obtain ⟨b, hb1, hb2⟩ := hb
      split at hb2
      · simp only [Option.map_some, Option.some.injEq, Prod.mk.injEq, and_true] at hb2
        subst hb2
        exact ⟨b, hb1, by assumption⟩
      · simp at hb2
    · rintro ⟨b, hb1, hb2⟩
      refine ⟨j, List.mem_range.2 (List.getElem?_eq_some_iff.1 hb1).1, ?_⟩
      rw [hb1]; simp [hb2]) dirty hdirty with ⟨l, h1, h2, h3⟩ | h1
  · refine Or.inl ⟨l, h1, h2, fun i j => ?_⟩
    rw [h3]
    refine and_congr_right fun _ => ⟨?_, ?_⟩
    · rintro ⟨a, b, ha, hb, ⟨h4, h5⟩ | ⟨h4, h5⟩⟩
      · exact ⟨⟨a, b, ha, hb, by rw [hsymm]; exact h5⟩, .inl h4⟩
      · exact ⟨⟨a, b, ha, hb, h5⟩, .inr h4⟩
    · rintro ⟨⟨a, b, ha, hb, h5⟩, h4 | h4⟩
      · exact ⟨a, b, ha, hb, .inl ⟨h4, by rw [hsymm]; exact h5⟩⟩
      · exact ⟨a, b, ha, hb, .inr ⟨h4, h5⟩⟩
  · exact Or.inr h1

theorem isectN2_symm (a b : Aabb2 (Fl K)) : isectN2 a b = isectN2 b a := by
  simp only [isectN2, Bool.and_comm, Bool.and_left_comm, Bool.and_assoc]
theorem isectN3_symm (a b : Aabb3 (Fl K)) : isectN3 a b = isectN3 b a := by
  simp only [isectN3, Bool.and_comm, Bool.and_left_comm, Bool.and_assoc]
theorem isectN2_mono {big small q : Aabb2 (Fl K)} (h : containsN2 big small = true) (hi : isectN2 small q = true) : isectN2 big q = true := by
  obtain ⟨p, q', rfl, rfl, h⟩ := containsN2_iff.1 h
  obtain ⟨r, t, e, rfl, hi⟩ := isectN2_iff.1 hi
  have : q' = r := by
    rcases q' with ⟨⟨_, _⟩, ⟨_, _⟩⟩; rcases r with ⟨⟨_, _⟩, ⟨_, _⟩⟩
    simpa [num2] using e
  subst this
  exact isectN2_iff.2 ⟨p, t, rfl, rfl, (c27_laws2 q' t).2.1 _ _ h (c26_order2.1 _) hi⟩
theorem isectN3_mono {big small q : Aabb3 (Fl K)} (h : containsN3 big small = true) (hi : isectN3 small q = true) : isectN3 big q = true := by
  obtain ⟨p, q', rfl, rfl, h⟩ := containsN3_iff.1 h
  obtain ⟨r, t, e, rfl, hi⟩ := isectN3_iff.1 hi
  have : q' = r := by
    rcases q' with ⟨⟨_, _, _⟩, ⟨_, _, _⟩⟩; rcases r with ⟨⟨_, _, _⟩, ⟨_, _, _⟩⟩
    simpa [num3] using e
  subst this
  exact isectN3_iff.2 ⟨p, t, rfl, rfl, (c27_laws3 q' t).2.1 _ _ h (c26_order3.1 _) hi⟩

/-- C102, the tree (2D): as long as every value *now* in the tree has proper numbers as coordinates, the tree finds exactly the intersecting pairs of which
one is dirty, whatever boxes (with NaN or not) went through it before. -/
theorem c102_tree2_partial (bound fat : V → Aabb2 (Fl K)) (area : Aabb2 (Fl K) → S) (lt : S → S → Bool) (sub div : S → S → S) (im : S)
    (hfat : ∀ v p, bound v = num2 p → containsN2 (fat v) (bound v) = true)
    {h : Hist V} {s : Dbvt V (Aabb2 (Fl K))} (he : Exec (nanOps2 bound fat area lt sub div im) h s)
    (hd : Disciplined (nanOps2 bound fat area lt sub div im) h) (hu : UpToDate (nanOps2 bound fat area lt sub div im) h)
    (hr : Refitted! h) (hok : ∀ e ∈ s.values, ∃ p, bound e.2 = num2 p) {n : Nat} (hh : s.height = .ok n)
    (dirty : List Bool) (hdirty : s.values.length ≤ dirty.length) :
    (∃ l, dbvtPairs (nanOps2 bound fat area lt sub div im) isectN2 s dirty = .ok l ∧ LexSorted l ∧
      ∀ i j, (i, j) ∈ l ↔ i < j ∧ Meets2 (fun e : Nat × V => bound e.2) s.values i j ∧ (Dirty dirty i ∨ Dirty dirty j)) ∨
    (256 < n ∧ dbvtPairs (nanOps2 bound fat area lt sub div im) isectN2 s dirty = .panic) := by
  rcases pairs_healed _ _ _ (nanEncloses2 bound fat area lt sub div im) (fun v ⟨p, hp⟩ => hfat v p hp) isectN2
    (fun _ _ _ => isectN2_mono) isectN2_symm he hd hu hr hok hh dirty hdirty with ⟨l, h1, h2, h3⟩ | h1
  · exact Or.inl ⟨l, h1, h2, fun i j => by rw [h3, ← hit_meets2]; rfl⟩
  · exact Or.inr h1
/-- C102, the tree (3D). -/
theorem c102_tree3_partial (bound fat : V → Aabb3 (Fl K)) (area : Aabb3 (Fl K) → S) (lt : S → S → Bool) (sub div : S → S → S) (im : S)
    (hfat : ∀ v p, bound v = num3 p → containsN3 (fat v) (bound v) = true)
    {h : Hist V} {s : Dbvt V (Aabb3 (Fl K))} (he : Exec (nanOps3 bound fat area lt sub div im) h s)
    (hd : Disciplined (nanOps3 bound fat area lt sub div im) h) (hu : UpToDate (nanOps3 bound fat area lt sub div im) h)
    (hr : Refitted! h) (hok : ∀ e ∈ s.values, ∃ p, bound e.2 = num3 p) {n : Nat} (hh : s.height = .ok n)
    (dirty : List Bool) (hdirty : s.values.length ≤ dirty.length) :
    (∃ l, dbvtPairs (nanOps3 bound fat area lt sub div im) isectN3 s dirty = .ok l ∧ LexSorted l ∧
      ∀ i j, (i, j) ∈ l ↔ i < j ∧ Meets3 (fun e : Nat × V => bound e.2) s.values i j ∧ (Dirty dirty i ∨ Dirty dirty j)) ∨
    (256 < n ∧ dbvtPairs (nanOps3 bound fat area lt sub div im) isectN3 s dirty = .panic) := by
  rcases pairs_healed _ _ _ (nanEncloses3 bound fat area lt sub div im) (fun v ⟨p, hp⟩ => hfat v p hp) isectN3
    (fun _ _ _ => isectN3_mono) isectN3_symm he hd hu hr hok hh dirty hdirty with ⟨l, h1, h2, h3⟩ | h1
  · exact Or.inl ⟨l, h1, h2, fun i j => by rw [h3, ← hit_meets3]; rfl⟩
  · exact Or.inr h1
end

/-! ## The counterexamples -/

/-- A 2D box over the rationals and NaN. -/
abbrev NBox := Aabb2 (Fl ℚ)
/-- `[2, 4] × [0, 1]` -/
def boxA : Aabb2 ℚ := ⟨⟨2, 0⟩, ⟨4, 1⟩⟩
/-- `[1, 3] × [0, 1]` -/
def boxB : Aabb2 ℚ := ⟨⟨1, 0⟩, ⟨3, 1⟩⟩
/-- `x` is NaN -/
def boxN : NBox := ⟨⟨none, some 0⟩, ⟨none, some 1⟩⟩

/-- The real tree operations on boxes with NaN (2D): IEEE subtraction and multiplication give NaN when an argument is NaN; `surface_area`,
`src/volume/aabb/aabb2.rs:135-137`; no margin, minimum improvement 1/10. -/
def flOps : Ops NBox NBox (Fl ℚ) :=
  nanOps2 id id
    (fun b => do
      let x0 ← b.min.x; let x1 ← b.max.x; let y0 ← b.min.y; let y1 ← b.max.y
      return (x1 - x0) * (y1 - y0))
    Fl.lt (fun a b => do return (← a) - (← b)) (fun a b => do return (← a) / (← b)) (some (1 / 10))

/-- C102 is false of sweep and prune: with the shapes `A`, one with NaN, `B` (in this order), `A` and `B` intersect and brute force finds them, but the sweep
reports nothing: the comparator says that the broken shape equals both, so the slice counts as sorted, and the broken shape empties the active list. -/
theorem c102_sweep_false {σ : Type} (sort : (NBox → NBox → Ordering) → List NBox → List NBox) (hs : KeepsRuns sort) (v : VarOps σ NBox) (var : σ) :
    Meets2 id [num2 boxA, boxN, num2 boxB] 0 2 ∧
    bruteForce id isectN2 [num2 boxA, boxN, num2 boxB] = .ok [(0, 2)] ∧
    ∃ s', sweepN sort sapN2 v id ⟨0, var⟩ [num2 boxA, boxN, num2 boxB] = .ok ([], [num2 boxA, boxN, num2 boxB], s') := by
  refine ⟨⟨_, _, boxA, boxB, rfl, rfl, rfl, rfl, by decide +kernel⟩, by decide +kernel, ?_⟩
  unfold sweepN
  rw [if_neg (by simp), if_neg (by simp [sapN2])]
  rw [hs _ _ (by simp [sapCmpN, sapN2, boxN, Fl.cmp, num2])]
  exact ⟨⟨v.axis (v.addBound (v.addBound (v.addBound (v.clear var) (num2 boxA)) boxN) (num2 boxB)) 3,
    v.addBound (v.addBound (v.addBound (v.clear var) (num2 boxA)) boxN) (num2 boxB)⟩, rfl⟩

/-- Histories without `values_mut` that end with `tick` are disciplined, up to date and refitted. -/
theorem run_tick {V B S : Type} {O : Ops V B S} {fuel : Nat} {cs : List (Call V)} {rng : Nat → Nat} {h : Hist V} {s : Dbvt V B}
    (hl : ∀ c ∈ cs, ∀ vs, c ≠ .mutate vs) (hr : runCalls O fuel (cs ++ [.tick rng]) [] Dbvt.new = some (h, s)) :
    Exec O h s ∧ Disciplined O h ∧ UpToDate O h ∧ Refitted! h := by
  have he : Exec O h s := exec_of_run (by
    intro c hc ws
    rcases List.mem_append.1 hc with hc | hc
    · exact hl c hc ws
    · simp at hc; subst hc; simp) .new hr
  refine ⟨he, ?_⟩
  have gen : ∀ (cs : List (Call V)) (h0 : Hist V) (s0 : Dbvt V B), (∀ c ∈ cs, ∀ vs, c ≠ .mutate vs) → Disciplined O h0 → (∀ i, ¬ Stale O h0 i) →
      runCalls O fuel (cs ++ [.tick rng]) h0 s0 = some (h, s) → Disciplined O h ∧ UpToDate O h ∧ Refitted! h := by
    intro cs
    induction cs with
    | nil =>
      intro h0 s0 _ hd hst hr
      simp only [List.nil_append, runCalls] at hr
      split at hr
      · simp only [Option.some.injEq, Prod.mk.injEq] at hr
        obtain ⟨rfl, rfl⟩ := hr
        exact ⟨⟨hd, fun i hi => absurd hi (hst i)⟩, upToDate_tick O _ _ _, trivial⟩
      · simp at hr
    | cons c cs ih =>
      intro h0 s0 hl hd hst hr
      simp only [List.cons_append, runCalls] at hr
      split at hr
      · rename_i r s' _
        have hc := hl c (by simp)
        refine ih ((c, r) :: h0) _ (fun c hc => hl c (by simp [hc])) ?_ ?_ hr
        · cases c <;> first | exact hd | exact ⟨hd, fun i hi => absurd hi (hst i)⟩
        · cases c <;> first | exact hst | exact fun _ h => h | exact absurd rfl (hc _)
      · simp at hr
  exact gen cs [] Dbvt.new hl trivial (by simp [Stale]) hr

/-- C102 is false of the tree: after inserting a box with NaN and then `A` and `B`, a query for `A` itself finds nothing, and the broad phase reports no pair
although everything is dirty and `A` and `B` intersect: the union of the broken box with a sound one is broken (`min` keeps its first argument when the two do
not compare), and so is every branch above it. -/
theorem c102_tree_false : ∃ h s, Exec flOps h s ∧ Disciplined flOps h ∧ UpToDate flOps h ∧ Refitted! h ∧
    s.values.map Prod.snd = [boxN, num2 boxA, num2 boxB] ∧
    Meets2 (fun e : Nat × NBox => e.2) s.values 1 2 ∧
    s.query flOps (discreteVisitor fun b => isectN2 b (num2 boxA)) () = .ok [] ∧
    dbvtPairs flOps isectN2 s [true, true, true] = .ok [] := by
  have h0 : (runCalls flOps 20 ([boxN, num2 boxA, num2 boxB].map .insert ++ [.tick (fun _ => 0)]) [] Dbvt.new).map
      (fun p => decide (p.2.values.map Prod.snd = [boxN, num2 boxA, num2 boxB]) && 
        decide (p.2.query flOps (discreteVisitor fun b => isectN2 b (num2 boxA)) () = .ok []) &&
        decide (dbvtPairs flOps isectN2 p.2 [true, true, true] = .ok [])) = some true := by decide +kernel
  obtain ⟨⟨h, s⟩, hrun, hc⟩ := Option.map_eq_some_iff.1 h0
  obtain ⟨he, hd, hu, hr⟩ := run_inserts hrun
  simp only [Bool.and_eq_true, decide_eq_true_eq] at hc
  refine ⟨h, s, he, hd, hu, hr, hc.1.1, ?_, hc.1.2, hc.2⟩
  have hv := hc.1.1
  have g : ∀ (k : Nat) (v : NBox), [boxN, num2 boxA, num2 boxB][k]? = some v → ∃ e : Nat × NBox, s.values[k]? = some e ∧ e.2 = v := by
    intro k v hk
    rw [← hv, List.getElem?_map, Option.map_eq_some_iff] at hk
    exact hk
  obtain ⟨a, ha, ea⟩ := g 1 (num2 boxA) rfl
  obtain ⟨b, hb, eb⟩ := g 2 (num2 boxB) rfl
  exact ⟨a, b, boxA, boxB, ha, hb, ea, eb, by decide +kernel⟩

/-- The tree recovers: the same insertions, then the broken box (index 1) is given proper numbers, or removed, and `tick` called; the hypotheses of
`c102_tree2_partial` hold and the pairs are found. -/
example (c : Call NBox) (hc : c ∈ [Call.updateNode 1 (num2 ⟨⟨9, 0⟩, ⟨10, 1⟩⟩), Call.remove 1]) :
    ∃ h s n l, Exec flOps h s ∧ Disciplined flOps h ∧ UpToDate flOps h ∧ Refitted! h ∧
      (∀ (v : NBox) p, v = num2 p → containsN2 v v = true) ∧ (∀ e ∈ s.values, ∃ p, e.2 = num2 p) ∧ s.height = .ok n ∧ n ≤ 256 ∧
      dbvtPairs flOps isectN2 s (List.replicate s.values.length true) = .ok l ∧ l ≠ [] := by
  have hcs : ∀ c' ∈ [Call.insert boxN, .insert (num2 boxA), .insert (num2 boxB)] ++ [c], ∀ vs, c' ≠ .mutate vs := by
    intro c' hc' vs
    simp at hc hc'
    rcases hc' with rfl | rfl | rfl | rfl
    iterate 3 simp
    rcases hc with rfl | rfl <;> simp
  have h0 : (runCalls flOps 20 ([Call.insert boxN, .insert (num2 boxA), .insert (num2 boxB)] ++ [c] ++ [.tick (fun _ => 0)]) [] Dbvt.new).map
      (fun p => (match p.2.height with | .ok n => n ≤ 256 | _ => false) &&
        (p.2.values.all fun e => e.2.min.x.isSome && e.2.min.y.isSome && e.2.max.x.isSome && e.2.max.y.isSome) &&
        (match dbvtPairs flOps isectN2 p.2 (List.replicate p.2.values.length true) with | .ok l => l ≠ [] | _ => false)) = some true := by
    simp at hc
    rcases hc with rfl | rfl <;> decide +kernel
  obtain ⟨⟨h, s⟩, hrun, hc⟩ := Option.map_eq_some_iff.1 h0
  obtain ⟨he, hd, hu, hr⟩ := run_tick hcs hrun
  simp only [Bool.and_eq_true] at hc
  obtain ⟨⟨h1, h2⟩, h3⟩ := hc
  cases hh : s.height with
  | ok n =>
    rw [hh] at h1
    cases hp : dbvtPairs flOps isectN2 s (List.replicate s.values.length true) with
    | ok l =>
      rw [hp] at h3
      refine ⟨h, s, n, l, he, hd, hu, hr, ?_, ?_, hh, by simpa using h1, hp, by simpa using h3⟩
      · rintro v p rfl; exact containsN2_iff.2 ⟨p, p, rfl, rfl, c26_order2.1 _⟩
      · intro e hm
        have := List.all_eq_true.1 h2 e hm
        simp only [Bool.and_eq_true, Option.isSome_iff_exists] at this
        obtain ⟨⟨⟨⟨a, ha⟩, ⟨b, hb⟩⟩, ⟨c, hc⟩⟩, ⟨d, hd⟩⟩ := this
        refine ⟨⟨⟨a, b⟩, ⟨c, d⟩⟩, ?_⟩
        rcases e with ⟨_, ⟨⟨_, _⟩, ⟨_, _⟩⟩⟩
        simp only [num2] at *; subst ha hb hc hd; rfl
    | panic => rw [hp] at h3; simp at h3
    | timeout => rw [hp] at h3; simp at h3
  | panic => rw [hh] at h1; simp at h1
  | timeout => rw [hh] at h1; simp at h1

/-- Three shapes of which one has NaN in `y`, meeting the hypotheses of `c102_sweep2_partial` with the insertion sort and axis 0: the pair is found. -/
example : Sorts (insertionSort (A := NBox)) ∧
    (∀ a ∈ [num2 boxA, ⟨⟨some 0, none⟩, ⟨some 5, none⟩⟩, num2 boxB], ∃ x y : ℚ, sapN2.minE a 0 = some x ∧ sapN2.maxE a 0 = some y) ∧
    ∃ l s', sweepN insertionSort sapN2 (⟨(), fun _ => (), fun _ _ => (), fun _ _ => 0⟩ : VarOps Unit NBox) id ⟨0, ()⟩ [num2 boxA, (⟨⟨some 0, none⟩, ⟨some 5, none⟩⟩ : NBox), num2 boxB] =
      .ok (l, [(⟨⟨some 0, none⟩, ⟨some 5, none⟩⟩ : NBox), num2 boxB, num2 boxA], s') ∧ l = [(1, 2)] := by
  refine ⟨insertionSort_sorts, by simp [sapN2, num2], [(1, 2)], ⟨0, ()⟩, ?_, rfl⟩
  decide +kernel

end Verif.BroadPhase
