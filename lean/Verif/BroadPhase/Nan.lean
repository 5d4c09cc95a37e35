import Verif.BroadPhase.Rounding
import Verif.Dbvt.Healing
/-!
# C102: one broken shape (NaN coordinates) and the others

The three broad phases once more, over coordinates that may be NaN: every comparison with NaN is false and `partial_cmp` is `None`. The
rest of the arithmetic (areas, variances, margins) is arbitrary.
-/
namespace Verif.BroadPhase
open Verif Dbvt Geom
set_option linter.unusedSectionVars false

variable {A B K σ V S : Type} [LinearOrder K]

/-- A floating point number: `none` is NaN (infinities are elements of `K`). -/
abbrev Fl (K : Type) := Option K

/-- IEEE `<` -/
def Fl.lt (a b : Fl K) : Bool :=
  match a, b with
  | some x, some y => decide (x < y)
  | _, _ => false
/-- IEEE `<=` -/
def Fl.le (a b : Fl K) : Bool :=
  match a, b with
  | some x, some y => decide (x ≤ y)
  | _, _ => false
/-- `PartialOrd::partial_cmp` of floats -/
def Fl.cmp (a b : Fl K) : Option Ordering :=
  match a, b with
  | some x, some y => some (if x < y then .lt else if x = y then .eq else .gt)
  | _, _ => none
/-- `min`, `src/volume/aabb/mod.rs:21-26`: incomparable numbers give the first -/
def Fl.min (l r : Fl K) : Fl K :=
  match Fl.cmp l r with
  | some .gt => r
  | _ => l
/-- `max`, `src/volume/aabb/mod.rs:28-33` -/
def Fl.max (l r : Fl K) : Fl K :=
  match Fl.cmp l r with
  | some .lt => r
  | _ => l

/-! ## Boxes -/

/-- `Aabb2::new` with NaN, `src/volume/aabb/aabb2.rs:30-35` -/
def newN2 (p q : V2 (Fl K)) : Aabb2 (Fl K) := ⟨⟨Fl.min p.x q.x, Fl.min p.y q.y⟩, ⟨Fl.max p.x q.x, Fl.max p.y q.y⟩⟩
/-- `grow` with NaN, `src/volume/aabb/mod.rs:114-116` -/
def growN2 (b : Aabb2 (Fl K)) (p : V2 (Fl K)) : Aabb2 (Fl K) :=
  newN2 ⟨Fl.min b.min.x p.x, Fl.min b.min.y p.y⟩ ⟨Fl.max b.max.x p.x, Fl.max b.max.y p.y⟩
/-- `Union` with NaN, `src/volume/aabb/aabb2.rs:127-129` -/
def unionN2 (b o : Aabb2 (Fl K)) : Aabb2 (Fl K) := growN2 (growN2 b o.min) o.max
/-- `Contains<Aabb2>` with NaN, `src/volume/aabb/aabb2.rs:106-114` -/
def containsN2 (b o : Aabb2 (Fl K)) : Bool :=
  Fl.le b.min.x o.min.x && Fl.le b.min.y o.min.y && Fl.le o.max.x b.max.x && Fl.le o.max.y b.max.y
/-- `Discrete<Aabb2>` with NaN, `src/volume/aabb/aabb2.rs:219-224` -/
def isectN2 (a b : Aabb2 (Fl K)) : Bool :=
  Fl.lt b.min.x a.max.x && Fl.lt a.min.x b.max.x && Fl.lt b.min.y a.max.y && Fl.lt a.min.y b.max.y

/-- `Aabb3::new` with NaN, `src/volume/aabb/aabb3.rs:30-35` -/
def newN3 (p q : V3 (Fl K)) : Aabb3 (Fl K) :=
  ⟨⟨Fl.min p.x q.x, Fl.min p.y q.y, Fl.min p.z q.z⟩, ⟨Fl.max p.x q.x, Fl.max p.y q.y, Fl.max p.z q.z⟩⟩
/-- `grow` with NaN, `src/volume/aabb/mod.rs:114-116` -/
def growN3 (b : Aabb3 (Fl K)) (p : V3 (Fl K)) : Aabb3 (Fl K) :=
  newN3 ⟨Fl.min b.min.x p.x, Fl.min b.min.y p.y, Fl.min b.min.z p.z⟩ ⟨Fl.max b.max.x p.x, Fl.max b.max.y p.y, Fl.max b.max.z p.z⟩
/-- `Union` with NaN, `src/volume/aabb/aabb3.rs:159-161` -/
def unionN3 (b o : Aabb3 (Fl K)) : Aabb3 (Fl K) := growN3 (growN3 b o.min) o.max
/-- `Contains<Aabb3>` with NaN, `src/volume/aabb/aabb3.rs:123-133` -/
def containsN3 (b o : Aabb3 (Fl K)) : Bool :=
  Fl.le b.min.x o.min.x && Fl.le b.min.y o.min.y && Fl.le b.min.z o.min.z &&
  Fl.le o.max.x b.max.x && Fl.le o.max.y b.max.y && Fl.le o.max.z b.max.z
/-- `Discrete<Aabb3>` with NaN, `src/volume/aabb/aabb3.rs:247-252` -/
def isectN3 (a b : Aabb3 (Fl K)) : Bool :=
  Fl.lt b.min.x a.max.x && Fl.lt a.min.x b.max.x && Fl.lt b.min.y a.max.y && Fl.lt a.min.y b.max.y &&
  Fl.lt b.min.z a.max.z && Fl.lt a.min.z b.max.z

/-! ## Sweep and prune -/

/-- The comparator of `sort_by`, `src/algorithm/broad_phase/sweep_prune.rs:87-97` -/
def sapCmpN (O : SapBound B (Fl K)) (axis : Nat) (a b : B) : Ordering :=
  match Fl.cmp (O.minE a axis) (O.minE b axis) with
  | some .eq => (Fl.cmp (O.maxE a axis) (O.maxE b axis)).getD .eq
  | none => .eq
  | some order => order

/-- One iteration of the sweep with NaN, `src/algorithm/broad_phase/sweep_prune.rs:105-127` (as `sapStep`) -/
def sapStepN (O : SapBound B (Fl K)) (v : VarOps σ B) (bound : A → B) (axis : Nat) (shapes : List A)
    (st : List (Nat × Nat) × List Nat × σ) (shape_index : Nat) : Res (List (Nat × Nat) × List Nat × σ) := do
  let (pairs, active, var) := st
  let shape ← Res.ofOption shapes[shape_index]?
  let active ← retainRes (fun ai => do
    let a ← Res.ofOption shapes[ai]?
    return Fl.le (O.minE (bound shape) axis) (O.maxE (bound a) axis)) active
  let pairs ← forRes (fun (pairs : List (Nat × Nat)) ai => do
    let a ← Res.ofOption shapes[ai]?
    if O.isect (bound a) (bound shape) then return pairs ++ [(ai, shape_index)] else return pairs) pairs active
  return (pairs, active ++ [shape_index], v.addBound var (bound shape))

/-- `SweepAndPrune::find_collider_pairs` with NaN, `src/algorithm/broad_phase/sweep_prune.rs:76-136`. The sort is a parameter: when the comparator is not a
total order the standard library leaves the order open (recent versions may even panic). -/
def sweepN (sort : (A → A → Ordering) → List A → List A) (O : SapBound B (Fl K)) (v : VarOps σ B) (bound : A → B) (s : Sap σ) (shapes : List A) :
    Res (List (Nat × Nat) × List A × Sap σ) :=
  if shapes.length ≤ 1 then .ok ([], shapes, s)
  else if O.dim ≤ s.sweep_axis then .panic
  else do
    let shapes := sort (fun a b => sapCmpN O s.sweep_axis (bound a) (bound b)) shapes
    let var := v.clear s.variance
    let first ← Res.ofOption shapes[0]?
    let var := v.addBound var (bound first)
    let (pairs, _, var) ← forRes (sapStepN O v bound s.sweep_axis shapes) ([], [0], var) (List.range' 1 (shapes.length - 1))
    return (pairs, shapes, ⟨v.axis var shapes.length, var⟩)

/-- What `sort_by` promises: if the comparator orders the elements of the slice totally (`cmp a b = Less` iff `cmp b a = Greater`, and "not greater" is
transitive), the result is a permutation in which nothing is greater than a later element. -/
def Sorts (sort : (A → A → Ordering) → List A → List A) : Prop :=
  ∀ (cmp : A → A → Ordering) (l : List A), (∀ a ∈ l, ∀ b ∈ l, cmp a b = (cmp b a).swap) →
    (∀ a ∈ l, ∀ b ∈ l, ∀ c ∈ l, cmp a b ≠ .gt → cmp b c ≠ .gt → cmp a c ≠ .gt) →
    (sort cmp l).Perm l ∧ (sort cmp l).Pairwise fun a b => cmp a b ≠ .gt

/-- What the implementations of `sort_by` do with a slice in which no element is less than its predecessor: nothing. -/
def KeepsRuns (sort : (A → A → Ordering) → List A → List A) : Prop :=
  ∀ (cmp : A → A → Ordering) (l : List A), l.IsChain (fun a b => cmp b a ≠ .lt) → sort cmp l = l

/-- Insertion of the last element into the sorted part before it, held in reverse: `insert_tail` of the standard library, used for slices of up to 20 elements. -/
def insertTail (cmp : A → A → Ordering) : List A → A → List A
  | [], x => [x]
  | y :: ys, x => if cmp x y = .lt then y :: insertTail cmp ys x else x :: y :: ys
/-- `insertion_sort_shift_left` of the standard library -/
def insertionSort (cmp : A → A → Ordering) (l : List A) : List A := (l.foldl (insertTail cmp) []).reverse

/-! ## The tree -/

/-- The tree over 2D boxes with NaN; bounds, margins, areas and their comparison are arbitrary. -/
def nanOps2 (bound fat : V → Aabb2 (Fl K)) (area : Aabb2 (Fl K) → S) (lt : S → S → Bool) (sub div : S → S → S) (im : S) : Ops V (Aabb2 (Fl K)) S :=
  ⟨bound, fat, unionN2, containsN2, area, lt, sub, div, im⟩
/-- The same for 3D boxes. -/
def nanOps3 (bound fat : V → Aabb3 (Fl K)) (area : Aabb3 (Fl K) → S) (lt : S → S → Bool) (sub div : S → S → S) (im : S) : Ops V (Aabb3 (Fl K)) S :=
  ⟨bound, fat, unionN3, containsN3, area, lt, sub, div, im⟩

/-! ## Specification -/

/-- The box with these (proper) numbers as coordinates. -/
def num2 (b : Aabb2 K) : Aabb2 (Fl K) := ⟨⟨some b.min.x, some b.min.y⟩, ⟨some b.max.x, some b.max.y⟩⟩
/-- The box with these (proper) numbers as coordinates. -/
def num3 (b : Aabb3 K) : Aabb3 (Fl K) := ⟨⟨some b.min.x, some b.min.y, some b.min.z⟩, ⟨some b.max.x, some b.max.y, some b.max.z⟩⟩

/-- The shapes at positions `i` and `j` exist, have proper numbers as coordinates, and their boxes intersect (2D). -/
def Meets2 (bound : A → Aabb2 (Fl K)) (shapes : List A) (i j : Nat) : Prop :=
  ∃ a b p q, shapes[i]? = some a ∧ shapes[j]? = some b ∧ bound a = num2 p ∧ bound b = num2 q ∧ p.intersects q = true
/-- The shapes at positions `i` and `j` exist, have proper numbers as coordinates, and their boxes intersect (3D). -/
def Meets3 (bound : A → Aabb3 (Fl K)) (shapes : List A) (i j : Nat) : Prop :=
  ∃ a b p q, shapes[i]? = some a ∧ shapes[j]? = some b ∧ bound a = num3 p ∧ bound b = num3 q ∧ p.intersects q = true

/-! ## Proofs -/

theorem Fl.lt_iff {a b : Fl K} : Fl.lt a b = true ↔ ∃ x y, a = some x ∧ b = some y ∧ x < y := by
  cases a <;> cases b <;> simp [Fl.lt]
theorem Fl.le_iff {a b : Fl K} : Fl.le a b = true ↔ ∃ x y, a = some x ∧ b = some y ∧ x ≤ y := by
  cases a <;> cases b <;> simp [Fl.le]
theorem Fl.min_some (x y : K) : Fl.min (some x) (some y) = some (pmin x y) := by
  simp only [Fl.min, Fl.cmp, pmin]
  grind
theorem Fl.max_some (x y : K) : Fl.max (some x) (some y) = some (pmax x y) := by
  simp only [Fl.max, Fl.cmp, pmax]
  grind
theorem unionN2_num (a b : Aabb2 K) : unionN2 (num2 a) (num2 b) = num2 (a.union b) := by
  simp only [unionN2, growN2, newN2, num2, Fl.min_some, Fl.max_some, Aabb2.union, Aabb2.grow, Aabb2.new, V2.pmin, V2.pmax]
theorem unionN3_num (a b : Aabb3 K) : unionN3 (num3 a) (num3 b) = num3 (a.union b) := by
  simp only [unionN3, growN3, newN3, num3, Fl.min_some, Fl.max_some, Aabb3.union, Aabb3.grow, Aabb3.new, V3.pmin, V3.pmax]
theorem containsN2_iff {a b : Aabb2 (Fl K)} : containsN2 a b = true ↔ ∃ p q, a = num2 p ∧ b = num2 q ∧ p.contains q = true := by
  simp only [containsN2, Bool.and_eq_true, Fl.le_iff]
  constructor
  · rintro ⟨⟨⟨⟨x1, y1, a1, b1, h1⟩, ⟨x2, y2, a2, b2, h2⟩⟩, ⟨x3, y3, a3, b3, h3⟩⟩, ⟨x4, y4, a4, b4, h4⟩⟩
    refine ⟨⟨⟨x1, x2⟩, ⟨y3, y4⟩⟩, ⟨⟨y1, y2⟩, ⟨x3, x4⟩⟩, ?_, ?_, by simp [Aabb2.contains, h1, h2, h3, h4]⟩
    · rcases a with ⟨⟨_, _⟩, ⟨_, _⟩⟩; simp_all [num2]
    · rcases b with ⟨⟨_, _⟩, ⟨_, _⟩⟩; simp_all [num2]
  · rintro ⟨p, q, rfl, rfl, h⟩
    simp only [Aabb2.contains, Bool.and_eq_true, decide_eq_true_eq] at h
    simpa [num2] using h
theorem containsN3_iff {a b : Aabb3 (Fl K)} : containsN3 a b = true ↔ ∃ p q, a = num3 p ∧ b = num3 q ∧ p.contains q = true := by
  simp only [containsN3, Bool.and_eq_true, Fl.le_iff]
  constructor
  · rintro ⟨⟨⟨⟨⟨⟨x1, y1, a1, b1, h1⟩, ⟨x2, y2, a2, b2, h2⟩⟩, ⟨x3, y3, a3, b3, h3⟩⟩, ⟨x4, y4, a4, b4, h4⟩⟩, ⟨x5, y5, a5, b5, h5⟩⟩, ⟨x6, y6, a6, b6, h6⟩⟩
    refine ⟨⟨⟨x1, x2, x3⟩, ⟨y4, y5, y6⟩⟩, ⟨⟨y1, y2, y3⟩, ⟨x4, x5, x6⟩⟩, ?_, ?_, by simp [Aabb3.contains, h1, h2, h3, h4, h5, h6]⟩
    · rcases a with ⟨⟨_, _, _⟩, ⟨_, _, _⟩⟩; simp_all [num3]
    · rcases b with ⟨⟨_, _, _⟩, ⟨_, _, _⟩⟩; simp_all [num3]
  · rintro ⟨p, q, rfl, rfl, h⟩
    simp only [Aabb3.contains, Bool.and_eq_true, decide_eq_true_eq] at h
    simpa [num3] using h
theorem isectN2_iff {a b : Aabb2 (Fl K)} : isectN2 a b = true ↔ ∃ p q, a = num2 p ∧ b = num2 q ∧ p.intersects q = true := by
  simp only [isectN2, Bool.and_eq_true, Fl.lt_iff]
  constructor
  · rintro ⟨⟨⟨⟨x1, y1, a1, b1, h1⟩, ⟨x2, y2, a2, b2, h2⟩⟩, ⟨x3, y3, a3, b3, h3⟩⟩, ⟨x4, y4, a4, b4, h4⟩⟩
    refine ⟨⟨⟨x2, x4⟩, ⟨y1, y3⟩⟩, ⟨⟨x1, x3⟩, ⟨y2, y4⟩⟩, ?_, ?_, by simp [Aabb2.intersects, h1, h2, h3, h4]⟩
    · rcases a with ⟨⟨_, _⟩, ⟨_, _⟩⟩; simp_all [num2]
    · rcases b with ⟨⟨_, _⟩, ⟨_, _⟩⟩; simp_all [num2]
  · rintro ⟨p, q, rfl, rfl, h⟩
    simp only [Aabb2.intersects, Bool.and_eq_true, decide_eq_true_eq] at h
    simpa [num2] using h
theorem isectN3_iff {a b : Aabb3 (Fl K)} : isectN3 a b = true ↔ ∃ p q, a = num3 p ∧ b = num3 q ∧ p.intersects q = true := by
  simp only [isectN3, Bool.and_eq_true, Fl.lt_iff]
  constructor
  · rintro ⟨⟨⟨⟨⟨⟨x1, y1, a1, b1, h1⟩, ⟨x2, y2, a2, b2, h2⟩⟩, ⟨x3, y3, a3, b3, h3⟩⟩, ⟨x4, y4, a4, b4, h4⟩⟩, ⟨x5, y5, a5, b5, h5⟩⟩, ⟨x6, y6, a6, b6, h6⟩⟩
    refine ⟨⟨⟨x2, x4, x6⟩, ⟨y1, y3, y5⟩⟩, ⟨⟨x1, x3, x5⟩, ⟨y2, y4, y6⟩⟩, ?_, ?_, by simp [Aabb3.intersects, h1, h2, h3, h4, h5, h6]⟩
    · rcases a with ⟨⟨_, _, _⟩, ⟨_, _, _⟩⟩; simp_all [num3]
    · rcases b with ⟨⟨_, _, _⟩, ⟨_, _, _⟩⟩; simp_all [num3]
  · rintro ⟨p, q, rfl, rfl, h⟩
    simp only [Aabb3.intersects, Bool.and_eq_true, decide_eq_true_eq] at h
    simpa [num3] using h

theorem hit_meets2 (bound : A → Aabb2 (Fl K)) (shapes : List A) (i j : Nat) : Hit bound isectN2 shapes i j ↔ Meets2 bound shapes i j := by
  simp only [Hit, Meets2, isectN2_iff]
  constructor
  · rintro ⟨a, b, h1, h2, p, q, h3⟩; exact ⟨a, b, p, q, h1, h2, h3⟩
  · rintro ⟨a, b, p, q, h1, h2, h3⟩; exact ⟨a, b, h1, h2, p, q, h3⟩
theorem hit_meets3 (bound : A → Aabb3 (Fl K)) (shapes : List A) (i j : Nat) : Hit bound isectN3 shapes i j ↔ Meets3 bound shapes i j := by
  simp only [Hit, Meets3, isectN3_iff]
  constructor
  · rintro ⟨a, b, h1, h2, p, q, h3⟩; exact ⟨a, b, p, q, h1, h2, h3⟩
  · rintro ⟨a, b, p, q, h1, h2, h3⟩; exact ⟨a, b, h1, h2, p, q, h3⟩

/-- C102, brute force (2D): exactly the intersecting pairs of sound shapes, whatever the broken ones are. -/
theorem c102_brute2 (bound : A → Aabb2 (Fl K)) (shapes : List A) :
    ∃ l, bruteForce bound isectN2 shapes = .ok l ∧ LexSorted l ∧ ∀ i j, (i, j) ∈ l ↔ i < j ∧ Meets2 bound shapes i j := by
  obtain ⟨l, h1, h2, h3⟩ := c19_brute_force bound isectN2 shapes
  exact ⟨l, h1, h2, fun i j => by rw [h3, hit_meets2]⟩
/-- C102, brute force (3D). -/
theorem c102_brute3 (bound : A → Aabb3 (Fl K)) (shapes : List A) :
    ∃ l, bruteForce bound isectN3 shapes = .ok l ∧ LexSorted l ∧ ∀ i j, (i, j) ∈ l ↔ i < j ∧ Meets3 bound shapes i j := by
  obtain ⟨l, h1, h2, h3⟩ := c19_brute_force bound isectN3 shapes
  exact ⟨l, h1, h2, fun i j => by rw [h3, hit_meets3]⟩

/-- The comparator on proper numbers. -/
theorem sapCmpN_num (O : SapBound B (Fl K)) (axis : Nat) {a b : B} {x y x' y' : K} (h1 : O.minE a axis = some x) (h2 : O.maxE a axis = some y)
    (h3 : O.minE b axis = some x') (h4 : O.maxE b axis = some y') :
    sapCmpN O axis a b = if x < x' then .lt else if x = x' then (if y < y' then .lt else if y = y' then .eq else .gt) else .gt := by
  simp only [sapCmpN, h1, h2, h3, h4, Fl.cmp]
  split_ifs <;> simp_all

theorem forRes_congr {α β : Type} (f g : α → β → Res α) (l : List β) (h : ∀ a, ∀ b ∈ l, f a b = g a b) : ∀ a, forRes f a l = forRes g a l := by
  induction l with
  | nil => intro a; rfl
  | cons b l ih =>
    intro a
    simp only [forRes, h a b (by simp)]
    cases g a b with
    | ok a' => simp only [Res.bind_ok]; exact ih (fun a c hc => h a c (by simp [hc])) a'
    | panic => rfl
    | timeout => rfl
theorem retainRes_congr {α : Type} (p q : α → Res Bool) (l : List α) (h : ∀ a ∈ l, p a = q a) : retainRes p l = retainRes q l := by
  induction l with
  | nil => rfl
  | cons a l ih => simp only [retainRes, h a (by simp), ih (fun b hb => h b (by simp [hb]))]

/-- C102, sweep and prune, for any kind of bound: if the extents along the sweep axis are proper numbers, the result is right whatever the other coordinates are. -/
theorem sweepN_spec (sort : (A → A → Ordering) → List A → List A) (hsort : Sorts sort) (O : SapBound B (Fl K)) (v : VarOps σ B) (bound : A → B)
    (s : Sap σ) (shapes : List A) (hax : s.sweep_axis < O.dim)
    (hov : ∀ a b, O.isect a b = true → ∃ x y, O.minE b s.sweep_axis = some x ∧ O.maxE a s.sweep_axis = some y ∧ x ≤ y)
    (hnum : ∀ a ∈ shapes, ∃ x y, O.minE (bound a) s.sweep_axis = some x ∧ O.maxE (bound a) s.sweep_axis = some y) :
    ∃ pairs shapes' s', sweepN sort O v bound s shapes = .ok (pairs, shapes', s') ∧ shapes'.Perm shapes ∧ pairs.Nodup ∧
      ∀ i j, (i, j) ∈ pairs ↔ i < j ∧ Hit bound O.isect shapes' i j := by
  unfold sweepN
  by_cases hlen : shapes.length ≤ 1
  · refine ⟨[], shapes, s, by rw [if_pos hlen], .refl _, by simp, fun i j => ?_⟩
    simp only [List.not_mem_nil, false_iff]
    rintro ⟨hij, a, b, -, hb, -⟩
    obtain ⟨hj, -⟩ := List.getElem?_eq_some_iff.1 hb
    omega
  rw [if_neg hlen, if_neg (not_le.2 hax)]
  obtain ⟨a0, ha0⟩ : ∃ a, a ∈ shapes := List.exists_mem_of_length_pos (by omega)
  obtain ⟨x0, -⟩ := hnum a0 ha0
  generalize hcmp : (fun a b => sapCmpN O s.sweep_axis (bound a) (bound b)) = cmp
  obtain ⟨hperm, hs⟩ := hsort cmp shapes (by
      intro a ha b hb
      obtain ⟨x, y, h1, h2⟩ := hnum a ha
      obtain ⟨x', y', h3, h4⟩ := hnum b hb
      simp only [← hcmp, sapCmpN_num O _ h1 h2 h3 h4, sapCmpN_num O _ h3 h4 h1 h2]
      grind [Ordering.swap]) (by
      intro a ha b hb c hc
      obtain ⟨x, y, h1, h2⟩ := hnum a ha
      obtain ⟨x', y', h3, h4⟩ := hnum b hb
      obtain ⟨x'', y'', h5, h6⟩ := hnum c hc
      simp only [← hcmp, sapCmpN_num O _ h1 h2 h3 h4, sapCmpN_num O _ h3 h4 h5 h6, sapCmpN_num O _ h1 h2 h5 h6]
      grind)
  generalize hS : sort cmp shapes = S at hperm hs
  have hnumS : ∀ a ∈ S, ∃ x y, O.minE (bound a) s.sweep_axis = some x ∧ O.maxE (bound a) s.sweep_axis = some y :=
    fun a ha => hnum a (hperm.mem_iff.1 ha)
  let O' : SapBound B K := ⟨O.dim, fun b k => (O.minE b k).getD x0, fun b k => (O.maxE b k).getD x0, O.isect⟩
  have hl : 1 < S.length := by rw [hperm.length_eq]; omega
  obtain ⟨f, hf⟩ : ∃ f, S[0]? = some f := ⟨_, List.getElem?_eq_getElem (by omega)⟩
  have hS2 : S.Pairwise fun a b => O'.minE (bound a) s.sweep_axis ≤ O'.minE (bound b) s.sweep_axis := by
    refine hs.imp_of_mem fun {a b} ha hb h => ?_
    obtain ⟨x, y, h1, h2⟩ := hnumS a ha
    obtain ⟨x', y', h3, h4⟩ := hnumS b hb
    simp only [← hcmp, sapCmpN_num O _ h1 h2 h3 h4] at h
    simp only [O', h1, h3, Option.getD_some]
    grind
  obtain ⟨pairs, active, var', h1, hv, h2, h3⟩ := sweep_spec O' v bound s.sweep_axis (by
      intro a b hab
      obtain ⟨x, y, e1, e2, e3⟩ := hov a b hab
      simp only [O', e1, e2, Option.getD_some]; exact e3) S (by
      intro i j a b hij ha hb
      obtain ⟨hi, rfl⟩ := List.getElem?_eq_some_iff.1 ha
      obtain ⟨hj, rfl⟩ := List.getElem?_eq_some_iff.1 hb
      exact List.pairwise_iff_getElem.1 hS2 i j hi hj hij) hl (v.clear s.variance) f hf
  have hstep : ∀ st k, sapStepN O v bound s.sweep_axis S st k = sapStep O' v bound s.sweep_axis S st k := by
    rintro ⟨pairs, active, var⟩ k
    unfold sapStepN sapStep
    dsimp only
    cases hk : S[k]? with
    | none => rfl
    | some sh =>
      simp only [Res.ofOption_some, Res.bind_ok]
      rw [retainRes_congr _ (fun ai => do
        let a ← Res.ofOption S[ai]?
        return decide (O'.minE (bound sh) s.sweep_axis ≤ O'.maxE (bound a) s.sweep_axis)) active]
      intro ai _
      cases hai : S[ai]? with
      | none => rfl
      | some a =>
        obtain ⟨x, y, e1, e2⟩ := hnumS a (List.mem_of_getElem? hai)
        obtain ⟨x', y', e3, e4⟩ := hnumS sh (List.mem_of_getElem? hk)
        simp only [Res.ofOption_some, Res.bind_ok, e2, e3, Fl.le, O', Option.getD_some]
  refine ⟨pairs, S, ⟨v.axis var' S.length, var'⟩, ?_, hperm, h2.imp (fun {a b} h e => by subst e; simp [colex] at h), h3⟩
  simp only [hf, Res.ofOption_some, Res.bind_ok, forRes_congr _ _ _ (fun st k _ => hstep st k), h1, Res.pure_eq]

/-- The extents of 2D boxes with NaN -/
def sapN2 : SapBound (Aabb2 (Fl K)) (Fl K) := ⟨2, fun b k => if k = 0 then b.min.x else b.min.y, fun b k => if k = 0 then b.max.x else b.max.y, isectN2⟩
/-- The extents of 3D boxes with NaN -/
def sapN3 : SapBound (Aabb3 (Fl K)) (Fl K) :=
  ⟨3, fun b k => if k = 0 then b.min.x else if k = 1 then b.min.y else b.min.z, fun b k => if k = 0 then b.max.x else if k = 1 then b.max.y else b.max.z, isectN3⟩

/-- C102, sweep and prune (2D): right if the coordinates along the sweep axis are proper numbers (the others may be NaN). -/
theorem c102_sweep2_partial (sort : (A → A → Ordering) → List A → List A) (hsort : Sorts sort) (v : VarOps σ (Aabb2 (Fl K))) (bound : A → Aabb2 (Fl K))
    (s : Sap σ) (shapes : List A) (hax : s.sweep_axis < 2)
    (hnum : ∀ a ∈ shapes, ∃ x y, sapN2.minE (bound a) s.sweep_axis = some x ∧ sapN2.maxE (bound a) s.sweep_axis = some y) :
    ∃ pairs shapes' s', sweepN sort sapN2 v bound s shapes = .ok (pairs, shapes', s') ∧ shapes'.Perm shapes ∧ pairs.Nodup ∧
      ∀ i j, (i, j) ∈ pairs ↔ i < j ∧ Meets2 bound shapes' i j := by
  obtain ⟨pairs, shapes', s', h1, h2, h3, h4⟩ := sweepN_spec sort hsort sapN2 v bound s shapes hax (by
    intro a b hab
    obtain ⟨p, q, rfl, rfl, h⟩ := isectN2_iff.1 hab
    simp only [Aabb2.intersects, Bool.and_eq_true, decide_eq_true_eq] at h
    simp only [sapN2, num2]
    split_ifs
    · exact ⟨_, _, rfl, rfl, h.1.1.1.le⟩
    · exact ⟨_, _, rfl, rfl, h.1.2.le⟩) hnum
  exact ⟨pairs, shapes', s', h1, h2, h3, fun i j => by rw [h4]; exact and_congr_right fun _ => hit_meets2 bound shapes' i j⟩
/-- C102, sweep and prune (3D). -/
theorem c102_sweep3_partial (sort : (A → A → Ordering) → List A → List A) (hsort : Sorts sort) (v : VarOps σ (Aabb3 (Fl K))) (bound : A → Aabb3 (Fl K))
    (s : Sap σ) (shapes : List A) (hax : s.sweep_axis < 3)
    (hnum : ∀ a ∈ shapes, ∃ x y, sapN3.minE (bound a) s.sweep_axis = some x ∧ sapN3.maxE (bound a) s.sweep_axis = some y) :
    ∃ pairs shapes' s', sweepN sort sapN3 v bound s shapes = .ok (pairs, shapes', s') ∧ shapes'.Perm shapes ∧ pairs.Nodup ∧
      ∀ i j, (i, j) ∈ pairs ↔ i < j ∧ Meets3 bound shapes' i j := by
  obtain ⟨pairs, shapes', s', h1, h2, h3, h4⟩ := sweepN_spec sort hsort sapN3 v bound s shapes hax (by
    intro a b hab
    obtain ⟨p, q, rfl, rfl, h⟩ := isectN3_iff.1 hab
    simp only [Aabb3.intersects, Bool.and_eq_true, decide_eq_true_eq] at h
    simp only [sapN3, num3]
    split_ifs
    · exact ⟨_, _, rfl, rfl, h.1.1.1.1.1.le⟩
    · exact ⟨_, _, rfl, rfl, h.1.1.1.2.le⟩
    · exact ⟨_, _, rfl, rfl, h.1.2.le⟩) hnum
  exact ⟨pairs, shapes', s', h1, h2, h3, fun i j => by rw [h4]; exact and_congr_right fun _ => hit_meets3 bound shapes' i j⟩

/-! The insertion sort of the standard library meets both descriptions of `sort_by`. -/

theorem insertTail_perm (cmp : A → A → Ordering) (l : List A) (x : A) : (insertTail cmp l x).Perm (x :: l) := by
  induction l with
  | nil => exact .refl _
  | cons y ys ih =>
    simp only [insertTail]
    split
    · exact (ih.cons y).trans (List.Perm.swap x y ys)
    · exact .refl _
theorem insertionSort_perm (cmp : A → A → Ordering) (l : List A) : (insertionSort cmp l).Perm l := by
  have : ∀ (l acc : List A), (l.foldl (insertTail cmp) acc).Perm (l ++ acc) := by
    intro l
    induction l with
    | nil => intro acc; exact .refl _
    | cons x l ih =>
      intro acc
      exact (ih _).trans (((insertTail_perm cmp acc x).append_left l).trans List.perm_middle)
  have h := this l []
  rw [List.append_nil] at h
  exact (List.reverse_perm _).trans h
theorem insertionSort_sorts : Sorts (insertionSort (A := A)) := by
  intro cmp l htot htr
  refine ⟨insertionSort_perm cmp l, ?_⟩
  have ins : ∀ (acc : List A) (x : A), (∀ a ∈ acc, a ∈ l) → x ∈ l → acc.Pairwise (fun a b => cmp b a ≠ .gt) →
      (insertTail cmp acc x).Pairwise fun a b => cmp b a ≠ .gt := by
    intro acc x
    induction acc with
    | nil => intro _ _ _; simp [insertTail]
    | cons y ys ih =>
      intro hm hx hp
      have hy := hm y (by simp)
      rw [List.pairwise_cons] at hp
      simp only [insertTail]
      split
      · rename_i hlt
        rw [List.pairwise_cons]
        refine ⟨fun a ha => ?_, ih (fun a ha => hm a (by simp [ha])) hx hp.2⟩
        rcases List.mem_cons.1 ((insertTail_perm cmp ys x).mem_iff.1 ha) with rfl | ha
        · rw [hlt]; simp
        · exact hp.1 a ha
      · rename_i hlt
        have hyx : cmp y x ≠ .gt := by
          rw [htot y hy x hx]; intro h; apply hlt
          revert h
          cases cmp x y <;> simp [Ordering.swap]
        rw [List.pairwise_cons]
        refine ⟨fun a ha => ?_, List.pairwise_cons.2 hp⟩
        rcases List.mem_cons.1 ha with rfl | ha
        · exact hyx
        · exact htr a (hm a (by simp [ha])) y hy x hx (hp.1 a ha) hyx
  have fold : ∀ (m acc : List A), (∀ a ∈ m, a ∈ l) → (∀ a ∈ acc, a ∈ l) → acc.Pairwise (fun a b => cmp b a ≠ .gt) →
      (m.foldl (insertTail cmp) acc).Pairwise fun a b => cmp b a ≠ .gt := by
    intro m
    induction m with
    | nil => intro acc _ _ h; exact h
    | cons x m ih =>
      intro acc h1 h2 h3
      refine ih _ (fun a ha => h1 a (by simp [ha])) (fun a ha => ?_) (ins acc x h2 (h1 x (by simp)) h3)
      rcases List.mem_cons.1 ((insertTail_perm cmp acc x).mem_iff.1 ha) with rfl | ha
      · exact h1 a (by simp)
      · exact h2 a ha
  rw [insertionSort, List.pairwise_reverse]
  exact fold l [] (fun a ha => ha) (by simp) (by simp)
theorem insertionSort_keepsRuns : KeepsRuns (insertionSort (A := A)) := by
  intro cmp l hc
  have : ∀ (m acc : List A), (acc.reverse ++ m).IsChain (fun a b => cmp b a ≠ .lt) → m.foldl (insertTail cmp) acc = m.reverse ++ acc := by
    intro m
    induction m with
    | nil => intro acc _; rfl
    | cons x m ih =>
      intro acc h
      have hx : insertTail cmp acc x = x :: acc := by
        cases acc with
        | nil => rfl
        | cons y ys =>
          simp only [insertTail]
          rw [if_neg]
          simp only [List.reverse_cons, List.append_assoc, List.singleton_append] at h
          have := (List.isChain_append.1 h).2.1
          rw [List.isChain_cons_cons] at this
          exact this.1
      rw [List.foldl_cons, hx, ih (x :: acc) (by simpa using h)]
      simp
  rw [insertionSort, this l [] (by simpa using hc)]
  simp
