import Verif.Dbvt.BoxTree
/-!
# Model of `src/algorithm/broad_phase/*.rs`

Generic in the shape type `A`, its bound type `B` and the intersection test. Indexing out of range is a panic.
-/
namespace Verif.BroadPhase
open Verif Dbvt

variable {A B K σ : Type}

/-- A `for` loop with mutable state `α`; a panic in the body stops it. -/
def forRes {α β : Type} (f : α → β → Res α) : α → List β → Res α
  | a, [] => .ok a
  | a, b :: bs => do forRes f (← f a b) bs

/-- `Vec::retain` with a closure that may panic. -/
def retainRes {α : Type} (p : α → Res Bool) : List α → Res (List α)
  | [] => .ok []
  | a :: as => do
    let b ← p a
    let bs ← retainRes p as
    return if b then a :: bs else bs

/-- `BruteForce::find_collider_pairs`, `src/algorithm/broad_phase/brute_force.rs:20-39`.
`bound` is `HasBound::bound`, `isect` is `Discrete::intersects` on the bounds. -/
def bruteForce (bound : A → B) (isect : B → B → Bool) (shapes : List A) : Res (List (Nat × Nat)) :=
  if shapes.length ≤ 1 then .ok []
  else
    forRes (fun pairs left_index => do
      let left ← Res.ofOption shapes[left_index]?
      forRes (fun pairs right_index => do
        let right ← Res.ofOption shapes[right_index]?
        if isect (bound left) (bound right) then return pairs ++ [(left_index, right_index)] else return pairs)
        pairs (List.range' (left_index + 1) (shapes.length - (left_index + 1))))
      [] (List.range (shapes.length - 1))

/-! ## Sweep and prune -/

/-- What sweep and prune uses of a bound: `Bound::min_extent`, `Bound::max_extent` (indexed by an axis below `dim`) and
`Discrete::intersects`. -/
structure SapBound (B K : Type) where
  dim : Nat
  minE : B → Nat → K
  maxE : B → Nat → K
  isect : B → B → Bool

/-- The `Variance` trait, `src/algorithm/broad_phase/sweep_prune.rs:147-168`: any implementation. `axis` is the first component of
`compute_axis`; its argument is the number of shapes. -/
structure VarOps (σ B : Type) where
  init : σ
  clear : σ → σ
  addBound : σ → B → σ
  axis : σ → Nat → Nat

/-- `SweepAndPrune`, `src/algorithm/broad_phase/sweep_prune.rs:34-37` -/
structure Sap (σ : Type) where
  sweep_axis : Nat
  variance : σ
  deriving DecidableEq

/-- `with_sweep_axis`, `src/algorithm/broad_phase/sweep_prune.rs:49-54`; `new` (44-46) is the case of axis 0 -/
def Sap.withSweepAxis (v : VarOps σ B) (axis : Nat) : Sap σ := ⟨axis, v.init⟩

variable [LinearOrder K]

/-- The comparator of `sort_by`, `src/algorithm/broad_phase/sweep_prune.rs:87-97`, as `cmp ≠ Greater`. On totally ordered scalars
`partial_cmp` is never `None`. -/
def sapLe (O : SapBound B K) (axis : Nat) (a b : B) : Bool :=
  if O.minE a axis = O.minE b axis then decide (O.maxE a axis ≤ O.maxE b axis)
  else decide (O.minE a axis < O.minE b axis)

/-- One iteration of the sweep, `src/algorithm/broad_phase/sweep_prune.rs:105-127`; the state is `(pairs, active, variance)`. -/
def sapStep (O : SapBound B K) (v : VarOps σ B) (bound : A → B) (axis : Nat) (shapes : List A)
    (st : List (Nat × Nat) × List Nat × σ) (shape_index : Nat) : Res (List (Nat × Nat) × List Nat × σ) := do
  let (pairs, active, var) := st
  let shape ← Res.ofOption shapes[shape_index]?
  let active ← retainRes (fun ai => do
    let a ← Res.ofOption shapes[ai]?
    return decide (O.minE (bound shape) axis ≤ O.maxE (bound a) axis)) active
  let pairs ← forRes (fun (pairs : List (Nat × Nat)) ai => do
    let a ← Res.ofOption shapes[ai]?
    if O.isect (bound a) (bound shape) then return pairs ++ [(ai, shape_index)] else return pairs) pairs active
  return (pairs, active ++ [shape_index], v.addBound var (bound shape))

/-- `SweepAndPrune::find_collider_pairs`, `src/algorithm/broad_phase/sweep_prune.rs:76-136`: the pairs, the (resorted) shapes and the new
state. `sort_by` is the stable sort `List.mergeSort`; indexing an extent by an axis `≥ dim` panics (the comparator does so
first, whenever there are two shapes). -/
def Sap.findColliderPairs (O : SapBound B K) (v : VarOps σ B) (bound : A → B) (s : Sap σ) (shapes : List A) :
    Res (List (Nat × Nat) × List A × Sap σ) :=
  if shapes.length ≤ 1 then .ok ([], shapes, s)
  else if O.dim ≤ s.sweep_axis then .panic
  else do
    let shapes := shapes.mergeSort fun a b => sapLe O s.sweep_axis (bound a) (bound b)
    let var := v.clear s.variance
    let first ← Res.ofOption shapes[0]?
    let var := v.addBound var (bound first)
    let (pairs, _, var) ← forRes (sapStep O v bound s.sweep_axis shapes) ([], [0], var) (List.range' 1 (shapes.length - 1))
    return (pairs, shapes, ⟨v.axis var shapes.length, var⟩)

/-! ## The variances of the library -/

section
variable [Field K]
open Geom

/-- `Variance2`, `src/algorithm/broad_phase/sweep_prune.rs:172-223`. `add_bound` (199-206) calls `add_element_wise` on the
sums, which returns a new vector, and drops the result. `compute_axis` is 209-222; `NumCast` of the length is exact. -/
def variance2 (minE maxE : B → V2 K) : VarOps (V2 K × V2 K) B where
  init := (0, 0)
  clear _ := (0, 0)
  addBound s b :=
    let min_vec := minE b
    let max_vec := maxE b
    let sum := min_vec + max_vec
    let c : V2 K := ⟨sum.x / (1 + 1), sum.y / (1 + 1)⟩
    let (csum, csumsq) := s
    let _ : V2 K := csum + c
    let _ : V2 K := csumsq + ⟨c.x * c.x, c.y * c.y⟩
    (csum, csumsq)
  axis s n :=
    let (csum, csumsq) := s
    let square_n : V2 K := ⟨csum.x * csum.x / n, csum.y * csum.y / n⟩
    let variance := csumsq - square_n
    if variance.x < variance.y then 1 else 0

/-- `Variance3`, `src/algorithm/broad_phase/sweep_prune.rs:227-278` (same remark; the loop over axes 1, 2 is unrolled). -/
def variance3 (minE maxE : B → V3 K) : VarOps (V3 K × V3 K) B where
  init := (0, 0)
  clear _ := (0, 0)
  addBound s b :=
    let min_vec := minE b
    let max_vec := maxE b
    let sum := min_vec + max_vec
    let c : V3 K := ⟨sum.x / (1 + 1), sum.y / (1 + 1), sum.z / (1 + 1)⟩
    let (csum, csumsq) := s
    let _ : V3 K := csum + c
    let _ : V3 K := csumsq + ⟨c.x * c.x, c.y * c.y, c.z * c.z⟩
    (csum, csumsq)
  axis s n :=
    let (csum, csumsq) := s
    let square_n : V3 K := ⟨csum.x * csum.x / n, csum.y * csum.y / n, csum.z * csum.z / n⟩
    let variance := csumsq - square_n
    let (sweep_axis, sweep_variance) := if variance.x < variance.y then (1, variance.y) else (0, variance.x)
    if sweep_variance < variance.z then 2 else sweep_axis
end

/-! ## Tree accelerated -/

/-- Lexicographic `<` on pairs (`Ord` of Rust tuples). -/
def plt (p q : Nat × Nat) : Prop := p.1 < q.1 ∨ (p.1 = q.1 ∧ p.2 < q.2)
instance (p q : Nat × Nat) : Decidable (plt p q) := inferInstanceAs (Decidable (_ ∨ _))

/-- `if let Err(pos) = potentials.binary_search(&pair) { potentials.insert(pos, pair) }`,
`src/algorithm/broad_phase/dbvt.rs:57-59`. The contract of `binary_search` on a sorted vector: `Ok` if the pair is in it,
otherwise `Err` of the position before the first greater element. -/
def binaryInsert (l : List (Nat × Nat)) (p : Nat × Nat) : List (Nat × Nat) :=
  if p ∈ l then l
  else l.takeWhile (fun q => decide (plt q p)) ++ p :: l.dropWhile (fun q => decide (plt q p))

/-- `DbvtBroadPhase::find_collider_pairs`, `src/algorithm/broad_phase/dbvt.rs:27-64` -/
def dbvtPairs {V S : Type} (O : Ops V B S) (isect : B → B → Bool) (tree : Dbvt V B) (dirty : List Bool) :
    Res (List (Nat × Nat)) :=
  forRes (fun potentials (e : Nat × V) => do
    let shape_value_index ← Res.ofOption (← tree.valueIndex e.1)
    let d ← Res.ofOption dirty[shape_value_index]?
    if d then do
      let hits ← tree.queryForIndices O (discreteVisitor fun b => isect b (O.bound e.2)) ()
      forRes (fun potentials (hit : Nat × Unit) =>
        if shape_value_index = hit.1 then .ok potentials
        else if shape_value_index < hit.1 then .ok (binaryInsert potentials (shape_value_index, hit.1))
        else .ok (binaryInsert potentials (hit.1, shape_value_index))) potentials hits
    else return potentials) [] tree.values

end Verif.BroadPhase
