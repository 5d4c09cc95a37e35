import Verif.Res
/-!
# Model of `src/dbvt/mod.rs`

Function-by-function model of `DynamicBoundingVolumeTree`.  `Vec` is `List`, `usize`/`u32` are `Nat`
(overflow is not modelled), `&mut self` functions return the new state, panics are `Res.panic`.
The bounding volume type `B`, its scalar type `S` and the value type `V` are arbitrary, and so are
all operations on them (`Ops`, no laws): theorems about this file hold for every implementation of
the Rust traits, including floats with NaN.
-/
namespace Verif.Dbvt
open Verif

/-- The trait methods the tree calls, without any law.
`src/dbvt/mod.rs:113-124` (`TreeValue::bound`, `get_bound_with_margin`), and the bounds of the impl
at `src/dbvt/mod.rs:322-325` (`Contains`, `Union`, `SurfaceArea`), scalar operations used at
`src/dbvt/mod.rs:652, 986, 1178`. `improvement` is `SURFACE_AREA_IMPROVEMENT_FOR_ROTATION` (line 107)
cast to the scalar type. -/
structure Ops (V B S : Type) where
  /-- `TreeValue::bound` -/
  bound : V → B
  /-- `TreeValue::get_bound_with_margin` -/
  fat : V → B
  /-- `Union::union` -/
  union : B → B → B
  /-- `Contains::contains` -/
  contains : B → B → Bool
  /-- `SurfaceArea::surface_area` -/
  area : B → S
  /-- scalar `<` -/
  lt : S → S → Bool
  /-- scalar `-` -/
  sub : S → S → S
  /-- scalar `/` -/
  div : S → S → S
  /-- `SURFACE_AREA_IMPROVEMENT_FOR_ROTATION` -/
  improvement : S

/-- `src/dbvt/mod.rs:298-304` -/
structure Branch (B : Type) where
  parent : Nat
  left : Nat
  right : Nat
  height : Nat
  bound : B
  deriving Repr, DecidableEq

/-- `src/dbvt/mod.rs:308-312` -/
structure Leaf (B : Type) where
  parent : Nat
  value : Nat
  bound : B
  deriving Repr, DecidableEq

/-- `src/dbvt/mod.rs:316-320` -/
inductive Node (B : Type) where
  | branch (b : Branch B)
  | leaf (l : Leaf B)
  | nil
  deriving Repr, DecidableEq

/-- `src/dbvt/mod.rs:241-251` -/
structure Dbvt (V B : Type) where
  nodes : List (Node B)
  values : List (Nat × V)
  free : List Nat
  updated : List Nat
  root : Nat
  refit : List (Nat × Nat)
  deriving Repr, DecidableEq

variable {V B S : Type}

/-- `new` / `Default::default`, `src/dbvt/mod.rs:257-267, 341-343` -/
def Dbvt.new : Dbvt V B :=
  { nodes := [.nil], values := [], free := [], updated := [], root := 0, refit := [] }

/-! ## Node helpers -/

/-- Mutation of `self.nodes[i]` in place; indexing out of range panics. -/
def modNode (ns : List (Node B)) (i : Nat) (f : Node B → Node B) : Res (List (Node B)) :=
  if i < ns.length then .ok (ns.modify i f) else .panic

/-- `if let Node::Leaf(ref mut leaf) = .. { leaf.value = k }`, `src/dbvt/mod.rs:407-409, 775-777` -/
def Node.setValue (k : Nat) : Node B → Node B
  | .leaf l => .leaf { l with value := k }
  | n => n

/-- `match .. { Branch(b) => b.parent = p, Leaf(l) => l.parent = p, Nil => () }`,
`src/dbvt/mod.rs:803-807, 1129-1139` -/
def Node.setParent (p : Nat) : Node B → Node B
  | .branch b => .branch { b with parent := p }
  | .leaf l => .leaf { l with parent := p }
  | .nil => .nil

/-- `if let Node::Leaf(ref mut n) = .. { n.parent = p }`, `src/dbvt/mod.rs:694-696` -/
def Node.setLeafParent (p : Nat) : Node B → Node B
  | .leaf l => .leaf { l with parent := p }
  | n => n

/-- `if let Node::Leaf(ref mut leaf) = .. { leaf.bound = b }`, `src/dbvt/mod.rs:588-590` -/
def Node.setLeafBound (bd : B) : Node B → Node B
  | .leaf l => .leaf { l with bound := bd }
  | n => n

/-- `if let Node::Branch(ref mut n) = .. { if n.left == a { n.left = b } else { n.right = b } }`,
`src/dbvt/mod.rs:702-708, 816-822, 1114-1128` -/
def Node.replaceChild (a b : Nat) : Node B → Node B
  | .branch br => if br.left = a then .branch { br with left := b }
                  else .branch { br with right := b }
  | n => n

/-- `if let Node::Branch(ref mut branch) = .. { branch.height = h; branch.bound = b }`,
`src/dbvt/mod.rs:934-937` -/
def Node.setHB (h : Nat) (bd : B) : Node B → Node B
  | .branch br => .branch { br with height := h, bound := bd }
  | n => n

/-- `get_left_index`, `src/dbvt/mod.rs:1253-1258` -/
def Node.getLeft : Node B → Res Nat
  | .branch b => .ok b.left
  | _ => .panic

/-- `get_right_index`, `src/dbvt/mod.rs:1261-1266` -/
def Node.getRight : Node B → Res Nat
  | .branch b => .ok b.right
  | _ => .panic

/-- `is_leaf`, `src/dbvt/mod.rs:1269-1271` -/
def Node.isLeaf : Node B → Bool
  | .leaf _ => true
  | _ => false

/-- `get_height`, `src/dbvt/mod.rs:1276-1282` -/
def Node.getHeight : Node B → Nat
  | .branch b => b.height
  | .leaf _ => 1
  | .nil => 0

/-- `get_bound` (panics on `Nil`), `src/dbvt/mod.rs:1287-1293` -/
def Node.getBound : Node B → Res B
  | .branch b => .ok b.bound
  | .leaf l => .ok l.bound
  | .nil => .panic

/-- `&self.nodes[i]` -/
def nodeAt (ns : List (Node B)) (i : Nat) : Res (Node B) := Res.ofOption ns[i]?

/-- `get_bound(&nodes[i])` -/
def boundAt (ns : List (Node B)) (i : Nat) : Res B := do (← nodeAt ns i).getBound

/-! ## Read-only API -/

/-- `size`, `src/dbvt/mod.rs:347-350` (natural subtraction; `c03_size` shows it never
truncates in a reachable state). -/
def Dbvt.size (s : Dbvt V B) : Nat := s.nodes.length - s.free.length - 1

/-- `height`, `src/dbvt/mod.rs:354-364` -/
def Dbvt.height (s : Dbvt V B) : Res Nat :=
  if s.values.isEmpty then .ok 0
  else do return (← nodeAt s.nodes s.root).getHeight

/-- `value_index`, `src/dbvt/mod.rs:426-431` -/
def Dbvt.valueIndex (s : Dbvt V B) (i : Nat) : Res (Option Nat) := do
  match ← nodeAt s.nodes i with
  | .leaf l => return some l.value
  | _ => return none

/-- A query visitor: `Visitor::accept(&mut self, bound, is_leaf)`, `src/dbvt/mod.rs:140-149`;
`σ` is the visitor's mutable state. -/
abbrev Visitor (σ B R : Type) := σ → B → Bool → Option R × σ

/-- The `while stack_pointer > 0` loop of `query_for_indices`, `src/dbvt/mod.rs:491-516`.
`stack` holds `stack[0..stack_pointer]` with the top first.  After the pop the stack pointer is
`rest.length`; the array has 256 slots, so writing slot `rest.length + 1` panics unless
`rest.length + 1 < 256` (writing slot `rest.length` cannot fail first without the second failing).
`acc` is the result vector. -/
def queryLoop (O : Ops V B S) (s : Dbvt V B) {σ R : Type} (vis : Visitor σ B R) :
    Nat → List Nat → List (Nat × R) → σ → Res (List (Nat × R) × σ)
  | _, [], acc, st => .ok (acc, st)
  | 0, _ :: _, _, _ => .timeout
  | fuel + 1, i :: rest, acc, st => do
    match ← nodeAt s.nodes i with
    | .leaf l =>
      let e ← Res.ofOption s.values[l.value]?
      match vis st (O.bound e.2) true with
      | (some r, st') => queryLoop O s vis fuel rest (acc ++ [(l.value, r)]) st'
      | (none, st') => queryLoop O s vis fuel rest acc st'
    | .branch b =>
      match vis st b.bound false with
      | (some _, st') =>
        if rest.length + 1 < 256 then
          queryLoop O s vis fuel (b.right :: b.left :: rest) acc st'
        else .panic
      | (none, st') => queryLoop O s vis fuel rest acc st'
    | .nil => queryLoop O s vis fuel rest acc st

/-- `query_for_indices`, `src/dbvt/mod.rs:483-518`.  Fuel `nodes.len()`: proved sufficient. -/
def Dbvt.queryForIndices (O : Ops V B S) (s : Dbvt V B) {σ R : Type} (vis : Visitor σ B R)
    (st : σ) : Res (List (Nat × R)) := do
  return (← queryLoop O s vis s.nodes.length [s.root] [] st).1

/-- `mapM` over a list in `Res` (explicit recursion). -/
def mapRes {α β : Type} (f : α → Res β) : List α → Res (List β)
  | [] => .ok []
  | a :: as => do
    let b ← f a
    let bs ← mapRes f as
    return b :: bs

/-- `query`, `src/dbvt/mod.rs:453-461` -/
def Dbvt.query (O : Ops V B S) (s : Dbvt V B) {σ R : Type} (vis : Visitor σ B R)
    (st : σ) : Res (List (V × R)) := do
  let l ← s.queryForIndices O vis st
  mapRes (fun (p : Nat × R) => do
    let e ← Res.ofOption s.values[p.1]?
    return (e.2, p.2)) l

/-! ## Mutating API -/

/-- The `for` loop of `reindex_values`, `src/dbvt/mod.rs:406-410`: entry `k` onwards. -/
def reindexLoop : List (Nat × V) → Nat → List (Node B) → Res (List (Node B))
  | [], _, ns => .ok ns
  | (i, _) :: rest, k, ns => do
    let ns' ← modNode ns i (Node.setValue k)
    reindexLoop rest (k + 1) ns'

/-- `reindex_values`, `src/dbvt/mod.rs:405-411` -/
def Dbvt.reindexValues (s : Dbvt V B) : Res (Dbvt V B) := do
  let ns ← reindexLoop s.values 0 s.nodes
  return { s with nodes := ns }

/-- `clear`, `src/dbvt/mod.rs:417-423`.  Note: `updated_list` is *not* cleared by the code. -/
def Dbvt.clear (s : Dbvt V B) : Dbvt V B :=
  { s with root := 0, nodes := [.nil], free := [], refit := [], values := [] }

/-- `flag_updated`, `src/dbvt/mod.rs:551-553` -/
def Dbvt.flagUpdated (s : Dbvt V B) (i : Nat) : Dbvt V B :=
  { s with updated := s.updated ++ [i] }

/-- `update_node`, `src/dbvt/mod.rs:535-540` -/
def Dbvt.updateNode (s : Dbvt V B) (i : Nat) (v : V) : Res (Dbvt V B) := do
  match ← nodeAt s.nodes i with
  | .leaf l =>
    if l.value < s.values.length then
      return ({ s with values := s.values.modify l.value (fun e => (e.1, v)) }).flagUpdated i
    else .panic
  | _ => return s.flagUpdated i

/-- Insertion into a sorted vector through `binary_search`, dropping an equal element:
`match v.binary_search(&x) { Ok(_) => (), Err(i) => v.insert(i, x) }`, `src/dbvt/mod.rs:887-890`.
`(u32, usize)` is ordered lexicographically. `binary_search` is modelled by its contract on sorted
slices; the invariant `RefitListOK` shows the slice is always strictly sorted. -/
def sortedInsert (x : Nat × Nat) : List (Nat × Nat) → List (Nat × Nat)
  | [] => [x]
  | y :: ys =>
    if x.1 < y.1 ∨ (x.1 = y.1 ∧ x.2 < y.2) then x :: y :: ys
    else if x = y then y :: ys
    else y :: sortedInsert x ys

/-- `match nodes[i] { Branch(b) => b.height, _ => 0 }`, `src/dbvt/mod.rs:881-884` -/
def Node.branchHeight : Node B → Nat
  | .branch b => b.height
  | _ => 0

/-- `mark_for_refit`, `src/dbvt/mod.rs:880-891` -/
def Dbvt.markForRefit (s : Dbvt V B) (i minHeight : Nat) : Res (Dbvt V B) := do
  let n ← nodeAt s.nodes i
  return { s with refit := sortedInsert (max n.branchHeight minHeight, i) s.refit }

/-- The closure of the `filter_map` in `update`, `src/dbvt/mod.rs:569-583`. -/
def updateEntry (O : Ops V B S) (s : Dbvt V B) (i : Nat) : Res (Option (Nat × Nat × B)) := do
  match ← nodeAt s.nodes i with
  | .leaf l =>
    let e ← Res.ofOption s.values[l.value]?
    if !(O.contains l.bound (O.bound e.2)) then
      return some (i, l.parent, O.fat e.2)
    else return none
  | _ => return none

/-- The `for` loop of `update`, `src/dbvt/mod.rs:587-592` -/
def updateLoop : List (Nat × Nat × B) → Dbvt V B → Res (Dbvt V B)
  | [], s => .ok s
  | (i, p, fb) :: rest, s => do
    let ns ← modNode s.nodes i (Node.setLeafBound fb)
    let s' ← ({ s with nodes := ns }).markForRefit p 2
    updateLoop rest s'

/-- `update`, `src/dbvt/mod.rs:565-595` -/
def Dbvt.update (O : Ops V B S) (s : Dbvt V B) : Res (Dbvt V B) := do
  let l ← mapRes (updateEntry O s) s.updated
  let s' ← updateLoop (l.filterMap id) s
  return { s' with updated := [] }

/-- `take_free`, `src/dbvt/mod.rs:857-865` -/
def Dbvt.takeFree (s : Dbvt V B) : Nat × Dbvt V B :=
  match s.free with
  | [] => (s.nodes.length, { s with nodes := s.nodes ++ [.nil] })
  | i :: rest => (i, { s with free := rest })

/-- `next_free`, `src/dbvt/mod.rs:851-853`: the tuple is evaluated left to right. -/
def Dbvt.nextFree (s : Dbvt V B) : (Nat × Nat) × Dbvt V B :=
  let (a, s1) := s.takeFree
  let (b, s2) := s1.takeFree
  ((a, b), s2)

/-- The search part of the `loop` in `insert`, `src/dbvt/mod.rs:658-692`: walk down from
`node_index` until a leaf (returned) or `Nil` (`none`) is met; ties go right (line 680). -/
def descend (O : Ops V B S) (ns : List (Node B)) (nb : B) : Nat → Nat → Res (Option (Nat × Leaf B))
  | 0, _ => .timeout
  | fuel + 1, i => do
    match ← nodeAt ns i with
    | .nil => return none
    | .leaf l => return some (i, l)
    | .branch b =>
      let lb ← boundAt ns b.left
      let rb ← boundAt ns b.right
      if O.lt (O.area (O.union lb nb)) (O.area (O.union rb nb)) then
        descend O ns nb fuel b.left
      else descend O ns nb fuel b.right

/-- `insert`, `src/dbvt/mod.rs:627-737`.  The branch of the `loop` that rewires the tree
(lines 690-722) runs exactly once, when the search has met a leaf. -/
def Dbvt.insert (O : Ops V B S) (s : Dbvt V B) (v : V) : Res (Nat × Dbvt V B) :=
  let fb := O.fat v
  let k := s.values.length
  if s.root = 0 then
    let i := s.nodes.length
    .ok (i, { s with
      root := i,
      nodes := s.nodes ++ [.leaf { parent := 0, value := k, bound := fb }],
      values := s.values ++ [(i, v)] })
  else
    let p := s.nextFree
    let nb := p.1.1
    let nl := p.1.2
    let s1 := p.2
    do
      match ← descend O s1.nodes fb (s1.nodes.length + 1) s.root with
      | none => return (nl, { s1 with values := s.values ++ [(nl, v)] })
      | some (li, l) =>
        let br : Branch B :=
          { parent := l.parent, left := li, right := nl, height := 2, bound := O.union l.bound fb }
        let ns1 ← modNode s1.nodes li (Node.setLeafParent nb)
        let ns2 ← if l.parent ≠ 0 then modNode ns1 l.parent (Node.replaceChild li nb) else .ok ns1
        let ns3 ← modNode ns2 nb (fun _ => .branch br)
        let ns4 ← modNode ns3 nl (fun _ => .leaf { parent := nb, value := k, bound := fb })
        let s2 : Dbvt V B := { s1 with
          nodes := ns4, values := s.values ++ [(nl, v)],
          root := if li = s.root then nb else s.root }
        if l.parent ≠ 0 then
          let s3 ← s2.markForRefit l.parent 3
          return (nl, s3)
        else return (nl, s2)

/-- `Vec::swap_remove`: the removed element and the vector with the last element moved into the
hole; panics when out of range. -/
def swapRemove {α : Type} (l : List α) (k : Nat) : Res (α × List α) :=
  match l[k]?, l.getLast? with
  | some x, some y => .ok (x, (l.set k y).dropLast)
  | _, _ => .panic

/-- Update of the leaf whose value was swapped into position `k`, `src/dbvt/mod.rs:773-778`. -/
def fixMoved (ns : List (Node B)) (vs : List (Nat × V)) (k : Nat) : Res (List (Node B)) :=
  match vs[k]? with
  | some e => modNode ns e.1 (Node.setValue k)
  | none => .ok ns

/-- `remove`, `src/dbvt/mod.rs:762-835` -/
def Dbvt.remove (s : Dbvt V B) (i : Nat) : Res (Option V × Dbvt V B) := do
  match ← nodeAt s.nodes i with
  | .leaf l =>
    let (e, vs) ← swapRemove s.values l.value
    let ns1 ← fixMoved s.nodes vs l.value
    let ns2 ← modNode ns1 i (fun _ => .nil)
    let s2 : Dbvt V B := { s with values := vs, nodes := ns2, free := s.free ++ [i] }
    if l.parent ≠ 0 then
      match ← nodeAt ns2 l.parent with
      | .branch b =>
        let sib := if b.left = i then b.right else b.left
        let ns3 ← modNode ns2 l.parent (fun _ => .nil)
        let ns4 ← modNode ns3 sib (Node.setParent b.parent)
        let s4 : Dbvt V B := { s2 with nodes := ns4, free := s2.free ++ [l.parent] }
        if b.parent = 0 then
          return (some e.2, { s4 with root := sib })
        else
          let ns5 ← modNode ns4 b.parent (Node.replaceChild l.parent sib)
          let s6 ← ({ s4 with nodes := ns5 }).markForRefit b.parent 0
          return (some e.2, s6)
      | _ => return (some e.2, s2)
    else return (some e.2, s2.clear)
  | _ => return (none, s)

/-! ## Refitting -/

/-- `recalculate_node`, `src/dbvt/mod.rs:913-940`, on the node vector. -/
def recalc (O : Ops V B S) (ns : List (Node B)) (i : Nat) :
    Res (Option (Nat × Nat) × List (Node B)) := do
  match ← nodeAt ns i with
  | .branch b =>
    let ln ← nodeAt ns b.left
    let lb ← ln.getBound
    let rn ← nodeAt ns b.right
    let rb ← rn.getBound
    let h := 1 + max ln.getHeight rn.getHeight
    let ns' ← modNode ns i (Node.setHB h (O.union lb rb))
    return (some (b.parent, h), ns')
  | _ => return (none, ns)

/-- `enum Rotation`, `src/dbvt/mod.rs:1089-1097` -/
inductive Rotation where
  | none
  | leftRightLeft
  | leftRightRight
  | rightLeftLeft
  | rightLeftRight
  | leftLeftRightLeft
  | leftLeftRightRight
  deriving Repr, DecidableEq

/-- `swap`, `src/dbvt/mod.rs:1107-1140` -/
def swapNodes (ns : List (Node B)) (ls rs lp rp : Nat) : Res (List (Node B)) := do
  let ns1 ← modNode ns lp (Node.replaceChild ls rs)
  let ns2 ← modNode ns1 rp (Node.replaceChild rs ls)
  let ns3 ← modNode ns2 ls (Node.setParent rp)
  modNode ns3 rs (Node.setParent lp)

/-- `sa`, `src/dbvt/mod.rs:1245-1250` -/
def sa (O : Ops V B S) (a b c : B) : S := O.area (O.union a (O.union b c))

/-- `if x < min_sa { rot = r; min_sa = x; }`, `src/dbvt/mod.rs:1178-1181` and five more times -/
def better (O : Ops V B S) (r : Rotation) (x : S) (cur : Rotation × S) : Rotation × S :=
  if O.lt x cur.2 then (r, x) else cur

/-- The bounds of the two children of branch `i`; panics when `i` is not a branch
(`match nodes[i] { Branch(..) => (..), _ => panic!() }`, `src/dbvt/mod.rs:1169-1175`). -/
def childBounds (ns : List (Node B)) (i : Nat) : Res (B × B) := do
  match ← nodeAt ns i with
  | .branch b =>
    let x ← boundAt ns b.left
    let y ← boundAt ns b.right
    return (x, y)
  | _ => .panic

/-- `get_best_rotation`, `src/dbvt/mod.rs:1145-1241` -/
def bestRotation (O : Ops V B S) (ns : List (Node B)) (li ri : Nat) (area : S)
    (lleaf rleaf : Bool) : Res (Rotation × S) := do
  let lb ← boundAt ns li
  let rb ← boundAt ns ri
  let c1 ← (
    if !rleaf then do
      let (rl, rr) ← childBounds ns ri
      let c := better O .leftRightLeft (sa O rl lb rr) (Rotation.none, area)
      let c := better O .leftRightRight (sa O rr lb rl) c
      if !lleaf then do
        let (ll, lr) ← childBounds ns li
        let c := better O .leftLeftRightLeft (sa O (O.union rl lr) ll rr) c
        pure (better O .leftLeftRightRight (sa O (O.union rr lr) rl ll) c)
      else pure c
    else pure (Rotation.none, area) : Res (Rotation × S))
  if !lleaf then do
    let (ll, lr) ← childBounds ns li
    let c := better O .rightLeftLeft (sa O ll rb lr) c1
    return better O .rightLeftRight (sa O lr rb ll) c
  else return c1

/-- `self.recalculate_node(i)` with the result dropped. -/
def recalc' (O : Ops V B S) (ns : List (Node B)) (i : Nat) : Res (List (Node B)) := do
  return (← recalc O ns i).2

/-- `get_left_index(&nodes[i])` / `get_right_index(&nodes[i])` -/
def leftOf (ns : List (Node B)) (i : Nat) : Res Nat := do (← nodeAt ns i).getLeft
/-- see `leftOf` -/
def rightOf (ns : List (Node B)) (i : Nat) : Res Nat := do (← nodeAt ns i).getRight

/-- The `match rot` of `rotate`, `src/dbvt/mod.rs:987-1080`; `li`, `ri` are the children of `i`. -/
def doRotation (O : Ops V B S) (ns : List (Node B)) (i li ri : Nat) :
    Rotation → Res (List (Node B))
  | .none => .ok ns
  | .leftRightLeft => do
    let x ← leftOf ns ri
    let ns ← swapNodes ns li x i ri
    let ns ← recalc' O ns ri
    recalc' O ns i
  | .leftRightRight => do
    let x ← rightOf ns ri
    let ns ← swapNodes ns li x i ri
    let ns ← recalc' O ns ri
    recalc' O ns i
  | .rightLeftLeft => do
    let x ← leftOf ns li
    let ns ← swapNodes ns x ri li i
    let ns ← recalc' O ns li
    recalc' O ns i
  | .rightLeftRight => do
    let x ← rightOf ns li
    let ns ← swapNodes ns x ri li i
    let ns ← recalc' O ns li
    recalc' O ns i
  | .leftLeftRightLeft => do
    let x ← leftOf ns li
    let y ← leftOf ns ri
    let ns ← swapNodes ns x y li ri
    let ns ← recalc' O ns li
    let ns ← recalc' O ns ri
    recalc' O ns i
  | .leftLeftRightRight => do
    let x ← leftOf ns li
    let y ← rightOf ns ri
    let ns ← swapNodes ns x y li ri
    let ns ← recalc' O ns li
    let ns ← recalc' O ns ri
    recalc' O ns i

/-- `rotate`, `src/dbvt/mod.rs:951-1085` (the returned parent index is never used). -/
def rotate (O : Ops V B S) (ns : List (Node B)) (i : Nat) : Res (List (Node B)) := do
  match ← nodeAt ns i with
  | .branch b =>
    let my := O.area b.bound
    let lleaf := (← nodeAt ns b.left).isLeaf
    let rleaf := (← nodeAt ns b.right).isLeaf
    if !lleaf || !rleaf then
      let (rot, minSa) ← bestRotation O ns b.left b.right my lleaf rleaf
      if O.lt O.improvement (O.div (O.sub my minSa) my) then
        doRotation O ns i b.left b.right rot
      else return ns
    else return ns
  | _ => return ns

/-- `if let Some((parent_index, height)) = .. { if parent_index != 0 { mark_for_refit(..) } }`,
`src/dbvt/mod.rs:898-902` -/
def Dbvt.markParent (s : Dbvt V B) : Option (Nat × Nat) → Res (Dbvt V B)
  | some (p, h) => if p ≠ 0 then s.markForRefit p (h + 1) else .ok s
  | none => .ok s

/-- `refit_node`, `src/dbvt/mod.rs:897-909`; `draw` is the result of `gen_range(0..100)`,
`PERFORM_ROTATION_PERCENTAGE = 10` (line 108). -/
def Dbvt.refitNode (O : Ops V B S) (draw : Nat) (s : Dbvt V B) (i : Nat) : Res (Dbvt V B) := do
  let (o, ns) ← recalc O s.nodes i
  let s1 := { s with nodes := ns }
  let s2 ← s1.markParent o
  if draw < 10 then
    let ns' ← rotate O s2.nodes i
    return { s2 with nodes := ns' }
  else return s2

/-- `do_refit`, `src/dbvt/mod.rs:842-847`; `rng n` is the n-th random draw, fuel bounds the number
of iterations of the `while` loop. -/
def Dbvt.doRefit (O : Ops V B S) : (Nat → Nat) → Nat → Dbvt V B → Res (Dbvt V B)
  | rng, fuel, s =>
    match s.refit with
    | [] => .ok s
    | (_, i) :: rest =>
      match fuel with
      | 0 => .timeout
      | fuel + 1 => do
        let s' ← ({ s with refit := rest }).refitNode O (rng 0) i
        Dbvt.doRefit O (fun n => rng (n + 1)) fuel s'

/-- `tick`, `src/dbvt/mod.rs:601-604` -/
def Dbvt.tick (O : Ops V B S) (rng : Nat → Nat) (fuel : Nat) (s : Dbvt V B) : Res (Dbvt V B) := do
  let s' ← s.update O
  s'.doRefit O rng fuel

end Verif.Dbvt
