import Verif.Dbvt.Model
/-!
# Histories of API calls (specification vocabulary)

Everything a property about "any history of API calls" needs: the calls, their return values, the
executions of the model, and three functions of the *history alone* (not of the tree): the finite map
it denotes, the indices flagged since the last update, and the indices whose bound was changed behind
the tree's back.
-/
namespace Verif.Dbvt
open Verif

variable {V B S : Type}

/-- A call of the public mutating API of `DynamicBoundingVolumeTree` (`src/dbvt/mod.rs:405-835`).
`mutate vs` stands for: any writes through `values_mut()` (line 397), leaving the vector equal to
`vs`, followed by `reindex_values()` (line 405).  `rng` is the stream of random draws. -/
inductive Call (V : Type) where
  | insert (v : V)
  | remove (i : Nat)
  | updateNode (i : Nat) (v : V)
  | flagUpdated (i : Nat)
  | update
  | doRefit (rng : Nat → Nat)
  | tick (rng : Nat → Nat)
  | clear
  | mutate (vs : List (Nat × V))

/-- Return value of a call. -/
inductive Ret (V : Type) where
  | unit
  | idx (i : Nat)
  | removed (o : Option V)

/-- Run one call in the model; `fuel` bounds the iterations of the refit loop. -/
def call (O : Ops V B S) (fuel : Nat) (s : Dbvt V B) : Call V → Res (Ret V × Dbvt V B)
  | .insert v => do
    let (i, s') ← s.insert O v
    return (.idx i, s')
  | .remove i => do
    let (o, s') ← s.remove i
    return (.removed o, s')
  | .updateNode i v => do return (.unit, ← s.updateNode i v)
  | .flagUpdated i => .ok (.unit, s.flagUpdated i)
  | .update => do return (.unit, ← s.update O)
  | .doRefit rng => do return (.unit, ← s.doRefit O rng fuel)
  | .tick rng => do return (.unit, ← s.tick O rng fuel)
  | .clear => .ok (.unit, s.clear)
  | .mutate vs => do return (.unit, ← ({ s with values := vs }).reindexValues)

/-- The documented contract of `values_mut` (`src/dbvt/mod.rs:382-396`): the entries may be permuted
and values replaced, but the set of node indices must stay the same.  All other calls are allowed with
any argument. -/
def Call.Legal (s : Dbvt V B) : Call V → Prop
  | .mutate vs => (vs.map Prod.fst).Perm (s.values.map Prod.fst)
  | _ => True

/-- A history: calls with their return values, newest first. -/
abbrev Hist (V : Type) := List (Call V × Ret V)

/-- `Exec O h s`: starting from `new()`, the calls of `h` were executed, returned (without panic) the
recorded values, and left the tree in state `s`. -/
inductive Exec (O : Ops V B S) : Hist V → Dbvt V B → Prop
  | new : Exec O [] Dbvt.new
  | step {h s c r s'} (fuel : Nat) : Exec O h s → c.Legal s → call O fuel s c = .ok (r, s') →
      Exec O ((c, r) :: h) s'

/-- First binding of `i` in an association list. -/
def lookup (vs : List (Nat × V)) (i : Nat) : Option V := (vs.find? (fun e => e.1 == i)).map Prod.snd

/-- The finite map from node index to value that a history denotes. -/
def mapOf : Hist V → Nat → Option V
  | [], _ => none
  | (.insert v, .idx i) :: h, j => if j = i then some v else mapOf h j
  | (.remove i, _) :: h, j => if j = i then none else mapOf h j
  | (.updateNode i v, _) :: h, j => if j = i then (mapOf h i).map (fun _ => v) else mapOf h j
  | (.clear, _) :: _, _ => none
  | (.mutate vs, _) :: _, j => lookup vs j
  | _ :: h, j => mapOf h j

/-- Indices passed to `update_node` / `flag_updated` since the last `update` / `tick`, oldest first. -/
def pending : Hist V → List Nat
  | [] => []
  | (.updateNode i _, _) :: h => pending h ++ [i]
  | (.flagUpdated i, _) :: h => pending h ++ [i]
  | (.update, _) :: _ => []
  | (.tick _, _) :: _ => []
  | _ :: h => pending h

/-- `i`'s bound was changed through `values_mut` since the last `update` / `tick`. -/
def Stale (O : Ops V B S) : Hist V → Nat → Prop
  | [], _ => False
  | (.update, _) :: _, _ => False
  | (.tick _, _) :: _, _ => False
  | (.mutate vs, _) :: h, i => Stale O h i ∨
      ∃ v v', mapOf h i = some v ∧ lookup vs i = some v' ∧ O.bound v' ≠ O.bound v
  | _ :: h, i => Stale O h i

/-- The documented discipline: whenever `update` / `tick` runs, every index whose bound was changed
through `values_mut` has been flagged. (`update_node` flags by itself.) -/
def Disciplined (O : Ops V B S) : Hist V → Prop
  | [] => True
  | (.update, _) :: h => Disciplined O h ∧ ∀ i, Stale O h i → i ∈ pending h
  | (.tick _, _) :: h => Disciplined O h ∧ ∀ i, Stale O h i → i ∈ pending h
  | _ :: h => Disciplined O h

end Verif.Dbvt
