import Verif.Dbvt.Props
import Verif.Geom.RayBox
/-!
# Trees of boxes: C15 (ray queries), C59 (`TreeValueWrapped`)

The tree theorems are generic in the bounding volume; here they are instantiated with the modelled
`Aabb2`/`Aabb3`.  Values are required to have normalised bounds (2D) resp. bounds of positive extent (3D,
see `c31_flat_not_monotone`); this is expressed by the subtypes `Box2`/`Box3`, on which the modelled box
operations act.
-/
namespace Verif.Dbvt
open Verif Geom
set_option linter.unusedSectionVars false

variable {K : Type} [Field K] [LinearOrder K]

/-- Normalised 2D boxes. -/
def Box2 (K : Type) [Field K] [LinearOrder K] := { b : Aabb2 K // b.Valid }
/-- 3D boxes of positive extent. -/
def Box3 (K : Type) [Field K] [LinearOrder K] := { b : Aabb3 K // b.Pos }

theorem pos_of_contains {a b : Aabb3 K} (h : a.contains b = true) (hb : b.Pos) : a.Pos := by
  simp only [Aabb3.contains, Bool.and_eq_true, decide_eq_true_eq] at h
  obtain ⟨⟨⟨⟨⟨g1, g2⟩, g3⟩, g4⟩, g5⟩, g6⟩ := h
  exact ⟨(g1.trans_lt hb.1).trans_le g4, (g2.trans_lt hb.2.1).trans_le g5, (g3.trans_lt hb.2.2).trans_le g6⟩

theorem Aabb3_pos_valid {b : Aabb3 K} (h : b.Pos) : b.Valid := ⟨h.1.le, h.2.1.le, h.2.2.le⟩

/-- The trait methods the tree uses, for `Aabb2` bounds: the implementations modelled in
`Verif.Geom.Aabb` and the scalar operations. `bound`, `fat` are the user's `TreeValue` methods. -/
def boxOps2 {V : Type} (bound fat : V → Box2 K) (improvement : K) : Ops V (Box2 K) K where
  bound := bound
  fat := fat
  union a b := ⟨a.1.union b.1, (c25_union_contains2 _ _).1⟩
  contains a b := a.1.contains b.1
  area a := a.1.surfaceArea
  lt x y := x < y
  sub x y := x - y
  div x y := x / y
  improvement := improvement

/-- The trait methods the tree uses, for `Aabb3` bounds. -/
def boxOps3 {V : Type} (bound fat : V → Box3 K) (improvement : K) : Ops V (Box3 K) K where
  bound := bound
  fat := fat
  union a b := ⟨a.1.union b.1, pos_of_contains (c25_union_contains3 _ _).2.1 a.2⟩
  contains a b := a.1.contains b.1
  area a := a.1.surfaceArea
  lt x y := x < y
  sub x y := x - y
  div x y := x / y
  improvement := improvement

theorem encloses2 {V : Type} (bound fat : V → Box2 K) (im : K) :
    Encloses (boxOps2 bound fat im) (fun a b => a.1.contains b.1 = true) where
  trans := c26_order2.2.1 _ _ _
  union_left a b := (c25_union_contains2 a.1 b.1).2.1
  union_right a b := (c25_union_contains2 a.1 b.1).2.2
  contains h := h

theorem encloses3 {V : Type} (bound fat : V → Box3 K) (im : K) :
    Encloses (boxOps3 bound fat im) (fun a b => a.1.contains b.1 = true) where
  trans := c26_order3.2.1 _ _ _
  union_left a b := (c25_union_contains3 a.1 b.1).2.1
  union_right a b := (c25_union_contains3 a.1 b.1).2.2
  contains h := h

/-- `ContinuousVisitor::accept`, `src/dbvt/visitor.rs:48-50`; `isect` is `|b| b.intersection(self.bound)` -/
def continuousVisitor {B R : Type} (isect : B → Option R) : Visitor Unit B R := pureVisitor fun b _ => isect b

/-- `DiscreteVisitor::accept`, `src/dbvt/visitor.rs:87-93`; `isect` is `|b| b.intersects(self.bound)` -/
def discreteVisitor {B : Type} (isect : B → Bool) : Visitor Unit B Unit :=
  pureVisitor fun b _ => if isect b then some () else none

/-- `query_ray` for 2D boxes, `src/dbvt/util.rs:142-143` -/
def queryRay2 {V : Type} (O : Ops V (Box2 K) K) (s : Dbvt V (Box2 K)) (r : Ray2 K) : Res (List (V × V2 (Ext K))) :=
  s.query O (continuousVisitor fun b => r.intersectionAabb b.1) ()

/-- `query_ray` for 3D boxes, `src/dbvt/util.rs:142-143` -/
def queryRay3 {V : Type} (O : Ops V (Box3 K) K) (s : Dbvt V (Box3 K)) (nz : V3 Bool) (r : Ray3 K) :
    Res (List (V × V3 (Ext K))) :=
  s.query O (continuousVisitor fun b => r.intersectionAabb nz b.1) ()

variable [IsStrictOrderedRing K]

theorem valid_of_contains2 {a b : Aabb2 K} (h : a.contains b = true) (hb : b.Valid) : a.Valid := by
  simp only [Aabb2.contains, Bool.and_eq_true, decide_eq_true_eq] at h
  obtain ⟨⟨⟨g1, g2⟩, g3⟩, g4⟩ := h
  exact ⟨(g1.trans hb.1).trans g3, (g2.trans hb.2).trans g4⟩

theorem mono_ray2 (r : Ray2 K) (hd : r.direction ≠ 0) :
    MonoVisitor (fun (a b : Box2 K) => a.1.contains b.1 = true) (fun b _ => r.intersectionAabb b.1) := by
  intro big small h hs
  rw [Option.isSome_iff_ne_none] at hs ⊢
  rw [ne_eq, (c30_ray_aabb2 r _ small.2 hd).1, not_not] at hs
  rw [ne_eq, (c30_ray_aabb2 r _ big.2 hd).1, not_not]
  obtain ⟨t, ht⟩ := hs
  exact ⟨t, ht.mono h⟩

theorem mono_ray3 (nz : V3 Bool) (r : Ray3 K) (hd : r.direction ≠ 0) :
    MonoVisitor (fun (a b : Box3 K) => a.1.contains b.1 = true) (fun b _ => r.intersectionAabb nz b.1) := by
  intro big small h hs
  rw [Option.isSome_iff_ne_none] at hs ⊢
  rw [ne_eq, (c31_ray_aabb3 nz r _ (Aabb3_pos_valid small.2) hd (fun _ => small.2.1) (fun _ => small.2.2.1) (fun _ => small.2.2.2)).1, not_not] at hs
  rw [ne_eq, (c31_ray_aabb3 nz r _ (Aabb3_pos_valid big.2) hd (fun _ => big.2.1) (fun _ => big.2.2.1) (fun _ => big.2.2.2)).1, not_not]
  obtain ⟨t, ht⟩ := hs
  exact ⟨t, ht.mono h⟩

/-- C15 (2D): on a refitted, up-to-date tree (on which the traversal stack suffices, C11), `query_ray` returns (up to order)
the values whose bound the ray hits, each once, with the intersection point of that bound. -/
theorem c15_query_ray2 {V : Type} (bound fat : V → Box2 K) (im : K)
    (hfat : ∀ v, (fat v).1.contains (bound v).1 = true)
    {h : Hist V} {s : Dbvt V (Box2 K)} (he : Exec (boxOps2 bound fat im) h s)
    (hd : Disciplined (boxOps2 bound fat im) h) (hu : UpToDate (boxOps2 bound fat im) h)
    (hr : Refitted! h) {n : Nat} (hh : s.height = .ok n)
    (r : Ray2 K) (hdir : r.direction ≠ 0) :
    (∃ l, queryRay2 (boxOps2 bound fat im) s r = .ok l ∧
      l.Perm (s.values.filterMap fun e => (r.intersectionAabb (bound e.2).1).map fun p => (e.2, p)) ∧
      ∀ v, (∃ p, (v, p) ∈ l) ↔ v ∈ s.values.map Prod.snd ∧ ∃ t, r.Meets (bound v).1 t) ∨ (256 < n ∧ queryRay2 (boxOps2 bound fat im) s r = .panic) := by
  rcases c07_query (boxOps2 bound fat im) _ (encloses2 bound fat im) hfat _ (mono_ray2 r hdir) he hd hu hr hh with ⟨-, l, h1, h2⟩ | ⟨h1, -, h2⟩
  case inr => exact Or.inr ⟨h1, h2⟩
  refine Or.inl ⟨l, h1, h2, ?_⟩
  intro v
  have hs : ∀ v, (∃ p, r.intersectionAabb (bound v).1 = some p) ↔ ∃ t, r.Meets (bound v).1 t := by
    intro v
    rw [← Option.isSome_iff_exists, Option.isSome_iff_ne_none, ne_eq, (c30_ray_aabb2 r _ (bound v).2 hdir).1, not_not]
  constructor
  · rintro ⟨p, hp⟩
    have := h2.mem_iff.1 hp
    simp only [exactValues, List.mem_filterMap, Option.map_eq_some_iff, Prod.mk.injEq] at this
    obtain ⟨e, hm, q, hq, rfl, rfl⟩ := this
    exact ⟨List.mem_map.2 ⟨e, hm, rfl⟩, (hs _).1 ⟨q, hq⟩⟩
  · rintro ⟨hv, ht⟩
    obtain ⟨e, hm, rfl⟩ := List.mem_map.1 hv
    obtain ⟨p, hp⟩ := (hs e.2).2 ht
    refine ⟨p, h2.mem_iff.2 (List.mem_filterMap.2 ⟨e, hm, ?_⟩)⟩
    show Option.map _ (r.intersectionAabb (bound e.2).1) = _
    rw [hp]; rfl

/-- C15 (3D) -/
theorem c15_query_ray3 {V : Type} (bound fat : V → Box3 K) (im : K)
    (hfat : ∀ v, (fat v).1.contains (bound v).1 = true)
    {h : Hist V} {s : Dbvt V (Box3 K)} (he : Exec (boxOps3 bound fat im) h s)
    (hd : Disciplined (boxOps3 bound fat im) h) (hu : UpToDate (boxOps3 bound fat im) h)
    (hr : Refitted! h) {n : Nat} (hh : s.height = .ok n)
    (nz : V3 Bool) (r : Ray3 K) (hdir : r.direction ≠ 0) :
    (∃ l, queryRay3 (boxOps3 bound fat im) s nz r = .ok l ∧
      l.Perm (s.values.filterMap fun e => (r.intersectionAabb nz (bound e.2).1).map fun p => (e.2, p)) ∧
      ∀ v, (∃ p, (v, p) ∈ l) ↔ v ∈ s.values.map Prod.snd ∧ ∃ t, r.Meets (bound v).1 t) ∨ (256 < n ∧ queryRay3 (boxOps3 bound fat im) s nz r = .panic) := by
  rcases c07_query (boxOps3 bound fat im) _ (encloses3 bound fat im) hfat _ (mono_ray3 nz r hdir) he hd hu hr hh with ⟨-, l, h1, h2⟩ | ⟨h1, -, h2⟩
  case inr => exact Or.inr ⟨h1, h2⟩
  refine Or.inl ⟨l, h1, h2, ?_⟩
  intro v
  have hs : ∀ v, (∃ p, r.intersectionAabb nz (bound v).1 = some p) ↔ ∃ t, r.Meets (bound v).1 t := by
    intro v
    have hp := (bound v).2
    rw [← Option.isSome_iff_exists, Option.isSome_iff_ne_none, ne_eq,
      (c31_ray_aabb3 nz r _ (Aabb3_pos_valid hp) hdir (fun _ => hp.1) (fun _ => hp.2.1) (fun _ => hp.2.2)).1, not_not]
  constructor
  · rintro ⟨p, hp⟩
    have := h2.mem_iff.1 hp
    simp only [exactValues, List.mem_filterMap, Option.map_eq_some_iff, Prod.mk.injEq] at this
    obtain ⟨e, hm, q, hq, rfl, rfl⟩ := this
    exact ⟨List.mem_map.2 ⟨e, hm, rfl⟩, (hs _).1 ⟨q, hq⟩⟩
  · rintro ⟨hv, ht⟩
    obtain ⟨e, hm, rfl⟩ := List.mem_map.1 hv
    obtain ⟨p, hp⟩ := (hs e.2).2 ht
    refine ⟨p, h2.mem_iff.2 (List.mem_filterMap.2 ⟨e, hm, ?_⟩)⟩
    show Option.map _ (r.intersectionAabb nz (bound e.2).1) = _
    rw [hp]; rfl

end Verif.Dbvt
