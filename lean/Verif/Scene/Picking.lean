import Verif.Scene.Pipeline
import Verif.Dbvt.BoxTree
import Verif.Primitive.EnumRay
/-!
# Picking: the first shape of a scene on a ray (C100)

The values of a tree are primitives with placements, their bounds are the boxes of the placed primitives. `query_ray` gives the candidates, the ray test of the primitives
(`intersection_transformed`) is run on them, and the nearest point is kept. The result is the first shape of the whole scene on the ray.
-/
namespace Verif.Scene
open Verif Geom Primitive Minkowski BroadPhase Dbvt
set_option linter.unusedSectionVars false
noncomputable section

open Classical in
/-- What a caller does with the candidates of `query_ray` (`src/dbvt/util.rs:142-143`): run the exact ray test on each of them and keep the nearest point; `far` measures the distance of a point from
the origin of the ray. Of equally near points the first stays. -/
def nearest {V P : Type} (test : V → Res (Option P)) (far : P → ℝ) : List V → Res (Option (V × P))
  | [] => pure none
  | v :: vs => do
    let o ← test v
    let rest ← nearest test far vs
    match o with
    | none => pure rest
    | some p =>
      match rest with
      | none => pure (some (v, p))
      | some (w, q) => if far q < far p then pure (some (w, q)) else pure (some (v, p))

theorem nearest_spec {V P : Type} (test : V → Res (Option P)) (far : P → ℝ) (f : V → Option P) : ∀ vs : List V, (∀ v ∈ vs, test v = .ok (f v)) →
    ∃ o, nearest test far vs = .ok o ∧ (o = none ↔ ∀ v ∈ vs, f v = none) ∧
      ∀ v p, o = some (v, p) → v ∈ vs ∧ f v = some p ∧ ∀ w ∈ vs, ∀ q, f w = some q → far p ≤ far q
  | [], _ => ⟨none, rfl, by simp, by simp⟩
  | v :: vs, h => by
    obtain ⟨o, h1, h2, h3⟩ := nearest_spec test far f vs fun w hw => h w (List.mem_cons_of_mem _ hw)
    unfold nearest
    rw [h v List.mem_cons_self, Res.bind_ok, h1, Res.bind_ok]
    cases hv : f v with
    | none =>
      refine ⟨o, rfl, ?_, ?_⟩
      · rw [h2, List.forall_mem_cons]; simp [hv]
      · intro w p hw
        obtain ⟨g1, g2, g3⟩ := h3 w p hw
        refine ⟨List.mem_cons_of_mem _ g1, g2, ?_⟩
        rw [List.forall_mem_cons]
        exact ⟨fun q hq => (by rw [hv] at hq; cases hq), g3⟩
    | some p =>
      cases o with
      | none =>
        refine ⟨some (v, p), rfl, ?_, ?_⟩
        · simp [hv]
        · intro w q hw
          cases hw
          refine ⟨List.mem_cons_self, hv, ?_⟩
          rw [List.forall_mem_cons]
          exact ⟨fun q hq => (by rw [hv] at hq; cases hq; exact le_rfl), fun w hw q hq => by rw [h2.1 rfl w hw] at hq; cases hq⟩
      | some x =>
        obtain ⟨w, q⟩ := x
        obtain ⟨g1, g2, g3⟩ := h3 w q rfl
        dsimp only
        by_cases hlt : far q < far p
        · rw [if_pos hlt]
          refine ⟨some (w, q), rfl, by simp [hv], ?_⟩
          intro w' q' hw
          cases hw
          refine ⟨List.mem_cons_of_mem _ g1, g2, ?_⟩
          rw [List.forall_mem_cons]
          exact ⟨fun q' hq => (by rw [hv] at hq; cases hq; exact hlt.le), g3⟩
        · rw [if_neg hlt]
          refine ⟨some (v, p), rfl, by simp [hv], ?_⟩
          intro w' q' hw
          cases hw
          refine ⟨List.mem_cons_self, hv, ?_⟩
          rw [List.forall_mem_cons]
          exact ⟨fun q' hq => (by rw [hv] at hq; cases hq; exact le_rfl), fun w' hw' q' hq => le_trans (not_lt.1 hlt) (g3 w' hw' q' hq)⟩

/-- The ray does not run along a side of the box: if it is parallel to an axis, it is not on the lines of the two sides of that direction. (Along its sides a box is not hit: C30.) -/
def OffSides2 (r : Ray2 ℝ) (b : Aabb2 ℝ) : Prop :=
  (r.direction.x = 0 → r.origin.x ≠ b.min.x ∧ r.origin.x ≠ b.max.x) ∧ (r.direction.y = 0 → r.origin.y ≠ b.min.y ∧ r.origin.y ≠ b.max.y)
/-- 3D, see `OffSides2`. -/
def OffSides3 (r : Ray3 ℝ) (b : Aabb3 ℝ) : Prop :=
  (r.direction.x = 0 → r.origin.x ≠ b.min.x ∧ r.origin.x ≠ b.max.x) ∧ (r.direction.y = 0 → r.origin.y ≠ b.min.y ∧ r.origin.y ≠ b.max.y) ∧
    (r.direction.z = 0 → r.origin.z ≠ b.min.z ∧ r.origin.z ≠ b.max.z)

theorem meets_of2 {r : Ray2 ℝ} {b : Aabb2 ℝ} {t : ℝ} (h0 : 0 ≤ t) (hm : b.Mem (r.at t)) (ho : OffSides2 r b) : r.Meets b t := by
  obtain ⟨⟨a1, a2⟩, a3, a4⟩ := id hm
  refine ⟨h0, hm, fun hx => ?_, fun hy => ?_⟩
  · simp only [Ray2.at, V2.add_x, V2.mul_x, hx, zero_mul, add_zero] at a1 a2
    exact ⟨lt_of_le_of_ne a1 (ho.1 hx).1.symm, lt_of_le_of_ne a2 (ho.1 hx).2⟩
  · simp only [Ray2.at, V2.add_y, V2.mul_y, hy, zero_mul, add_zero] at a3 a4
    exact ⟨lt_of_le_of_ne a3 (ho.2 hy).1.symm, lt_of_le_of_ne a4 (ho.2 hy).2⟩

theorem meets_of3 {r : Ray3 ℝ} {b : Aabb3 ℝ} {t : ℝ} (h0 : 0 ≤ t) (hm : b.Mem (r.at t)) (ho : OffSides3 r b) : r.Meets b t := by
  obtain ⟨⟨a1, a2⟩, ⟨a3, a4⟩, a5, a6⟩ := id hm
  refine ⟨h0, hm, fun hx => ?_, fun hy => ?_, fun hz => ?_⟩
  · simp only [Ray3.at, V3.add_x, V3.mul_x, hx, zero_mul, add_zero] at a1 a2
    exact ⟨lt_of_le_of_ne a1 (ho.1 hx).1.symm, lt_of_le_of_ne a2 (ho.1 hx).2⟩
  · simp only [Ray3.at, V3.add_y, V3.mul_y, hy, zero_mul, add_zero] at a3 a4
    exact ⟨lt_of_le_of_ne a3 (ho.2.1 hy).1.symm, lt_of_le_of_ne a4 (ho.2.1 hy).2⟩
  · simp only [Ray3.at, V3.add_z, V3.mul_z, hz, zero_mul, add_zero] at a5 a6
    exact ⟨lt_of_le_of_ne a5 (ho.2.2 hz).1.symm, lt_of_le_of_ne a6 (ho.2.2 hz).2⟩

/-- An item whose ray tests are right (C75): a primitive as its constructor makes it, turned and moved. -/
def Item2.Castable (a : Item2) : Prop := a.1.Ok ∧ a.1.RayOk ∧ a.2.rot.Orthogonal ∧ a.2.scale = 1

/-- Picking in 2D: `query_ray` on the tree, then the ray test of the primitives (`src/primitive/primitive2.rs:138-155`), the nearest point wins. -/
def pick2 {V : Type} (item : V → Item2) (O : Ops V (Box2 ℝ) ℝ) (s : Dbvt V (Box2 ℝ)) (r : Ray2 ℝ) : Res (Option (V × V2 ℝ)) := do
  let l ← queryRay2 O s r
  nearest (fun v => (item v).1.intersectionTransformed r (item v).2.tr) (fun p => (p - r.origin).norm) (l.map Prod.fst)

theorem worldBox2_valid (a : Item2) : (worldBox2 a).Valid := by
  have h := (c28_transform2 a.1.bound a.2.tr.point).2.1 a.1.bound.min (by simp [Aabb2.toCorners])
  exact ⟨le_trans h.1.1 h.1.2, le_trans h.2.1 h.2.2⟩

theorem far_at2 (r : Ray2 ℝ) (hd : r.direction.norm = 1) {t : ℝ} (ht : 0 ≤ t) : (r.at t - r.origin).norm = t := by
  have : r.at t - r.origin = r.direction * t := by ext <;> simp [Ray2.at]
  rw [this, V2.norm_smul, hd, one_mul, abs_of_nonneg ht]

theorem far_at3 (r : Ray3 ℝ) (hd : r.direction.norm = 1) {t : ℝ} (ht : 0 ≤ t) : (r.at t - r.origin).norm = t := by
  have : r.at t - r.origin = r.direction * t := by ext <;> simp [Ray3.at]
  rw [this, V3.norm_smul, hd, one_mul, abs_of_nonneg ht]

theorem seen_points2 {a : Prim2} {p : V2 ℝ} (h : a.Seen p) : a.Points p := by
  cases a with
  | rectangle s => exact ⟨⟨h.1.1.le, h.1.2.le⟩, h.2.1.le, h.2.2.le⟩
  | square s => exact ⟨⟨h.1.1.le, h.1.2.le⟩, h.2.1.le, h.2.2.le⟩
  | polygon s => exact absurd h id
  | particle => exact h
  | line s => exact h
  | circle s => exact h

/-- What picking owes its caller. `o` is the answer; `at_` the points of the shapes, `seen` the points that the ray test of a shape must not miss, `own` the answer of the ray test of a shape, `off` says that
the ray does not run along a side of the bounding box. -/
structure Picked2 {V : Type} (r : Ray2 ℝ) (vs : List V) (at_ seen : V → V2 ℝ → Prop) (own : V → Res (Option (V2 ℝ))) (off : V → Prop) (o : Option (V × V2 ℝ)) : Prop where
  /-- the answer is a shape of the scene and its first point on the ray -/
  hit : ∀ v q, o = some (v, q) → v ∈ vs ∧ ∃ t, r.First (at_ v) t ∧ q = r.at t
  /-- no shape is met earlier -/
  first : ∀ v t, o = some (v, r.at t) → 0 ≤ t → ∀ w ∈ vs, off w → ∀ u, 0 ≤ u → seen w (r.at u) → t ≤ u
  /-- no shape is reported earlier by its own ray test: the tree loses nothing that going through all shapes would find -/
  best : ∀ v q, o = some (v, q) → ∀ w ∈ vs, off w → ∀ p, own w = .ok (some p) → (q - r.origin).norm ≤ (p - r.origin).norm
  /-- no answer: no shape is met -/
  none_seen : o = none → ∀ w ∈ vs, off w → ∀ u, 0 ≤ u → ¬ seen w (r.at u)
  /-- no answer: no shape reports a point -/
  none_own : o = none → ∀ w ∈ vs, off w → own w = .ok none

/-- **C100 (2D).** Picking through a tree of at most 256 levels finds the first shape of the scene on the ray. (Up to the outline of rectangles, the polygons, whose test forgets an edge
(C49), and boxes that the ray only grazes.) -/
theorem c100_pick2 {V : Type} (item : V → Item2) (bound fat : V → Box2 ℝ) (im : ℝ) (hb : ∀ v, (bound v).1 = worldBox2 (item v)) (hfat : ∀ v, (fat v).1.contains (bound v).1 = true)
    {h : Hist V} {s : Dbvt V (Box2 ℝ)} (he : Exec (boxOps2 bound fat im) h s) (hdi : Disciplined (boxOps2 bound fat im) h) (hu : UpToDate (boxOps2 bound fat im) h)
    (hr : Refitted! h) {n : Nat} (hh : s.height = .ok n) (hn : n ≤ 256) (r : Ray2 ℝ) (hd : r.direction.norm = 1)
    (hok : ∀ v ∈ s.values.map Prod.snd, (item v).Castable ∧ ¬ (item v).At r.origin) :
    ∃ o, pick2 item (boxOps2 bound fat im) s r = .ok o ∧ Picked2 r (s.values.map Prod.snd) (fun v => (item v).At) (fun v => Image (item v).2.tr (item v).1.Seen)
      (fun v => (item v).1.intersectionTransformed r (item v).2.tr) (fun v => OffSides2 r (worldBox2 (item v))) o := by
  have hd0 : r.direction ≠ 0 := by intro h0; rw [h0] at hd; simp [V2.norm, V2.dot] at hd
  rcases c15_query_ray2 bound fat im hfat he hdi hu hr hh r hd0 with ⟨l, q1, -, q2⟩ | ⟨hx, -⟩
  case inr => omega
  -- the exact answer of each item
  have hf : ∀ v, ∃ o, v ∈ s.values.map Prod.snd → (item v).1.intersectionTransformed r (item v).2.tr = .ok o ∧
      (∀ q, o = some q → ∃ t, r.First (item v).At t ∧ q = r.at t) ∧ ((∃ t, 0 ≤ t ∧ Image (item v).2.tr (item v).1.Seen (r.at t)) → o.isSome) := by
    intro v
    by_cases hv : v ∈ s.values.map Prod.snd
    · obtain ⟨⟨g1, g2, g3, g4⟩, g5⟩ := hok v hv
      obtain ⟨o, o1, -, o2, o3⟩ := c75_primitive2 (item v).1 g2 (item v).2 g3 g4 r hd g5
      exact ⟨o, fun _ => ⟨o1, o2, o3⟩⟩
    · exact ⟨none, fun hx => absurd hx hv⟩
  choose f hf using hf
  have hsub : ∀ v ∈ l.map Prod.fst, v ∈ s.values.map Prod.snd := by
    intro v hv
    obtain ⟨⟨w, p⟩, hm, rfl⟩ := List.mem_map.1 hv
    exact ((q2 w).1 ⟨p, hm⟩).1
  -- what is reported is a candidate
  have hcand : ∀ w ∈ s.values.map Prod.snd, OffSides2 r (worldBox2 (item w)) → ∀ q, f w = some q → w ∈ l.map Prod.fst := by
    intro w hw hoff q hq
    obtain ⟨-, f2, -⟩ := hf w hw
    obtain ⟨t, ht, rfl⟩ := f2 q hq
    have hm : (bound w).1.Mem (r.at t) := by rw [hb]; exact worldBox2_mem (hok w hw).1.1 ht.2.1
    obtain ⟨p, hp⟩ := (q2 w).2 ⟨hw, t, meets_of2 ht.1 hm (by rw [hb]; exact hoff)⟩
    exact List.mem_map.2 ⟨_, hp, rfl⟩
  have hseen : ∀ w ∈ s.values.map Prod.snd, ∀ u, 0 ≤ u → Image (item w).2.tr (item w).1.Seen (r.at u) → ∃ t q, f w = some q ∧ 0 ≤ t ∧ t ≤ u ∧ q = r.at t := by
    intro w hw u h0 hs
    obtain ⟨-, f2, f3⟩ := hf w hw
    obtain ⟨q, hq⟩ := Option.isSome_iff_exists.1 (f3 ⟨u, h0, hs⟩)
    obtain ⟨t, ht, rfl⟩ := f2 q hq
    refine ⟨t, _, hq, ht.1, ht.2.2 u h0 ?_, rfl⟩
    obtain ⟨p, hp, e⟩ := hs
    exact ⟨p, seen_points2 hp, e⟩
  obtain ⟨o, o1, o2, o3⟩ := nearest_spec (fun v => (item v).1.intersectionTransformed r (item v).2.tr) (fun p => (p - r.origin).norm) f (l.map Prod.fst)
    fun v hv => (hf v (hsub v hv)).1
  have hbest : ∀ v q, o = some (v, q) → ∀ w ∈ s.values.map Prod.snd, OffSides2 r (worldBox2 (item w)) → ∀ p, f w = some p → (q - r.origin).norm ≤ (p - r.origin).norm :=
    fun v q hvq w hw hoff p hp => (o3 v q hvq).2.2 w (hcand w hw hoff p hp) p hp
  have hnone : o = none → ∀ w ∈ s.values.map Prod.snd, OffSides2 r (worldBox2 (item w)) → f w = none := by
    intro hn w hw hoff
    cases hq : f w with
    | none => rfl
    | some q =>
      have := o2.1 hn w (hcand w hw hoff q hq)
      rw [this] at hq; cases hq
  refine ⟨o, by simp only [pick2, q1, Res.bind_ok]; exact o1, ?_, ?_, ?_, ?_, ?_⟩
  · intro v q hvq
    obtain ⟨g1, g2, -⟩ := o3 v q hvq
    exact ⟨hsub v g1, (hf v (hsub v g1)).2.1 q g2⟩
  · intro v t hvt t0 w hw hoff u h0 hs
    obtain ⟨t', p, k1, k2, k3, rfl⟩ := hseen w hw u h0 hs
    have := hbest v _ hvt w hw hoff _ k1
    rw [far_at2 r hd t0, far_at2 r hd k2] at this
    exact le_trans this k3
  · intro v q hvq w hw hoff p hp
    refine hbest v q hvq w hw hoff p ?_
    have := (hf w hw).1
    rw [hp] at this; injection this with this; exact this.symm
  · intro hn w hw hoff u h0 hs
    obtain ⟨t', p, k1, -⟩ := hseen w hw u h0 hs
    rw [hnone hn w hw hoff] at k1; cases k1
  · intro hn w hw hoff
    rw [(hf w hw).1, hnone hn w hw hoff]

/-- C100 on trees that exist: at most 256 items, inserted one after the other and refitted, for every random stream; they need only be castable and not contain the origin of the ray. -/
theorem c100_built2 (items : List Item2) (hlen : items.length ≤ 256) (im : ℝ) (rng : Nat → Nat) (r : Ray2 ℝ) (hd : r.direction.norm = 1) (hok : ∀ a ∈ items, a.Castable ∧ ¬ a.At r.origin) :
    ∃ (s : Dbvt Item2 (Box2 ℝ)) (o : Option (Item2 × V2 ℝ)), s.values.map Prod.snd = items ∧
      pick2 id (boxOps2 (fun a => ⟨worldBox2 a, worldBox2_valid a⟩) (fun a => ⟨worldBox2 a, worldBox2_valid a⟩) im) s r = .ok o ∧
      Picked2 r items Item2.At (fun a => Image a.2.tr a.1.Seen) (fun a => a.1.intersectionTransformed r a.2.tr) (fun a => OffSides2 r (worldBox2 a)) o := by
  obtain ⟨h, s, he, hdi, hu, hr, hv⟩ := build_tree (boxOps2 (fun a => ⟨worldBox2 a, worldBox2_valid a⟩) (fun a => ⟨worldBox2 a, worldBox2_valid a⟩) im) items rng
  obtain ⟨n, hh, -, -, hn, -⟩ := c04_height _ he hr
  have hl : s.values.length = items.length := by rw [← hv, List.length_map]
  obtain ⟨o, o1, o2⟩ := c100_pick2 id _ _ im (fun _ => rfl) (fun v => c26_order2.1 _) he hdi hu hr hh (by omega) r hd (by rw [hv]; exact hok)
  rw [hv] at o2
  exact ⟨s, o, hv, o1, o2⟩

/-! ## 3D -/

theorem seen_points3 {a : Prim3} {p : V3 ℝ} (h : a.Seen p) : a.Points p := by
  cases a with
  | quad s => exact ⟨⟨h.1.1.le, h.1.2.le⟩, ⟨h.2.1.1.le, h.2.1.2.le⟩, h.2.2⟩
  | cuboid s => exact ⟨⟨h.1.1.le, h.1.2.le⟩, ⟨h.2.1.1.le, h.2.1.2.le⟩, h.2.2.1.le, h.2.2.2.le⟩
  | cube s => exact ⟨⟨h.1.1.le, h.1.2.le⟩, ⟨h.2.1.1.le, h.2.1.2.le⟩, h.2.2.1.le, h.2.2.2.le⟩
  | particle => exact h
  | sphere s => exact h
  | cylinder s => exact h
  | capsule s => exact h
  | polyhedron s => exact h

/-- An item whose ray tests are right (C75): a primitive as its constructor makes it, turned and moved. -/
def Item3.Castable (a : Item3) : Prop := a.1.Ok ∧ a.1.RayOk ∧ a.2.rot.Orthogonal ∧ a.2.scale = 1

/-- Picking in 3D: `query_ray` on the tree, then the ray test of the primitives (`src/primitive/primitive3.rs:210-228`), the nearest point wins. -/
def pick3 {V : Type} (item : V → Item3) (O : Ops V (Box3 ℝ) ℝ) (s : Dbvt V (Box3 ℝ)) (nz : V3 Bool) (r : Ray3 ℝ) : Res (Option (V × V3 ℝ)) := do
  let l ← queryRay3 O s nz r
  nearest (fun v => (item v).1.intersectionTransformed nz r (item v).2.tr) (fun p => (p - r.origin).norm) (l.map Prod.fst)

/-- What picking owes its caller. `o` is the answer; `at_` the points of the shapes, `seen` the points that the ray test of a shape must not miss, `own` the answer of the ray test of a shape, `off` says that
the ray does not run along a side of the bounding box. -/
structure Picked3 {V : Type} (r : Ray3 ℝ) (vs : List V) (at_ seen : V → V3 ℝ → Prop) (own : V → Res (Option (V3 ℝ))) (off : V → Prop) (o : Option (V × V3 ℝ)) : Prop where
  /-- the answer is a shape of the scene and its first point on the ray -/
  hit : ∀ v q, o = some (v, q) → v ∈ vs ∧ ∃ t, r.First (at_ v) t ∧ q = r.at t
  /-- no shape is met earlier -/
  first : ∀ v t, o = some (v, r.at t) → 0 ≤ t → ∀ w ∈ vs, off w → ∀ u, 0 ≤ u → seen w (r.at u) → t ≤ u
  /-- no shape is reported earlier by its own ray test: the tree loses nothing that going through all shapes would find -/
  best : ∀ v q, o = some (v, q) → ∀ w ∈ vs, off w → ∀ p, own w = .ok (some p) → (q - r.origin).norm ≤ (p - r.origin).norm
  /-- no answer: no shape is met -/
  none_seen : o = none → ∀ w ∈ vs, off w → ∀ u, 0 ≤ u → ¬ seen w (r.at u)
  /-- no answer: no shape reports a point -/
  none_own : o = none → ∀ w ∈ vs, off w → own w = .ok none

/-- **C100 (3D).** Picking through a tree of at most 256 levels finds the first shape of the scene on the ray. Boxes of positive extent
(for flat ones the query itself is wrong, C15); not cylinders and capsules (C72, C74); up to the outline of boxes and boxes that the ray only grazes. -/
theorem c100_pick3 {V : Type} (item : V → Item3) (bound fat : V → Box3 ℝ) (im : ℝ) (hb : ∀ v, (bound v).1 = worldBox3 (item v)) (hfat : ∀ v, (fat v).1.contains (bound v).1 = true)
    {h : Hist V} {s : Dbvt V (Box3 ℝ)} (he : Exec (boxOps3 bound fat im) h s) (hdi : Disciplined (boxOps3 bound fat im) h) (hu : UpToDate (boxOps3 bound fat im) h)
    (hr : Refitted! h) {n : Nat} (hh : s.height = .ok n) (hn : n ≤ 256) (nz : V3 Bool) (r : Ray3 ℝ) (hd : r.direction.norm = 1)
    (hok : ∀ v ∈ s.values.map Prod.snd, (item v).Castable ∧ ¬ (item v).At r.origin) :
    ∃ o, pick3 item (boxOps3 bound fat im) s nz r = .ok o ∧ Picked3 r (s.values.map Prod.snd) (fun v => (item v).At) (fun v => Image (item v).2.tr (item v).1.Seen)
      (fun v => (item v).1.intersectionTransformed nz r (item v).2.tr) (fun v => OffSides3 r (worldBox3 (item v))) o := by
  have hd0 : r.direction ≠ 0 := by intro h0; rw [h0] at hd; simp [V3.norm, V3.dot] at hd
  rcases c15_query_ray3 bound fat im hfat he hdi hu hr hh nz r hd0 with ⟨l, q1, -, q2⟩ | ⟨hx, -⟩
  case inr => omega
  -- the exact answer of each item
  have hf : ∀ v, ∃ o, v ∈ s.values.map Prod.snd → (item v).1.intersectionTransformed nz r (item v).2.tr = .ok o ∧
      (∀ q, o = some q → ∃ t, r.First (item v).At t ∧ q = r.at t) ∧ ((∃ t, 0 ≤ t ∧ Image (item v).2.tr (item v).1.Seen (r.at t)) → o.isSome) := by
    intro v
    by_cases hv : v ∈ s.values.map Prod.snd
    · obtain ⟨⟨g1, g2, g3, g4⟩, g5⟩ := hok v hv
      obtain ⟨o, o1, -, o2, o3⟩ := c75_primitive3_partial (item v).1 g2 nz (item v).2 g3 g4 r hd g5
      exact ⟨o, fun _ => ⟨o1, o2, o3⟩⟩
    · exact ⟨none, fun hx => absurd hx hv⟩
  choose f hf using hf
  have hsub : ∀ v ∈ l.map Prod.fst, v ∈ s.values.map Prod.snd := by
    intro v hv
    obtain ⟨⟨w, p⟩, hm, rfl⟩ := List.mem_map.1 hv
    exact ((q2 w).1 ⟨p, hm⟩).1
  -- what is reported is a candidate
  have hcand : ∀ w ∈ s.values.map Prod.snd, OffSides3 r (worldBox3 (item w)) → ∀ q, f w = some q → w ∈ l.map Prod.fst := by
    intro w hw hoff q hq
    obtain ⟨-, f2, -⟩ := hf w hw
    obtain ⟨t, ht, rfl⟩ := f2 q hq
    have hm : (bound w).1.Mem (r.at t) := by rw [hb]; exact worldBox3_mem (hok w hw).1.1 ht.2.1
    obtain ⟨p, hp⟩ := (q2 w).2 ⟨hw, t, meets_of3 ht.1 hm (by rw [hb]; exact hoff)⟩
    exact List.mem_map.2 ⟨_, hp, rfl⟩
  have hseen : ∀ w ∈ s.values.map Prod.snd, ∀ u, 0 ≤ u → Image (item w).2.tr (item w).1.Seen (r.at u) → ∃ t q, f w = some q ∧ 0 ≤ t ∧ t ≤ u ∧ q = r.at t := by
    intro w hw u h0 hs
    obtain ⟨-, f2, f3⟩ := hf w hw
    obtain ⟨q, hq⟩ := Option.isSome_iff_exists.1 (f3 ⟨u, h0, hs⟩)
    obtain ⟨t, ht, rfl⟩ := f2 q hq
    refine ⟨t, _, hq, ht.1, ht.2.2 u h0 ?_, rfl⟩
    obtain ⟨p, hp, e⟩ := hs
    exact ⟨p, seen_points3 hp, e⟩
  obtain ⟨o, o1, o2, o3⟩ := nearest_spec (fun v => (item v).1.intersectionTransformed nz r (item v).2.tr) (fun p => (p - r.origin).norm) f (l.map Prod.fst)
    fun v hv => (hf v (hsub v hv)).1
  have hbest : ∀ v q, o = some (v, q) → ∀ w ∈ s.values.map Prod.snd, OffSides3 r (worldBox3 (item w)) → ∀ p, f w = some p → (q - r.origin).norm ≤ (p - r.origin).norm :=
    fun v q hvq w hw hoff p hp => (o3 v q hvq).2.2 w (hcand w hw hoff p hp) p hp
  have hnone : o = none → ∀ w ∈ s.values.map Prod.snd, OffSides3 r (worldBox3 (item w)) → f w = none := by
    intro hn w hw hoff
    cases hq : f w with
    | none => rfl
    | some q =>
      have := o2.1 hn w (hcand w hw hoff q hq)
      rw [this] at hq; cases hq
  refine ⟨o, by simp only [pick3, q1, Res.bind_ok]; exact o1, ?_, ?_, ?_, ?_, ?_⟩
  · intro v q hvq
    obtain ⟨g1, g2, -⟩ := o3 v q hvq
    exact ⟨hsub v g1, (hf v (hsub v g1)).2.1 q g2⟩
  · intro v t hvt t0 w hw hoff u h0 hs
    obtain ⟨t', p, k1, k2, k3, rfl⟩ := hseen w hw u h0 hs
    have := hbest v _ hvt w hw hoff _ k1
    rw [far_at3 r hd t0, far_at3 r hd k2] at this
    exact le_trans this k3
  · intro v q hvq w hw hoff p hp
    refine hbest v q hvq w hw hoff p ?_
    have := (hf w hw).1
    rw [hp] at this; injection this with this; exact this.symm
  · intro hn w hw hoff u h0 hs
    obtain ⟨t', p, k1, -⟩ := hseen w hw u h0 hs
    rw [hnone hn w hw hoff] at k1; cases k1
  · intro hn w hw hoff
    rw [(hf w hw).1, hnone hn w hw hoff]


/-- C100 (3D) on trees that exist: at most 256 items whose boxes are not flat, inserted one after the other and refitted, for every random stream. -/
theorem c100_built3 (items : List { a : Item3 // (worldBox3 a).Pos }) (hlen : items.length ≤ 256) (im : ℝ) (rng : Nat → Nat) (nz : V3 Bool) (r : Ray3 ℝ) (hd : r.direction.norm = 1)
    (hok : ∀ a ∈ items, a.1.Castable ∧ ¬ a.1.At r.origin) :
    ∃ (s : Dbvt { a : Item3 // (worldBox3 a).Pos } (Box3 ℝ)) (o : Option ({ a : Item3 // (worldBox3 a).Pos } × V3 ℝ)), s.values.map Prod.snd = items ∧
      pick3 Subtype.val (boxOps3 (fun a => ⟨worldBox3 a.1, a.2⟩) (fun a => ⟨worldBox3 a.1, a.2⟩) im) s nz r = .ok o ∧
      Picked3 r items (fun a => a.1.At) (fun a => Image a.1.2.tr a.1.1.Seen) (fun a => a.1.1.intersectionTransformed nz r a.1.2.tr) (fun a => OffSides3 r (worldBox3 a.1)) o := by
  obtain ⟨h, s, he, hdi, hu, hr, hv⟩ := build_tree (boxOps3 (fun a : { a : Item3 // (worldBox3 a).Pos } => ⟨worldBox3 a.1, a.2⟩) (fun a => ⟨worldBox3 a.1, a.2⟩) im) items rng
  obtain ⟨n, hh, -, -, hn, -⟩ := c04_height _ he hr
  have hl : s.values.length = items.length := by rw [← hv, List.length_map]
  obtain ⟨o, o1, o2⟩ := c100_pick3 Subtype.val _ _ im (fun _ => rfl) (fun v => c26_order3.1 _) he hdi hu hr hh (by omega) nz r hd (by rw [hv]; exact hok)
  rw [hv] at o2
  exact ⟨s, o, hv, o1, o2⟩

/-- A concrete scene: two unit circles on the x axis, a ray along the axis; the nearer one is picked, at (4, 0). -/
theorem c100_example (im : ℝ) (rng : Nat → Nat) : ∃ (s : Dbvt Item2 (Box2 ℝ)) (v : Item2),
    s.values.map Prod.snd = [(.circle ⟨1⟩, ⟨1, ⟨⟨1, 0⟩, ⟨0, 1⟩⟩, ⟨9, 0⟩⟩), (.circle ⟨1⟩, ⟨1, ⟨⟨1, 0⟩, ⟨0, 1⟩⟩, ⟨5, 0⟩⟩)] ∧
    pick2 id (boxOps2 (fun a => ⟨worldBox2 a, worldBox2_valid a⟩) (fun a => ⟨worldBox2 a, worldBox2_valid a⟩) im) s ⟨⟨0, 0⟩, ⟨1, 0⟩⟩ = .ok (some (v, ⟨4, 0⟩)) := by
  have at_iff : ∀ (c : ℝ) (p : V2 ℝ), Item2.At (.circle ⟨1⟩, ⟨1, ⟨⟨1, 0⟩, ⟨0, 1⟩⟩, ⟨c, 0⟩⟩) p ↔ (p.x - c) * (p.x - c) + p.y * p.y ≤ 1 := by
    intro c p
    have hd : ∀ q : V2 ℝ, (Prim2.circle ⟨1⟩).Points q ↔ q.x * q.x + q.y * q.y ≤ 1 := by
      intro q
      show q.norm ≤ 1 ↔ _
      rw [V2.norm_le_iff _ (by norm_num)]
      simp only [V2.dot, mul_one]
    constructor
    · rintro ⟨q, hq, rfl⟩
      simpa [Dec2.tr, M2.apply] using (hd q).1 hq
    · intro hp
      refine ⟨⟨p.x - c, p.y⟩, (hd _).2 hp, ?_⟩
      ext <;> simp [Dec2.tr, M2.apply]
  have cast : ∀ c : ℝ, Item2.Castable (.circle ⟨1⟩, ⟨1, ⟨⟨1, 0⟩, ⟨0, 1⟩⟩, ⟨c, 0⟩⟩) := fun c =>
    ⟨zero_le_one, zero_le_one, ⟨by norm_num [V2.dot], by norm_num [V2.dot], by norm_num [V2.dot]⟩, rfl⟩
  have off : ∀ c : ℝ, OffSides2 ⟨⟨0, 0⟩, ⟨1, 0⟩⟩ (worldBox2 (.circle ⟨1⟩, ⟨1, ⟨⟨1, 0⟩, ⟨0, 1⟩⟩, ⟨c, 0⟩⟩)) := by
    intro c
    have h1 := worldBox2_mem (a := (.circle ⟨1⟩, ⟨1, ⟨⟨1, 0⟩, ⟨0, 1⟩⟩, ⟨c, 0⟩⟩)) (cast c).1 ((at_iff c ⟨c, 1⟩).2 (by norm_num))
    have h2 := worldBox2_mem (a := (.circle ⟨1⟩, ⟨1, ⟨⟨1, 0⟩, ⟨0, 1⟩⟩, ⟨c, 0⟩⟩)) (cast c).1 ((at_iff c ⟨c, -1⟩).2 (by norm_num))
    refine ⟨fun hx => absurd hx (by norm_num), fun _ => ⟨?_, ?_⟩⟩
    · have := h2.2.1
      simp only at this ⊢
      intro e; linarith
    · have := h1.2.2
      simp only at this ⊢
      intro e; linarith
  obtain ⟨s, o, h1, h2, h3⟩ := c100_built2 [(.circle ⟨1⟩, ⟨1, ⟨⟨1, 0⟩, ⟨0, 1⟩⟩, ⟨9, 0⟩⟩), (.circle ⟨1⟩, ⟨1, ⟨⟨1, 0⟩, ⟨0, 1⟩⟩, ⟨5, 0⟩⟩)] (by simp) im rng ⟨⟨0, 0⟩, ⟨1, 0⟩⟩
    (by norm_num [V2.norm, V2.dot]) (by
      intro a ha
      simp only [List.mem_cons, List.not_mem_nil, or_false] at ha
      rcases ha with rfl | rfl
      · exact ⟨cast 9, fun h => absurd ((at_iff 9 _).1 h) (by norm_num)⟩
      · exact ⟨cast 5, fun h => absurd ((at_iff 5 _).1 h) (by norm_num)⟩)
  have seen4 : Image (⟨1, ⟨⟨1, 0⟩, ⟨0, 1⟩⟩, ⟨5, 0⟩⟩ : Dec2 ℝ).tr (Prim2.circle ⟨1⟩).Seen ((⟨⟨0, 0⟩, ⟨1, 0⟩⟩ : Ray2 ℝ).at 4) :=
    (at_iff 5 _).2 (by simp [Ray2.at]; norm_num)
  cases o with
  | none => exact absurd seen4 (h3.none_seen rfl _ (List.mem_cons_of_mem _ List.mem_cons_self) (off 5) 4 (by norm_num))
  | some x =>
    obtain ⟨v, q⟩ := x
    obtain ⟨hv, t, ht, rfl⟩ := h3.hit v q rfl
    have hle := h3.first v t rfl ht.1 _ (List.mem_cons_of_mem _ List.mem_cons_self) (off 5) 4 (by norm_num) seen4
    have ht4 : t = 4 := by
      have hm := ht.2.1
      simp only [List.mem_cons, List.not_mem_nil, or_false] at hv
      rcases hv with rfl | rfl
      · have := (at_iff 9 _).1 hm
        simp [Ray2.at] at this
        nlinarith
      · have := (at_iff 5 _).1 hm
        simp [Ray2.at] at this
        nlinarith
    refine ⟨s, v, h1, ?_⟩
    rw [h2, ht4]
    have : (⟨⟨0, 0⟩, ⟨1, 0⟩⟩ : Ray2 ℝ).at 4 = ⟨4, 0⟩ := by ext <;> simp [Ray2.at]
    rw [this]
end
end Verif.Scene
