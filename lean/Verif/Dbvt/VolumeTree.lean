import Verif.BroadPhase.Props3
import Verif.Geom.Frustum
/-!
# Trees of flat boxes and of spheres; C17 (frustum queries), C59 (`TreeValueWrapped`), C22 for spheres
-/
namespace Verif.Dbvt
open Verif Geom BroadPhase
set_option linter.unusedSectionVars false

section
variable {K : Type} [Field K] [LinearOrder K]

/-- Normalised 3D boxes (possibly flat). -/
def VBox3 (K : Type) [Field K] [LinearOrder K] := { b : Aabb3 K // b.Valid }

/-- The trait methods the tree uses, for normalised `Aabb3` bounds. -/
def vboxOps3 {V : Type} (bound fat : V → VBox3 K) (improvement : K) : Ops V (VBox3 K) K where
  bound := bound
  fat := fat
  union a b := ⟨a.1.union b.1, (c25_union_contains3 _ _).1⟩
  contains a b := a.1.contains b.1
  area a := a.1.surfaceArea
  lt x y := x < y
  sub x y := x - y
  div x y := x / y
  improvement := improvement

theorem vencloses3 {V : Type} (bound fat : V → VBox3 K) (im : K) :
    Encloses (vboxOps3 bound fat im) (fun a b => a.1.contains b.1 = true) where
  trans := c26_order3.2.1 _ _ _
  union_left a b := (c25_union_contains3 a.1 b.1).2.1
  union_right a b := (c25_union_contains3 a.1 b.1).2.2
  contains h := h

/-- `FrustumVisitor::accept`, `src/dbvt/visitor.rs:135-142`; `relate b` is `PlaneBound::relate_plane` of the bound. -/
def frustumVisitor {B : Type} (relate : B → Plane K → Relation) (f : Frustum K) : Visitor Unit B Relation :=
  pureVisitor fun b _ =>
    let r := f.contains (relate b)
    if r = .Out then none else some r
end

/-- What a frustum query must return: every value whose bound is not `Out`, with its relation. -/
def notOut {V : Type} (rel : V → Relation) (vs : List V) : List (V × Relation) :=
  vs.filterMap fun v => if rel v = .Out then none else some (v, rel v)

/-- A frustum query on any tree whose enclosure relation never turns a visible bound invisible. -/
theorem frustum_query {V B S K : Type} [Field K] [LinearOrder K] (O : Ops V B S) (enc : B → B → Prop) (hen : Encloses O enc)
    (hfat : ∀ v, O.contains (O.fat v) (O.bound v) = true) (relate : B → Plane K → Relation) (f : Frustum K)
    (hmono : ∀ big small, enc big small → f.contains (relate small) ≠ .Out → f.contains (relate big) ≠ .Out)
    {h : Hist V} {s : Dbvt V B} (he : Exec O h s) (hd : Disciplined O h) (hu : UpToDate O h)
    (hr : Refitted! h) {n : Nat} (hh : s.height = .ok n) :
    (∃ l, s.query O (frustumVisitor relate f) () = .ok l ∧ l.Perm (notOut (fun v => f.contains (relate (O.bound v))) (s.values.map Prod.snd))) ∨
      (256 < n ∧ s.query O (frustumVisitor relate f) () = .panic) := by
  rcases c07_query O enc hen hfat (fun b _ => if f.contains (relate b) = .Out then none else some (f.contains (relate b))) (by
    intro big small hbs hs
    simp only at hs ⊢
    split at hs
    · simp at hs
    · rename_i hne
      rw [if_neg (hmono _ _ hbs hne)]; rfl) he hd hu hr hh with ⟨-, l, h1, h2⟩ | ⟨h1, -, h2⟩
  case inr => exact Or.inr ⟨h1, h2⟩
  refine Or.inl ⟨l, h1, ?_⟩
  have e : notOut (fun v => f.contains (relate (O.bound v))) (s.values.map Prod.snd) =
      exactValues O (fun b _ => if f.contains (relate b) = .Out then none else some (f.contains (relate b))) s := by
    simp only [notOut, exactValues, List.filterMap_map]
    refine List.filterMap_congr fun e _ => ?_
    simp only [Function.comp]
    split <;> rfl
  rw [e]; exact h2

/-- C17 for trees of normalised boxes: after refitting an up-to-date tree (on which the traversal stack suffices, C11), a frustum query returns (up to order)
exactly the values whose box is not `Out`, each once, with the relation of its box; in terms of points: a value is reported unless its
box lies entirely outside one of the planes. -/
theorem c17_frustum_boxes {V K : Type} [Field K] [LinearOrder K] [IsStrictOrderedRing K] (bound fat : V → VBox3 K) (im : K)
    (hfat : ∀ v, (fat v).1.contains (bound v).1 = true) (f : Frustum K)
    {h : Hist V} {s : Dbvt V (VBox3 K)} (he : Exec (vboxOps3 bound fat im) h s) (hd : Disciplined (vboxOps3 bound fat im) h)
    (hu : UpToDate (vboxOps3 bound fat im) h) (hr : Refitted! h) {n : Nat} (hh : s.height = .ok n) :
    (∃ l, s.query (vboxOps3 bound fat im) (frustumVisitor (fun b => b.1.relatePlane) f) () = .ok l ∧
      l.Perm (notOut (fun v => f.contains (bound v).1.relatePlane) (s.values.map Prod.snd)) ∧
      ∀ v, (∃ r, (v, r) ∈ l) ↔ v ∈ s.values.map Prod.snd ∧ ¬ ∃ P, f.HasPlane P ∧ ∀ p, (bound v).1.Mem p → P.Outside p) ∨
    (256 < n ∧ s.query (vboxOps3 bound fat im) (frustumVisitor (fun b => b.1.relatePlane) f) () = .panic) := by
  rcases frustum_query _ _ (vencloses3 bound fat im) hfat (fun b => b.1.relatePlane) f
    (fun big small hc hne => (c41_frustum_box f small.1 small.2).2.2 big.1 big.2 hc hne) he hd hu hr hh with ⟨l, h1, h2⟩ | h
  case inr => exact Or.inr h
  refine Or.inl ⟨l, h1, h2, fun v => ?_⟩
  rw [← (c41_frustum_box f (bound v).1 (bound v).2).1]
  constructor
  · rintro ⟨r, hr⟩
    have := h2.mem_iff.1 hr
    simp only [notOut, List.mem_filterMap] at this
    obtain ⟨w, hw, hw2⟩ := this
    split at hw2
    · simp at hw2
    · rename_i hne
      simp only [Option.some.injEq, Prod.mk.injEq] at hw2
      obtain ⟨rfl, -⟩ := hw2
      exact ⟨hw, hne⟩
  · rintro ⟨hv, hne⟩
    exact ⟨f.contains (bound v).1.relatePlane, h2.mem_iff.2 (List.mem_filterMap.2 ⟨v, hv, if_neg hne⟩)⟩

/-! ## Spheres -/

theorem ball_contains_trans {a b c : Sphere} (h1 : a.contains b = true) (h2 : b.contains c = true) : a.contains c = true := by
  simp only [Sphere.contains, decide_eq_true_eq] at *
  linarith [V3.norm_tri c.center b.center a.center]

theorem ball_of_contains {a b : Sphere} (h : a.contains b = true) (hb : 0 ≤ b.radius) : 0 ≤ a.radius := by
  simp only [Sphere.contains, decide_eq_true_eq] at h
  linarith [V3.norm_nonneg (b.center - a.center)]

/-- The trait methods the tree uses, for spheres of non-negative radius; `pi` is the constant in `surface_area`
(`src/volume/sphere.rs:204-211`). -/
noncomputable def ballOps {V : Type} (bound fat : V → Ball) (pi improvement : ℝ) : Ops V Ball ℝ where
  bound := bound
  fat := fat
  union a b := ⟨a.1.union b.1, ball_of_contains ((c33_sphere _ _ a.2).2 (c34_union a.1 b.1 a.2 b.2).1) a.2⟩
  contains a b := a.1.contains b.1
  area a := a.1.surfaceArea pi
  lt x y := decide (x < y)
  sub x y := x - y
  div x y := x / y
  improvement := improvement

theorem enclosesBall {V : Type} (bound fat : V → Ball) (pi im : ℝ) :
    Encloses (ballOps bound fat pi im) (fun a b => a.1.contains b.1 = true) where
  trans := ball_contains_trans
  union_left a b := (c33_sphere _ _ a.2).2 (c34_union a.1 b.1 a.2 b.2).1
  union_right a b := (c33_sphere _ _ b.2).2 (c34_union a.1 b.1 a.2 b.2).2.1
  contains h := h

/-- C17 for trees of spheres (planes with unit normals, as `Frustum::new` receives from `from_matrix4`). -/
theorem c17_frustum_spheres {V : Type} (bound fat : V → Ball) (pi im : ℝ)
    (hfat : ∀ v, (fat v).1.contains (bound v).1 = true) (f : Frustum ℝ) (hf : ∀ P, f.HasPlane P → P.n.norm = 1)
    {h : Hist V} {s : Dbvt V Ball} (he : Exec (ballOps bound fat pi im) h s) (hd : Disciplined (ballOps bound fat pi im) h)
    (hu : UpToDate (ballOps bound fat pi im) h) (hr : Refitted! h) {n : Nat} (hh : s.height = .ok n) :
    (∃ l, s.query (ballOps bound fat pi im) (frustumVisitor (fun b => b.1.relatePlane) f) () = .ok l ∧
      l.Perm (notOut (fun v => f.contains (bound v).1.relatePlane) (s.values.map Prod.snd))) ∨
    (256 < n ∧ s.query (ballOps bound fat pi im) (frustumVisitor (fun b => b.1.relatePlane) f) () = .panic) :=
  frustum_query _ _ (enclosesBall bound fat pi im) hfat (fun b => b.1.relatePlane) f
    (fun big small hc hne => (c41_frustum_sphere f hf small.1 small.2).2.2 big.1 hc hne) he hd hu hr hh

/-- C22 for spheres. -/
theorem c22_spheres {V : Type} (bound fat : V → Ball) (pi im : ℝ) (hfat : ∀ v, (fat v).1.contains (bound v).1 = true)
    {h : Hist V} {s : Dbvt V Ball} (he : Exec (ballOps bound fat pi im) h s) (hd : Disciplined (ballOps bound fat pi im) h)
    (hu : UpToDate (ballOps bound fat pi im) h) (hr : Refitted! h) {n : Nat} (hh : s.height = .ok n)
    (dirty : List Bool) (hdirty : s.values.length ≤ dirty.length) :
    (∃ l, dbvtPairs (ballOps bound fat pi im) (fun a b => a.1.intersects b.1) s dirty = .ok l ∧ LexSorted l ∧
      ∀ i j, (i, j) ∈ l ↔ i < j ∧ Hit (fun e : Nat × V => (bound e.2).1) Sphere.intersects s.values i j ∧ (Dirty dirty i ∨ Dirty dirty j)) ∨
    (256 < n ∧ dbvtPairs (ballOps bound fat pi im) (fun a b => a.1.intersects b.1) s dirty = .panic) :=
  c22_dbvt _ _ (enclosesBall bound fat pi im) hfat _ (by
    intro big small q hc hi
    have hb := ball_of_contains hc small.2
    rw [(c36_laws _ _ hb q.2).1]
    rw [(c36_laws _ _ small.2 q.2).1] at hi
    exact (c36_laws q.1 small.1 q.2 small.2).2 _ hc hi) (fun a b => (c36_laws a.1 b.1 a.2 b.2).1) he hd hu hr hh dirty hdirty

/-! ## C59: `TreeValueWrapped` -/

/-- `TreeValueWrapped`, `src/dbvt/wrapped.rs:10-22` (and `new`, 30-36) -/
structure Wrapped (V B D : Type) where
  value : V
  bound : B
  margin : D

/-- `From<(V, B, Diff)>`, `src/dbvt/wrapped.rs:74-76` -/
def Wrapped.ofTriple {V B D : Type} (p : V × B × D) : Wrapped V B D := ⟨p.1, p.2.1, p.2.2⟩
/-- `From<(V, B)>`, `src/dbvt/wrapped.rs:84-90` -/
def Wrapped.ofPair {V B D : Type} [Zero D] (p : V × B) : Wrapped V B D := ⟨p.1, p.2, 0⟩
/-- `get_bound_with_margin`, `src/dbvt/wrapped.rs:51-53`; `withMargin` is `Bound::with_margin` -/
def Wrapped.fat {V B D : Type} (withMargin : B → D → B) (w : Wrapped V B D) : B := withMargin w.bound w.margin

section
variable {V K : Type} [Field K] [LinearOrder K] [IsStrictOrderedRing K]

/-- C59, 2D boxes: the fat bound contains the bound if the margin is not negative, and equals it if there is none. -/
theorem c59_wrapped2 (w : Wrapped V (Aabb2 K) (V2 K)) (hb : w.bound.Valid) :
    (0 ≤ w.margin.x → 0 ≤ w.margin.y → (w.fat Aabb2.addMargin).contains w.bound = true ∧ (w.fat Aabb2.addMargin).Valid) ∧
    (∀ p : V × Aabb2 K, p.2.Valid → (Wrapped.ofPair p : Wrapped V (Aabb2 K) (V2 K)).fat Aabb2.addMargin = p.2) := by
  refine ⟨fun hx hy => ⟨(c29_margin2 w.bound w.margin hx hy).1, valid_of_contains2 (c29_margin2 w.bound w.margin hx hy).1 hb⟩, ?_⟩
  rintro ⟨v, b⟩ ⟨h1, h2⟩
  simp only at h1 h2
  simp only [Wrapped.fat, Wrapped.ofPair, Aabb2.addMargin, Aabb2.new, pmin_eq, pmax_eq]
  ext <;> simp [h1, h2]

/-- C59, 3D boxes. -/
theorem c59_wrapped3 (w : Wrapped V (Aabb3 K) (V3 K)) (hb : w.bound.Valid) :
    (0 ≤ w.margin.x → 0 ≤ w.margin.y → 0 ≤ w.margin.z →
      (w.fat Aabb3.addMargin).contains w.bound = true ∧ (w.fat Aabb3.addMargin).Valid) ∧
    (∀ p : V × Aabb3 K, p.2.Valid → (Wrapped.ofPair p : Wrapped V (Aabb3 K) (V3 K)).fat Aabb3.addMargin = p.2) := by
  constructor
  · intro hx hy hz
    have h := (c29_margin3 w.bound w.margin hx hy hz).1
    refine ⟨h, ?_⟩
    have h' := h
    simp only [Aabb3.contains, Bool.and_eq_true, decide_eq_true_eq] at h'
    obtain ⟨h1, h2, h3⟩ := hb
    obtain ⟨⟨⟨⟨⟨g1, g2⟩, g3⟩, g4⟩, g5⟩, g6⟩ := h'
    exact ⟨(g1.trans h1).trans g4, (g2.trans h2).trans g5, (g3.trans h3).trans g6⟩
  · rintro ⟨v, b⟩ ⟨h1, h2, h3⟩
    simp only at h1 h2 h3
    simp only [Wrapped.fat, Wrapped.ofPair, Aabb3.addMargin, Aabb3.new, pmin_eq, pmax_eq]
    ext <;> simp [h1, h2, h3]

/-- C59, spheres. -/
theorem c59_wrapped_sphere (w : Wrapped V Sphere (V3 ℝ)) (hb : 0 ≤ w.bound.radius) :
    ((0 ≤ w.margin.x ∨ 0 ≤ w.margin.y ∨ 0 ≤ w.margin.z) → (w.fat Sphere.withMargin).contains w.bound = true ∧
      ∀ p, w.bound.Mem p → (w.fat Sphere.withMargin).Mem p) ∧
    (∀ p : V × Sphere, (Wrapped.ofPair p : Wrapped V Sphere (V3 ℝ)).fat Sphere.withMargin = p.2) := by
  constructor
  · intro h
    have hm : 0 ≤ max (max w.margin.x w.margin.y) w.margin.z := by
      rcases h with h | h | h
      · exact h.trans ((le_max_left _ _).trans (le_max_left _ _))
      · exact h.trans ((le_max_right _ _).trans (le_max_left _ _))
      · exact h.trans (le_max_right _ _)
    have hc : (w.fat Sphere.withMargin).contains w.bound = true := by
      simp only [Sphere.contains, decide_eq_true_eq]
      simp only [Wrapped.fat, Sphere.withMargin]
      have : w.bound.center - w.bound.center = 0 := by ext <;> simp
      rw [this, (V3.norm_eq_zero _).2 rfl]
      linarith
    exact ⟨hc, (c33_sphere _ _ hb).1 hc⟩
  · rintro ⟨v, ⟨c, r⟩⟩
    simp [Wrapped.fat, Wrapped.ofPair, Sphere.withMargin]

/-- Wrapped 2D boxes with a non-negative margin. -/
def WBox2 (V K : Type) [Field K] [LinearOrder K] :=
  { w : Wrapped V (Box2 K) (V2 K) // 0 ≤ w.margin.x ∧ 0 ≤ w.margin.y }

/-- The trait methods of a tree of `TreeValueWrapped<V, Aabb2>`. -/
def wrappedOps2 (im : K) : Ops (WBox2 V K) (Box2 K) K :=
  boxOps2 (fun w => w.1.bound) (fun w => ⟨w.1.bound.1.addMargin w.1.margin,
    valid_of_contains2 (c29_margin2 w.1.bound.1 w.1.margin w.2.1 w.2.2).1 w.1.bound.2⟩) im

/-- C59: wrapped boxes with non-negative margins satisfy the contract of C07, so queries with any monotone visitor are exact. -/
theorem c59_wrapped_query2 {R : Type} (im : K) (f : Box2 K → Bool → Option R)
    (hm : MonoVisitor (fun (a b : Box2 K) => a.1.contains b.1 = true) f)
    {h : Hist (WBox2 V K)} {s : Dbvt (WBox2 V K) (Box2 K)} (he : Exec (wrappedOps2 im) h s) (hd : Disciplined (wrappedOps2 im) h)
    (hu : UpToDate (wrappedOps2 im) h) (hr : Refitted! h) {n : Nat} (hh : s.height = .ok n) :
    (∃ l, s.query (wrappedOps2 im) (pureVisitor f) () = .ok l ∧
      l.Perm (s.values.filterMap fun e => (f e.2.1.bound true).map fun r => (e.2, r))) ∨
    (256 < n ∧ s.query (wrappedOps2 im) (pureVisitor f) () = .panic) :=
  (c07_query (wrappedOps2 im) _ (encloses2 _ _ im)
    (fun w => (c29_margin2 w.1.bound.1 w.1.margin w.2.1 w.2.2).1) f hm he hd hu hr hh).imp And.right fun h => ⟨h.1, h.2.2⟩

end

/-- A wrapped box with margin (1, 2): the fat bound is larger. -/
example : (⟨(), ⟨⟨0, 0⟩, ⟨1, 1⟩⟩, ⟨1, 2⟩⟩ : Wrapped Unit (Aabb2 ℚ) (V2 ℚ)).fat Aabb2.addMargin = ⟨⟨-1, -2⟩, ⟨2, 3⟩⟩ := by decide +kernel

/-- A tree of three boxes (one flat) meeting the hypotheses of C17. -/
example : ∃ (h : Hist (VBox3 ℚ)) (s : Dbvt (VBox3 ℚ) (VBox3 ℚ)) (n : Nat), Exec (vboxOps3 id id (1 / 10)) h s ∧
    Disciplined (vboxOps3 (K := ℚ) id id (1 / 10)) h ∧ UpToDate (vboxOps3 (K := ℚ) id id (1 / 10)) h ∧ Refitted! h ∧
    s.height = .ok n ∧ n ≤ 256 ∧ s.values.length = 3 := by
  have h0 : (runCalls (vboxOps3 (K := ℚ) id id (1 / 10)) 20
      ([⟨⟨⟨0, 0, 0⟩, ⟨1, 1, 1⟩⟩, by decide +kernel, by decide +kernel, by decide +kernel⟩,
        ⟨⟨⟨0, 0, 0⟩, ⟨4, 0, 1⟩⟩, by decide +kernel, by decide +kernel, by decide +kernel⟩,
        ⟨⟨⟨7, 7, 7⟩, ⟨8, 8, 8⟩⟩, by decide +kernel, by decide +kernel, by decide +kernel⟩].map .insert ++ [.tick (fun _ => 0)]) [] Dbvt.new).map
      (fun p => (match p.2.height with | .ok n => n ≤ 256 | _ => false) && decide (p.2.values.length = 3)) = some true := by decide +kernel
  obtain ⟨⟨h, s⟩, hrun, hc⟩ := Option.map_eq_some_iff.1 h0
  obtain ⟨he, hd, hu, hr⟩ := run_inserts hrun
  simp only [Bool.and_eq_true, decide_eq_true_eq] at hc
  cases hh : s.height with
  | ok n =>
    rw [hh] at hc
    exact ⟨h, s, n, he, hd, hu, hr, hh, by simpa using hc.1, hc.2⟩
  | panic => rw [hh] at hc; simp at hc
  | timeout => rw [hh] at hc; simp at hc

/-- **C15 in 3D is false as stated when a box is flat:** a tree holding a flat box and a cube on top of it; the ray runs in the plane of the
flat box. The test of the flat box itself reports a hit, but `query_ray` returns nothing, because the union of the two boxes is not hit. -/
theorem c15_flat_false : ∃ (h : Hist (VBox3 ℚ)) (s : Dbvt (VBox3 ℚ) (VBox3 ℚ)) (v : VBox3 ℚ) (r : Ray3 ℚ), Exec (vboxOps3 id id (1 / 10)) h s ∧
    Disciplined (vboxOps3 (K := ℚ) id id (1 / 10)) h ∧ UpToDate (vboxOps3 (K := ℚ) id id (1 / 10)) h ∧ Refitted! h ∧ r.direction ≠ 0 ∧
    v ∈ s.values.map Prod.snd ∧ (∃ p, r.intersectionAabb ⟨false, false, false⟩ v.1 = some p) ∧
    s.query (vboxOps3 (K := ℚ) id id (1 / 10)) (continuousVisitor fun b : VBox3 ℚ => r.intersectionAabb ⟨false, false, false⟩ b.1) () = .ok [] := by
  have h0 : (runCalls (vboxOps3 (K := ℚ) id id (1 / 10)) 20
      ([⟨⟨⟨0, 0, 0⟩, ⟨2, 2, 0⟩⟩, by decide +kernel, by decide +kernel, by decide +kernel⟩,
        ⟨⟨⟨0, 0, 0⟩, ⟨2, 2, 2⟩⟩, by decide +kernel, by decide +kernel, by decide +kernel⟩].map .insert ++ [.tick (fun _ => 0)]) [] Dbvt.new).map
      (fun p => decide ((p.2.values.map fun e => e.2.1) = [⟨⟨0, 0, 0⟩, ⟨2, 2, 0⟩⟩, ⟨⟨0, 0, 0⟩, ⟨2, 2, 2⟩⟩]) &&
        (match p.2.query (vboxOps3 (K := ℚ) id id (1 / 10))
          (continuousVisitor fun b : VBox3 ℚ => (⟨⟨-1, 1, 0⟩, ⟨1, 0, 0⟩⟩ : Ray3 ℚ).intersectionAabb ⟨false, false, false⟩ b.1) () with
          | .ok [] => true | _ => false)) = some true := by decide +kernel
  obtain ⟨⟨h, s⟩, hrun, hc⟩ := Option.map_eq_some_iff.1 h0
  obtain ⟨he, hd, hu, hr⟩ := run_inserts hrun
  simp only [Bool.and_eq_true, decide_eq_true_eq] at hc
  obtain ⟨hc1, hc2⟩ := hc
  have hv : (⟨⟨0, 0, 0⟩, ⟨2, 2, 0⟩⟩ : Aabb3 ℚ) ∈ s.values.map fun e => e.2.1 := by rw [hc1]; exact List.mem_cons_self
  obtain ⟨e, hem, hev⟩ := List.mem_map.1 hv
  refine ⟨h, s, e.2, ⟨⟨-1, 1, 0⟩, ⟨1, 0, 0⟩⟩, he, hd, hu, hr, ?_, List.mem_map.2 ⟨e, hem, rfl⟩, ?_, ?_⟩
  · intro h
    have := congrArg V3.x h
    simp at this
  · rw [hev, ← Option.isSome_iff_exists]; decide +kernel
  · revert hc2
    split
    · intro _; assumption
    · simp

end Verif.Dbvt
