import Verif.BroadPhase.Props2
import Verif.BroadPhase.Props3
import Verif.BroadPhase.Rounding
import Verif.Minkowski.Balls
import Verif.Minkowski.Exchange
import Verif.Minkowski.Gjk2Bound
/-!
# Broad phase and narrow phase together (C90)

A scene is a list of primitives with placements. The bound of an item is the box of the primitive moved with the placement (`ComputeBound`, then `Bound::transform_volume`). The pairs of the
broad phase are handed to GJK one by one, as the documentation of the library tells the user to do.
-/
namespace Verif.Scene
open Verif Geom Primitive Minkowski BroadPhase Dbvt
set_option linter.unusedSectionVars false
noncomputable section

/-- A primitive and where it is. -/
abbrev Item2 := Prim2 × Dec2 ℝ

/-- The bound of an item: `compute_bound` of `Primitive2` (`src/primitive/primitive2.rs:73-82`), then `transform_volume` of `Aabb2` (`src/volume/aabb/aabb2.rs:78-88`). -/
def worldBox2 (a : Item2) : Aabb2 ℝ := a.1.bound.transform a.2.tr.point

/-- The points of an item. -/
def Item2.At (a : Item2) : V2 ℝ → Prop := Image a.2.tr a.1.Points

/-- Sizes as the constructors make them, a rotation, a scale that is not zero. -/
def Item2.Ok (a : Item2) : Prop := a.1.Ok ∧ a.2.rot.Orthogonal ∧ a.2.scale ≠ 0

/-- Both items are circles or neither is. -/
def SameKind (a b : Item2) : Prop := ((∀ c, a.1 ≠ .circle c) ∧ ∀ c, b.1 ≠ .circle c) ∨ ∃ c c', a.1 = .circle c ∧ b.1 = .circle c'

/-- A pair for which the 100 iterations of GJK are enough: both circles, neither a circle, or an overlap of at least one 31st of the largest distance between two points of the items. -/
def Clear (a b : Item2) : Prop := SameKind a b ∨ ∃ r m, 0 < r ∧ m ≤ 31 * r ∧ Deep2 a.At b.At r ∧ Within2 a.At b.At m

/-- The narrow phase on one pair: `GJK2::intersection` (`src/algorithm/minkowski/gjk/mod.rs:379-409`) with the 100 iterations of the library and either strategy. -/
def narrow2 (tolerance : ℝ) (m : Nat) (strategy : Strategy) (a b : Item2) : Res Bool := do
  let o ← gjkIntersection reduce2 100 (epa2 tolerance m (a.1.supportPoint a.2.tr) (b.1.supportPoint b.2.tr)) strategy (a.1.supportPoint a.2.tr) (b.1.supportPoint b.2.tr)
    (a.2.tr.point 0) (b.2.tr.point 0)
  return o.isSome

/-- The narrow phase on the pairs of the broad phase: the pairs with a contact are kept. -/
def confirm {A : Type} (narrow : A → A → Res Bool) (shapes : List A) (pairs : List (Nat × Nat)) : Res (List (Nat × Nat)) :=
  retainRes (fun p => do
    let a ← Res.ofOption shapes[p.1]?
    let b ← Res.ofOption shapes[p.2]?
    narrow a b) pairs

theorem dec2_affine (D : Dec2 ℝ) : Affine2 D.tr.point := by
  intro p q t
  simp only [Dec2.tr, M2.apply]
  ext <;> simp <;> ring

/-- The bound of an item holds all its points. -/
theorem worldBox2_mem {a : Item2} (ha : a.1.Ok) {p : V2 ℝ} (hp : a.At p) : (worldBox2 a).Mem p := by
  obtain ⟨q, hq, rfl⟩ := hp
  exact (c28_transform2 a.1.bound a.2.tr.point).1 (dec2_affine a.2) q (c67_bound2 a.1 ha q hq)

/-- Sets in boxes that do not intersect have a line between them. -/
theorem apart_boxes2 {A B : Aabb2 ℝ} {S T : V2 ℝ → Prop} (hS : ∀ x, S x → A.Mem x) (hT : ∀ y, T y → B.Mem y) (h : A.intersects B = false) : Separated2 S T := by
  have hor : A.max.x ≤ B.min.x ∨ B.max.x ≤ A.min.x ∨ A.max.y ≤ B.min.y ∨ B.max.y ≤ A.min.y := by
    by_contra hc
    push Not at hc
    obtain ⟨h1, h2, h3, h4⟩ := hc
    have : A.intersects B = true := by
      simp only [Aabb2.intersects, Bool.and_eq_true, decide_eq_true_eq]
      tauto
    rw [h] at this; cases this
  have mem : ∀ x y, S x → T y → A.Mem x ∧ B.Mem y := fun x y hx hy => ⟨hS x hx, hT y hy⟩
  have ne : ∀ u v : ℝ, u ≠ 0 ∨ v ≠ 0 → (⟨u, v⟩ : V2 ℝ) ≠ 0 := by
    rintro u v h e
    have h1 := congrArg V2.x e
    have h2 := congrArg V2.y e
    simp at h1 h2
    tauto
  rcases hor with h | h | h | h
  · refine ⟨⟨1, 0⟩, ne _ _ (Or.inl one_ne_zero), fun x y hx hy => ?_⟩
    obtain ⟨⟨⟨p1, p2⟩, p3, p4⟩, ⟨q1, q2⟩, q3, q4⟩ := mem x y hx hy
    simp only [V2.dot]; linarith
  · refine ⟨⟨-1, 0⟩, ne _ _ (Or.inl (by norm_num)), fun x y hx hy => ?_⟩
    obtain ⟨⟨⟨p1, p2⟩, p3, p4⟩, ⟨q1, q2⟩, q3, q4⟩ := mem x y hx hy
    simp only [V2.dot]; linarith
  · refine ⟨⟨0, 1⟩, ne _ _ (Or.inr one_ne_zero), fun x y hx hy => ?_⟩
    obtain ⟨⟨⟨p1, p2⟩, p3, p4⟩, ⟨q1, q2⟩, q3, q4⟩ := mem x y hx hy
    simp only [V2.dot]; linarith
  · refine ⟨⟨0, -1⟩, ne _ _ (Or.inr (by norm_num)), fun x y hx hy => ?_⟩
    obtain ⟨⟨⟨p1, p2⟩, p3, p4⟩, ⟨q1, q2⟩, q3, q4⟩ := mem x y hx hy
    simp only [V2.dot]; linarith

/-- Bounds that do not intersect belong to items with a line or plane between them. -/
theorem separated_of_boxes {a b : Item2} (ha : a.1.Ok) (hb : b.1.Ok) (h : (worldBox2 a).intersects (worldBox2 b) = false) : Separated2 a.At b.At :=
  apart_boxes2 (fun _ => worldBox2_mem ha) (fun _ => worldBox2_mem hb) h

/-- One pair: the narrow phase answers; yes only if the items share a point, and, for a `Clear` pair, no only if a line separates them. -/
theorem narrow2_exact {tolerance : ℝ} (htol : 0 < tolerance) (m : Nat) (strategy : Strategy) {a b : Item2} (ha : a.Ok) (hb : b.Ok) :
    ∃ r, narrow2 tolerance m strategy a b = .ok r ∧ (r = true → ∃ p, a.At p ∧ b.At p) ∧ (Clear a b → r = false → Separated2 a.At b.At) := by
  obtain ⟨s, D⟩ := a
  obtain ⟨t, E⟩ := b
  obtain ⟨hs, hD, hDs⟩ := ha
  obtain ⟨ht, hE, hEs⟩ := hb
  dsimp only at hs hD hDs ht hE hEs
  obtain ⟨o, f, h1, h2, h3⟩ := c86_prim2 s t hs ht D E hD hE hDs hEs htol 100 m
  obtain ⟨run, g1, g2, g3⟩ := gjk2_run (prim2_support s hs D hD hDs) (prim2_support t ht E hE hEs) 100 (D.tr.point 0) (E.tr.point 0)
  have hx : ∃ x, gjkIntersect reduce2 100 (s.supportPoint D.tr) (t.supportPoint E.tr) (D.tr.point 0) (E.tr.point 0) = .ok x ∧ (x.isSome ↔ o.isSome) ∧ (x.isSome ↔ ∃ l, run = .hit l) := by
    unfold gjkIntersection at h1
    unfold gjkIntersect at h1 ⊢
    rw [g1, Res.bind_ok] at h1 ⊢
    cases run <;> cases h1 <;> exact ⟨_, rfl, by simp [Out.toOption], by simp [Out.toOption]⟩
  obtain ⟨x, x1, x2, x3⟩ := hx
  have hmeet : x.isSome → ∃ p, Image D.tr s.Points p ∧ Image E.tr t.Points p := by
    intro h
    obtain ⟨l, rfl⟩ := x3.1 h
    obtain ⟨o', e1, e2⟩ := c53_2d (Image D.tr s.Points) (Image E.tr t.Points) (image_convex2 D (prim2_convex s)) (image_convex2 E (prim2_convex t))
      (prim2_support s hs D hD hDs) (prim2_support t ht E hE hEs) 100 (D.tr.point 0) (E.tr.point 0)
    rw [x1] at e1
    cases e1
    obtain ⟨y, hy⟩ := Option.isSome_iff_exists.1 h
    exact (e2 y hy).1
  have hsep : Clear (s, D) (t, E) → x = none → Separated2 (Image D.tr s.Points) (Image E.tr t.Points) := by
    rintro ((⟨hsc, htc⟩ | ⟨c, c', hc, hc'⟩) | ⟨r, w, hr0, hrw, hdeep, hw⟩) hn
    rotate_left 2
    · obtain ⟨q, hq⟩ := c91_prim2 s t hs ht D E hD hE hDs hEs hr0 hdeep hw hrw
      rw [x1, hn] at hq
      cases hq
    · obtain ⟨q, q1, q2, q3⟩ := c65_prim2 s t hs ht hsc htc D E hD hE hDs hEs
      rw [x1] at q1
      cases q1
      exact q3 hn
    · dsimp only at hc hc'
      subst hc; subst hc'
      obtain ⟨q, q1, q2⟩ := c87_circles c c' D E hD hE hDs hEs 98
      have q1' : gjkIntersect reduce2 100 ((Prim2.circle c).supportPoint D.tr) ((Prim2.circle c').supportPoint E.tr) (D.tr.point 0) (E.tr.point 0) = .ok q := q1
      rw [x1] at q1'
      cases q1'
      have hz : D.tr.point 0 = D.disp := by simp only [Dec2.tr]; ext <;> simp [M2.apply]
      have hz' : E.tr.point 0 = E.disp := by simp only [Dec2.tr]; ext <;> simp [M2.apply]
      rw [hn] at q2
      simp only [Option.isSome_none, Bool.false_eq_true, false_iff, not_lt] at q2
      obtain ⟨k1, -⟩ := gjk_discs (circle_disc c D hD hDs) (circle_disc c' E hE hEs) 100
      apply g2
      have g1' : gjkRun reduce2 100 (c.supportPoint D.tr) (c'.supportPoint E.tr) (D.tr.point 0) (E.tr.point 0) = .ok run := g1
      rw [hz, hz', k1 q2] at g1'
      cases g1'
      rfl
  unfold narrow2
  dsimp only
  have fin : ∀ y : Option (Contact (V2 ℝ) ℝ), (y.isSome ↔ x.isSome) → (y.isSome = true → ∃ p, Item2.At (s, D) p ∧ Item2.At (t, E) p) ∧
      (Clear (s, D) (t, E) → y.isSome = false → Separated2 (Item2.At (s, D)) (Item2.At (t, E))) := by
    intro y hy
    refine ⟨fun h => hmeet (hy.1 h), fun hk h => hsep hk ?_⟩
    cases x with
    | none => rfl
    | some w => rw [hy.2 rfl] at h; cases h
  cases strategy with
  | collisionOnly => exact ⟨o.isSome, by rw [h1]; rfl, fin o x2.symm⟩
  | fullResolution => exact ⟨f.isSome, by rw [h2]; rfl, fin f (h3.trans x2.symm)⟩

/-- The narrow phase on a list of pairs from the broad phase. -/
theorem confirm_exact {tolerance : ℝ} (htol : 0 < tolerance) (m : Nat) (strategy : Strategy) {scene : List Item2} (hok : ∀ a ∈ scene, a.Ok) {pairs : List (Nat × Nat)} {Q : Nat → Nat → Prop}
    (hp : ∀ i j, (i, j) ∈ pairs ↔ i < j ∧ Hit worldBox2 Aabb2.intersects scene i j ∧ Q i j) :
    ∃ found, confirm (narrow2 tolerance m strategy) scene pairs = .ok found ∧ found.Sublist pairs ∧
      (∀ i j, (i, j) ∈ found → i < j ∧ Q i j ∧ ∃ a b, scene[i]? = some a ∧ scene[j]? = some b ∧ ∃ p, a.At p ∧ b.At p) ∧
      ∀ i j a b, i < j → Q i j → scene[i]? = some a → scene[j]? = some b → Clear a b → ¬ Separated2 a.At b.At → (i, j) ∈ found := by
  classical
  have mem : ∀ {i : Nat} {a}, scene[i]? = some a → a ∈ scene := fun h => List.mem_of_getElem? h
  let q : Nat × Nat → Bool := fun p => match scene[p.1]?, scene[p.2]? with
    | some a, some b => decide (narrow2 tolerance m strategy a b = .ok true)
    | _, _ => false
  have hq : ∀ p ∈ pairs, (do
      let a ← Res.ofOption scene[p.1]?
      let b ← Res.ofOption scene[p.2]?
      narrow2 tolerance m strategy a b) = Res.ok (q p) := by
    rintro ⟨i, j⟩ hij
    obtain ⟨-, ⟨a, b, ha, hb, -⟩, -⟩ := (hp i j).1 hij
    obtain ⟨r, h1, -, -⟩ := narrow2_exact htol m strategy (hok a (mem ha)) (hok b (mem hb))
    simp only [q]
    rw [ha, hb]
    simp only [Res.ofOption_some, Res.bind_ok, h1]
    congr 1
    cases r <;> simp
  refine ⟨pairs.filter q, retainRes_ok _ q _ hq, List.filter_sublist, ?_, ?_⟩
  · intro i j hij
    obtain ⟨h1, h2⟩ := List.mem_filter.1 hij
    obtain ⟨h3, ⟨a, b, ha, hb, -⟩, h4⟩ := (hp i j).1 h1
    refine ⟨h3, h4, a, b, ha, hb, ?_⟩
    obtain ⟨r, k1, k2, -⟩ := narrow2_exact htol m strategy (hok a (mem ha)) (hok b (mem hb))
    simp only [q, ha, hb, decide_eq_true_eq] at h2
    rw [k1] at h2
    cases h2
    exact k2 rfl
  · intro i j a b hij hQ ha hb hk hns
    refine List.mem_filter.2 ⟨(hp i j).2 ⟨hij, ⟨a, b, ha, hb, ?_⟩, hQ⟩, ?_⟩
    · by_contra h
      exact hns (separated_of_boxes (hok a (mem ha)).1 (hok b (mem hb)).1 (by simpa using h))
    · obtain ⟨r, k1, -, k3⟩ := narrow2_exact htol m strategy (hok a (mem ha)) (hok b (mem hb))
      simp only [q, ha, hb, decide_eq_true_eq]
      rw [k1]
      cases r with
      | true => rfl
      | false => exact absurd (k3 hk rfl) hns

/-- C90 with brute force: the pairs found share a point each, none twice, and a `Clear` pair that is not found has a line between its items (they are apart or just touch). -/
theorem c90_brute {tolerance : ℝ} (htol : 0 < tolerance) (m : Nat) (strategy : Strategy) (scene : List Item2) (hok : ∀ a ∈ scene, a.Ok) :
    ∃ pairs found, bruteForce worldBox2 Aabb2.intersects scene = .ok pairs ∧ confirm (narrow2 tolerance m strategy) scene pairs = .ok found ∧ found.Nodup ∧
      (∀ i j, (i, j) ∈ found → i < j ∧ ∃ a b, scene[i]? = some a ∧ scene[j]? = some b ∧ ∃ p, a.At p ∧ b.At p) ∧
      ∀ i j a b, i < j → scene[i]? = some a → scene[j]? = some b → Clear a b → ¬ Separated2 a.At b.At → (i, j) ∈ found := by
  obtain ⟨l, h1, h2, h3⟩ := c19_brute_force worldBox2 Aabb2.intersects scene
  obtain ⟨f, k1, k2, k3, k4⟩ := confirm_exact htol m strategy hok (pairs := l) (Q := fun _ _ => True) (by intro i j; rw [h3]; simp)
  exact ⟨l, f, h1, k1, k2.nodup h2.nodup, fun i j h => ⟨(k3 i j h).1, (k3 i j h).2.2⟩, fun i j a b hij => k4 i j a b hij trivial⟩

/-- C90 with sweep and prune, any axis and any variance: the positions are those in the list as the algorithm leaves it. -/
theorem c90_sweep {σ : Type} {tolerance : ℝ} (htol : 0 < tolerance) (m : Nat) (strategy : Strategy) (v : VarOps σ (Aabb2 ℝ)) (s : Sap σ) (hax : s.sweep_axis < 2) (scene : List Item2)
    (hok : ∀ a ∈ scene, a.Ok) :
    ∃ pairs scene' s' found, s.findColliderPairs sapAabb2 v worldBox2 scene = .ok (pairs, scene', s') ∧ scene'.Perm scene ∧
      confirm (narrow2 tolerance m strategy) scene' pairs = .ok found ∧ found.Nodup ∧
      (∀ i j, (i, j) ∈ found → i < j ∧ ∃ a b, scene'[i]? = some a ∧ scene'[j]? = some b ∧ ∃ p, a.At p ∧ b.At p) ∧
      ∀ i j a b, i < j → scene'[i]? = some a → scene'[j]? = some b → Clear a b → ¬ Separated2 a.At b.At → (i, j) ∈ found := by
  obtain ⟨l, scene', s', h1, h2, h3, h4⟩ := c20_boxes2 v worldBox2 s scene hax
  obtain ⟨f, k1, k2, k3, k4⟩ := confirm_exact htol m strategy (fun a ha => hok a (h2.mem_iff.1 ha)) (scene := scene') (pairs := l) (Q := fun _ _ => True) (by intro i j; rw [h4]; simp)
  exact ⟨l, scene', s', f, h1, h2, k1, k2.nodup h3, fun i j h => ⟨(k3 i j h).1, (k3 i j h).2.2⟩, fun i j a b hij => k4 i j a b hij trivial⟩

/-- C90 with the tree, after any disciplined history of calls that ends in a refit: the pairs with a dirty item. `item v` is the primitive and placement that a value of the tree carries, its
bound is the box of that item, its fat bound any box that contains it. -/
theorem c90_tree {V S : Type} {tolerance : ℝ} (htol : 0 < tolerance) (m : Nat) (strategy : Strategy) (item : V → Item2) (fat : V → Aabb2 ℝ)
    (hfat : ∀ v, (fat v).contains (worldBox2 (item v)) = true) (area : Aabb2 ℝ → S) (lt : S → S → Bool) (sub div : S → S → S) (im : S)
    {h : Hist V} {s : Dbvt V (Aabb2 ℝ)} (he : Exec (roundOps2 (fun v => worldBox2 (item v)) fat area lt sub div im) h s)
    (hd : Disciplined (roundOps2 (fun v => worldBox2 (item v)) fat area lt sub div im) h) (hu : UpToDate (roundOps2 (fun v => worldBox2 (item v)) fat area lt sub div im) h)
    (hr : Refitted! h) {n : Nat} (hh : s.height = .ok n) (hn : n ≤ 256) (dirty : List Bool) (hdirty : s.values.length ≤ dirty.length) (hok : ∀ e ∈ s.values, (item e.2).Ok) :
    ∃ pairs found, dbvtPairs (roundOps2 (fun v => worldBox2 (item v)) fat area lt sub div im) Aabb2.intersects s dirty = .ok pairs ∧
      confirm (narrow2 tolerance m strategy) (s.values.map fun e => item e.2) pairs = .ok found ∧ found.Nodup ∧
      (∀ i j, (i, j) ∈ found → i < j ∧ (Dirty dirty i ∨ Dirty dirty j) ∧ ∃ a b, s.values[i]? = some a ∧ s.values[j]? = some b ∧ ∃ p, (item a.2).At p ∧ (item b.2).At p) ∧
      ∀ i j a b, i < j → (Dirty dirty i ∨ Dirty dirty j) → s.values[i]? = some a → s.values[j]? = some b → Clear (item a.2) (item b.2) →
        ¬ Separated2 (item a.2).At (item b.2).At → (i, j) ∈ found := by
  rcases (c81_pairs2 _ fat area lt sub div im hfat he hd hu hr hh).1 dirty hdirty with ⟨l, h1, h2, h3⟩ | ⟨h1, -⟩
  · have conv : ∀ i j, Hit (fun e : Nat × V => worldBox2 (item e.2)) Aabb2.intersects s.values i j ↔ Hit worldBox2 Aabb2.intersects (s.values.map fun e => item e.2) i j := by
      intro i j
      simp only [Hit, List.getElem?_map, Option.map_eq_some_iff]
      constructor
      · rintro ⟨a, b, ha, hb, hi⟩; exact ⟨_, _, ⟨a, ha, rfl⟩, ⟨b, hb, rfl⟩, hi⟩
      · rintro ⟨_, _, ⟨a, ha, rfl⟩, ⟨b, hb, rfl⟩, hi⟩; exact ⟨a, b, ha, hb, hi⟩
    obtain ⟨f, k1, k2, k3, k4⟩ := confirm_exact htol m strategy (scene := s.values.map fun e => item e.2) (by
      intro a ha
      obtain ⟨e, he', rfl⟩ := List.mem_map.1 ha
      exact hok e he') (pairs := l) (Q := fun i j => Dirty dirty i ∨ Dirty dirty j) (by intro i j; rw [h3, conv])
    refine ⟨l, f, h1, k1, k2.nodup h2.nodup, fun i j hij => ?_, fun i j a b hij hQ ha hb => ?_⟩
    · obtain ⟨p1, p2, a, b, ha, hb, p3⟩ := k3 i j hij
      simp only [List.getElem?_map, Option.map_eq_some_iff] at ha hb
      obtain ⟨a, ha, rfl⟩ := ha
      obtain ⟨b, hb, rfl⟩ := hb
      exact ⟨p1, p2, a, b, ha, hb, p3⟩
    · exact k4 i j _ _ hij hQ (by rw [List.getElem?_map, ha]; rfl) (by rw [List.getElem?_map, hb]; rfl)
  · omega

/-- Inserting values one after the other into a new tree and then calling `tick` works for every list of values and every random stream, and leaves the values in the order of insertion. -/
theorem build_tree {V B S : Type} (O : Ops V B S) (vs : List V) (rng : Nat → Nat) :
    ∃ h s, Exec O h s ∧ Disciplined O h ∧ UpToDate O h ∧ Refitted! h ∧ s.values.map Prod.snd = vs := by
  have gen : ∀ vs : List V, ∃ h s, Exec O h s ∧ Disciplined O h ∧ (∀ i, ¬ Stale O h i) ∧ s.values.map Prod.snd = vs ∧ s.updated = [] := by
    intro vs
    induction vs using List.reverseRecOn with
    | nil => exact ⟨[], Dbvt.new, .new, trivial, by simp [Stale], rfl, rfl⟩
    | append_singleton vs v ih =>
      obtain ⟨h, s, he, hd, hst, hv, hu⟩ := ih
      obtain ⟨i, s', h1, -, h3, h4, -⟩ := insert_spec O s (exec_inv O he).wf v
      refine ⟨(.insert v, .idx i) :: h, s', .step 0 he trivial (by simp only [call, h1, Res.bind_ok, Res.pure_eq]), hd, hst, ?_, by rw [h4, hu]⟩
      rw [h3]; simp [hv]
  obtain ⟨h, s, he, hd, hst, hv, hu⟩ := gen vs
  obtain ⟨s1, h1, h2, h3, -⟩ := update_spec O s (exec_inv O he).wf (by rw [hu]; simp)
  obtain ⟨s2, h4, h5⟩ := doRefit_wf O h2 rng s1.refitFuel (le_refl _)
  refine ⟨(.tick rng, .unit) :: h, s2, .step s1.refitFuel he trivial (by simp only [call, Dbvt.tick, h1, h4, Res.bind_ok, Res.pure_eq]),
    ⟨hd, fun i hi => absurd hi (hst i)⟩, upToDate_tick O _ _ _, trivial, ?_⟩
  rw [h5.values, h3, hv]

/-- C90 with a tree built from the scene (at most 256 items, every item dirty): the list found is the same for every random stream, and it is the list found with brute force. -/
theorem c90_tree_built {S : Type} {tolerance : ℝ} (htol : 0 < tolerance) (m : Nat) (strategy : Strategy) (margin : V2 ℝ) (hx : 0 ≤ margin.x) (hy : 0 ≤ margin.y)
    (area : Aabb2 ℝ → S) (lt : S → S → Bool) (sub div : S → S → S) (im : S) (scene : List Item2) (hok : ∀ a ∈ scene, a.Ok) (hlen : scene.length ≤ 256) (rng : Nat → Nat) :
    ∃ h s pairs found, Exec (roundOps2 worldBox2 (fun a => (worldBox2 a).addMargin margin) area lt sub div im) h s ∧ s.values.map Prod.snd = scene ∧
      dbvtPairs (roundOps2 worldBox2 (fun a => (worldBox2 a).addMargin margin) area lt sub div im) Aabb2.intersects s (List.replicate scene.length true) = .ok pairs ∧
      bruteForce worldBox2 Aabb2.intersects scene = .ok pairs ∧
      confirm (narrow2 tolerance m strategy) scene pairs = .ok found ∧ found.Nodup ∧
      (∀ i j, (i, j) ∈ found → i < j ∧ ∃ a b, scene[i]? = some a ∧ scene[j]? = some b ∧ ∃ p, a.At p ∧ b.At p) ∧
      ∀ i j a b, i < j → scene[i]? = some a → scene[j]? = some b → Clear a b → ¬ Separated2 a.At b.At → (i, j) ∈ found := by
  obtain ⟨h, s, he, hd, hu, hr, hv⟩ := build_tree (roundOps2 worldBox2 (fun a => (worldBox2 a).addMargin margin) area lt sub div im) scene rng
  have hl : s.values.length = scene.length := by rw [← hv, List.length_map]
  obtain ⟨n, hh, -, -, hn, -⟩ := c04_height _ he hr
  obtain ⟨pairs, found, b1, b2, b3, b4, b5⟩ := c90_brute htol m strategy scene hok
  rcases (c81_pairs2 _ _ area lt sub div im (fun v => (c29_margin2 (worldBox2 v) margin hx hy).1) he hd hu hr hh).2 with ⟨l, h1, h2⟩ | ⟨h1, -⟩
  · refine ⟨h, s, pairs, found, he, hv, ?_, b1, b2, b3, b4, b5⟩
    rw [hl] at h1
    rw [h1]
    have : bruteForce (fun e : Nat × Item2 => worldBox2 e.2) Aabb2.intersects s.values = bruteForce worldBox2 Aabb2.intersects (s.values.map Prod.snd) := by
      unfold bruteForce
      simp only [List.length_map, List.getElem?_map, ofOption_map, mapOk_bind]
    rw [this, hv, b1] at h2
    cases h2
    rfl
  · omega

/-- A scene: two overlapping squares, the second turned, and a third one far away. The list found is exactly the overlapping pair. -/
theorem c90_example {tolerance : ℝ} (htol : 0 < tolerance) (m : Nat) (strategy : Strategy) :
    ∃ pairs, bruteForce worldBox2 Aabb2.intersects
        [(Prim2.square (Square.new 2), at2 ⟨0, 0⟩), (Prim2.square (Square.new 2), ⟨1, ⟨⟨0, 1⟩, ⟨-1, 0⟩⟩, ⟨1, 1⟩⟩), (Prim2.square (Square.new 2), at2 ⟨9, 0⟩)] = .ok pairs ∧
      confirm (narrow2 tolerance m strategy)
        [(Prim2.square (Square.new 2), at2 ⟨0, 0⟩), (Prim2.square (Square.new 2), ⟨1, ⟨⟨0, 1⟩, ⟨-1, 0⟩⟩, ⟨1, 1⟩⟩), (Prim2.square (Square.new 2), at2 ⟨9, 0⟩)] pairs = .ok [(0, 1)] := by
  obtain ⟨pairs, found, h1, h2, h3, h4, h5⟩ := c90_brute htol m strategy
    [(Prim2.square (Square.new 2), at2 ⟨0, 0⟩), (Prim2.square (Square.new 2), ⟨1, ⟨⟨0, 1⟩, ⟨-1, 0⟩⟩, ⟨1, 1⟩⟩), (Prim2.square (Square.new 2), at2 ⟨9, 0⟩)] (by
      intro a ha
      have ok : (Prim2.square (Square.new 2)).Ok := ⟨2, by norm_num, rfl⟩
      simp only [List.mem_cons, List.not_mem_nil, or_false] at ha
      rcases ha with rfl | rfl | rfl
      · exact ⟨ok, by simp [at2, M2.Orthogonal, V2.dot], by simp [at2]⟩
      · exact ⟨ok, by simp [M2.Orthogonal, V2.dot], by simp⟩
      · exact ⟨ok, by simp [at2, M2.Orthogonal, V2.dot], by simp [at2]⟩)
  refine ⟨pairs, h1, ?_⟩
  rw [h2]
  have pts : ∀ x y : ℝ, InRect (Square.new (2 : ℝ)).rectangle.dim.x (Square.new (2 : ℝ)).rectangle.dim.y ⟨x, y⟩ ↔ (-1 ≤ x ∧ x ≤ 1) ∧ -1 ≤ y ∧ y ≤ 1 := by
    intro x y
    have e : InRect (Square.new (2 : ℝ)).rectangle.dim.x (Square.new (2 : ℝ)).rectangle.dim.y ⟨x, y⟩ = InRect 2 2 ⟨x, y⟩ := rfl
    rw [e]
    unfold InRect
    norm_num
  have at0 : ∀ cx x y : ℝ, Item2.At (Prim2.square (Square.new 2), at2 ⟨cx, 0⟩) ⟨x, y⟩ ↔ (-1 ≤ x - cx ∧ x - cx ≤ 1) ∧ -1 ≤ y ∧ y ≤ 1 := by
    intro cx x y
    constructor
    · rintro ⟨⟨u, v⟩, hp, e⟩
      have e1 := congrArg V2.x e
      have e2 := congrArg V2.y e
      simp [at2, Dec2.tr, M2.apply] at e1 e2
      obtain ⟨⟨a, b⟩, c, d⟩ := (pts u v).1 hp
      subst e1 e2
      exact ⟨⟨by linarith, by linarith⟩, c, d⟩
    · rintro ⟨⟨a, b⟩, c, d⟩
      refine ⟨⟨x - cx, y⟩, (pts _ _).2 ⟨⟨a, b⟩, c, d⟩, ?_⟩
      ext <;> simp [at2, Dec2.tr, M2.apply]
  have at1 : ∀ x y : ℝ, Item2.At (Prim2.square (Square.new 2), ⟨1, ⟨⟨0, 1⟩, ⟨-1, 0⟩⟩, ⟨1, 1⟩⟩) ⟨x, y⟩ ↔ (0 ≤ x ∧ x ≤ 2) ∧ 0 ≤ y ∧ y ≤ 2 := by
    intro x y
    constructor
    · rintro ⟨⟨u, v⟩, hp, e⟩
      have e1 := congrArg V2.x e
      have e2 := congrArg V2.y e
      simp [Dec2.tr, M2.apply] at e1 e2
      obtain ⟨⟨a, b⟩, c, d⟩ := (pts u v).1 hp
      subst e1 e2
      exact ⟨⟨by linarith, by linarith⟩, by linarith, by linarith⟩
    · rintro ⟨⟨a, b⟩, c, d⟩
      refine ⟨⟨y - 1, 1 - x⟩, (pts _ _).2 ⟨⟨by linarith, by linarith⟩, by linarith, by linarith⟩, ?_⟩
      ext <;> simp [Dec2.tr, M2.apply]
  have hin : (0, 1) ∈ found := by
    refine h5 0 1 _ _ (by norm_num) rfl rfl (Or.inl (Or.inl ⟨nofun, nofun⟩)) ?_
    rintro ⟨d, hd, h⟩
    have k := fun x y u v a b => h (⟨x, y⟩ : V2 ℝ) (⟨u, v⟩ : V2 ℝ) ((at0 0 x y).2 a) ((at1 u v).2 b)
    have k1 := k 1 (1 / 2) 0 (1 / 2) (by norm_num) (by norm_num)
    have k2 := k 0 (1 / 2) 1 (1 / 2) (by norm_num) (by norm_num)
    have k3 := k (1 / 2) 1 (1 / 2) 0 (by norm_num) (by norm_num)
    have k4 := k (1 / 2) 0 (1 / 2) 1 (by norm_num) (by norm_num)
    simp only [V2.dot] at k1 k2 k3 k4
    apply hd
    ext <;> simp <;> linarith
  have hall : ∀ q ∈ found, q = (0, 1) := by
    rintro ⟨i, j⟩ hq
    obtain ⟨hij, a, b, ha, hb, p, hp, hp'⟩ := h4 i j hq
    obtain ⟨x, y⟩ := p
    have hj : j < 3 := by
      obtain ⟨hj, -⟩ := List.getElem?_eq_some_iff.1 hb
      simpa using hj
    have cases3 : (i = 0 ∧ j = 1) ∨ (i = 0 ∧ j = 2) ∨ (i = 1 ∧ j = 2) := by omega
    rcases cases3 with ⟨rfl, rfl⟩ | ⟨rfl, rfl⟩ | ⟨rfl, rfl⟩
    · rfl
    · simp only [List.getElem?_cons_zero, List.getElem?_cons_succ, Option.some.injEq] at ha hb
      subst ha hb
      have q1 := (at0 0 x y).1 hp
      have q2 := (at0 9 x y).1 hp'
      linarith [q1.1.2, q2.1.1]
    · simp only [List.getElem?_cons_zero, List.getElem?_cons_succ, Option.some.injEq] at ha hb
      subst ha hb
      have q1 := (at1 x y).1 hp
      have q2 := (at0 9 x y).1 hp'
      linarith [q1.1.2, q2.1.1]
  congr 1
  match found, hin, hall, h3 with
  | [q], _, hall, _ => rw [hall q (by simp)]
  | q :: r :: l, _, hall, hn =>
    rw [hall q (by simp), hall r (by simp)] at hn
    simp at hn

/-! ## 3D: the broad phase loses nothing -/

/-- A primitive and where it is. -/
abbrev Item3 := Prim3 × Dec3 ℝ
/-- The bound of an item: `compute_bound` of `Primitive3` (`src/primitive/primitive3.rs:115-126`), then `transform_volume` of `Aabb3` (`src/volume/aabb/aabb3.rs:90-100`). -/
def worldBox3 (a : Item3) : Aabb3 ℝ := a.1.bound.transform a.2.tr.point
/-- The points of an item. -/
def Item3.At (a : Item3) : V3 ℝ → Prop := Image a.2.tr a.1.Points

theorem dec3_affine (D : Dec3 ℝ) : Affine3 D.tr.point := by
  intro p q t
  simp only [Dec3.tr, M3.apply]
  ext <;> simp <;> ring

theorem worldBox3_mem {a : Item3} (ha : a.1.Ok) {p : V3 ℝ} (hp : a.At p) : (worldBox3 a).Mem p := by
  obtain ⟨q, hq, rfl⟩ := hp
  exact (c28_transform3 a.1.bound a.2.tr.point).1 (dec3_affine a.2) q (c67_bound3 a.1 ha q hq)

theorem apart_boxes3 {A B : Aabb3 ℝ} {S T : V3 ℝ → Prop} (hS : ∀ x, S x → A.Mem x) (hT : ∀ y, T y → B.Mem y) (h : A.intersects B = false) : Separated3 S T := by
  have hor : A.max.x ≤ B.min.x ∨ B.max.x ≤ A.min.x ∨ A.max.y ≤ B.min.y ∨ B.max.y ≤ A.min.y ∨
      A.max.z ≤ B.min.z ∨ B.max.z ≤ A.min.z := by
    by_contra hc
    push Not at hc
    obtain ⟨h1, h2, h3, h4, h5, h6⟩ := hc
    have : A.intersects B = true := by
      simp only [Aabb3.intersects, Bool.and_eq_true, decide_eq_true_eq]
      tauto
    rw [h] at this; cases this
  have mem : ∀ x y, S x → T y → A.Mem x ∧ B.Mem y := fun x y hx hy => ⟨hS x hx, hT y hy⟩
  have ne : ∀ u v w : ℝ, u ≠ 0 ∨ v ≠ 0 ∨ w ≠ 0 → (⟨u, v, w⟩ : V3 ℝ) ≠ 0 := by
    rintro u v w h e
    have h1 := congrArg V3.x e
    have h2 := congrArg V3.y e
    have h3 := congrArg V3.z e
    simp at h1 h2 h3
    tauto
  rcases hor with h | h | h | h | h | h
  · refine ⟨⟨1, 0, 0⟩, ne _ _ _ (Or.inl one_ne_zero), fun x y hx hy => ?_⟩
    obtain ⟨⟨⟨p1, p2⟩, ⟨p3, p4⟩, p5, p6⟩, ⟨q1, q2⟩, ⟨q3, q4⟩, q5, q6⟩ := mem x y hx hy
    simp only [V3.dot]; linarith
  · refine ⟨⟨-1, 0, 0⟩, ne _ _ _ (Or.inl (by norm_num)), fun x y hx hy => ?_⟩
    obtain ⟨⟨⟨p1, p2⟩, ⟨p3, p4⟩, p5, p6⟩, ⟨q1, q2⟩, ⟨q3, q4⟩, q5, q6⟩ := mem x y hx hy
    simp only [V3.dot]; linarith
  · refine ⟨⟨0, 1, 0⟩, ne _ _ _ (Or.inr (Or.inl one_ne_zero)), fun x y hx hy => ?_⟩
    obtain ⟨⟨⟨p1, p2⟩, ⟨p3, p4⟩, p5, p6⟩, ⟨q1, q2⟩, ⟨q3, q4⟩, q5, q6⟩ := mem x y hx hy
    simp only [V3.dot]; linarith
  · refine ⟨⟨0, -1, 0⟩, ne _ _ _ (Or.inr (Or.inl (by norm_num))), fun x y hx hy => ?_⟩
    obtain ⟨⟨⟨p1, p2⟩, ⟨p3, p4⟩, p5, p6⟩, ⟨q1, q2⟩, ⟨q3, q4⟩, q5, q6⟩ := mem x y hx hy
    simp only [V3.dot]; linarith
  · refine ⟨⟨0, 0, 1⟩, ne _ _ _ (Or.inr (Or.inr one_ne_zero)), fun x y hx hy => ?_⟩
    obtain ⟨⟨⟨p1, p2⟩, ⟨p3, p4⟩, p5, p6⟩, ⟨q1, q2⟩, ⟨q3, q4⟩, q5, q6⟩ := mem x y hx hy
    simp only [V3.dot]; linarith
  · refine ⟨⟨0, 0, -1⟩, ne _ _ _ (Or.inr (Or.inr (by norm_num))), fun x y hx hy => ?_⟩
    obtain ⟨⟨⟨p1, p2⟩, ⟨p3, p4⟩, p5, p6⟩, ⟨q1, q2⟩, ⟨q3, q4⟩, q5, q6⟩ := mem x y hx hy
    simp only [V3.dot]; linarith

/-- Bounds that do not intersect belong to items with a line or plane between them. -/
theorem separated_of_boxes3 {a b : Item3} (ha : a.1.Ok) (hb : b.1.Ok) (h : (worldBox3 a).intersects (worldBox3 b) = false) : Separated3 a.At b.At :=
  apart_boxes3 (fun _ => worldBox3_mem ha) (fun _ => worldBox3_mem hb) h

/-- C90 in 3D, broad phase only (the narrow phase misses overlapping pairs, `c52_3d_false`): brute force and sweep and prune hand on every pair of primitives that no plane separates, every
primitive included, and so does a tree built from the scene. -/
theorem c90_broad_3d_partial {σ S : Type} (v : VarOps σ (Aabb3 ℝ)) (sap : Sap σ) (hax : sap.sweep_axis < 3) (margin : V3 ℝ) (hx : 0 ≤ margin.x) (hy : 0 ≤ margin.y) (hz : 0 ≤ margin.z)
    (area : Aabb3 ℝ → S) (lt : S → S → Bool) (sub div : S → S → S) (im : S) (scene : List Item3) (hok : ∀ a ∈ scene, a.1.Ok) (hlen : scene.length ≤ 256) (rng : Nat → Nat) :
    (∃ pairs, bruteForce worldBox3 Aabb3.intersects scene = .ok pairs ∧
      (∃ h s, Exec (roundOps3 worldBox3 (fun a => (worldBox3 a).addMargin margin) area lt sub div im) h s ∧ s.values.map Prod.snd = scene ∧
        dbvtPairs (roundOps3 worldBox3 (fun a => (worldBox3 a).addMargin margin) area lt sub div im) Aabb3.intersects s (List.replicate scene.length true) = .ok pairs) ∧
      ∀ i j a b, i < j → scene[i]? = some a → scene[j]? = some b → ¬ Separated3 a.At b.At → (i, j) ∈ pairs) ∧
    ∃ pairs scene' sap', sap.findColliderPairs sapAabb3 v worldBox3 scene = .ok (pairs, scene', sap') ∧ scene'.Perm scene ∧
      ∀ i j a b, i < j → scene'[i]? = some a → scene'[j]? = some b → ¬ Separated3 a.At b.At → (i, j) ∈ pairs := by
  have key : ∀ l : List Item3, (∀ a ∈ l, a.1.Ok) → ∀ (i j : Nat) a b, l[i]? = some a → l[j]? = some b → ¬ Separated3 a.At b.At → Hit worldBox3 Aabb3.intersects l i j := by
    intro l hl i j a b ha hb hns
    refine ⟨a, b, ha, hb, ?_⟩
    by_contra h
    exact hns (separated_of_boxes3 (hl a (List.mem_of_getElem? ha)) (hl b (List.mem_of_getElem? hb)) (by simpa using h))
  constructor
  · obtain ⟨l, h1, -, h3⟩ := c19_brute_force worldBox3 Aabb3.intersects scene
    refine ⟨l, h1, ?_, fun i j a b hij ha hb hns => (h3 i j).2 ⟨hij, key scene hok i j a b ha hb hns⟩⟩
    obtain ⟨h, s, he, hd, hu, hr, hv⟩ := build_tree (roundOps3 worldBox3 (fun a => (worldBox3 a).addMargin margin) area lt sub div im) scene rng
    have hl : s.values.length = scene.length := by rw [← hv, List.length_map]
    obtain ⟨n, hh, -, -, hn, -⟩ := c04_height _ he hr
    refine ⟨h, s, he, hv, ?_⟩
    rcases (c81_pairs3 _ _ area lt sub div im (fun v => (c29_margin3 (worldBox3 v) margin hx hy hz).1) he hd hu hr hh).2 with ⟨l', h1', h2⟩ | ⟨h1, -⟩
    · rw [hl] at h1'
      rw [h1']
      have : bruteForce (fun e : Nat × Item3 => worldBox3 e.2) Aabb3.intersects s.values = bruteForce worldBox3 Aabb3.intersects (s.values.map Prod.snd) := by
        unfold bruteForce
        simp only [List.length_map, List.getElem?_map, ofOption_map, mapOk_bind]
      rw [this, hv, h1] at h2
      cases h2
      rfl
    · omega
  · obtain ⟨l, scene', s', h1, h2, h3, h4⟩ := c20_boxes3 v worldBox3 sap scene hax
    exact ⟨l, scene', s', h1, h2, fun i j a b hij ha hb hns => (h4 i j).2 ⟨hij, key scene' (fun a ha => hok a (h2.mem_iff.1 ha)) i j a b ha hb hns⟩⟩
end
end Verif.Scene
