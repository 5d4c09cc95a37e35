import Verif.Scene.Pipeline
import Verif.Dbvt.VolumeTree
import Verif.Geom.Perspective
import Verif.Dbvt.Rounded
/-!
# Culling with a camera (C98)

A tree of boxes or spheres, queried with the frustum of a perspective projection: no object of which something is seen is lost.
-/
namespace Verif.Scene
open Verif Geom Dbvt
set_option linter.unusedSectionVars false
noncomputable section

/-- What a culling query owes its caller: each value at most as often as it is stored, every value a point of whose bound is seen, and `In` exactly for the values whose bound is seen entirely. -/
structure Culled {V : Type} (occupies : V → V3 ℝ → Prop) (sees : V3 ℝ → Prop) (vs : List V) (l : List (V × Relation)) : Prop where
  /-- the values are stored ones, none more often than it is stored -/
  sub : (l.map Prod.fst).Subperm vs
  /-- nothing that is seen is lost -/
  all : ∀ v ∈ vs, (∃ p, occupies v p ∧ sees p) → ∃ r, (v, r) ∈ l
  /-- only what is entirely seen is called `In` -/
  full : ∀ v r, (v, r) ∈ l → (r = .In ↔ ∀ p, occupies v p → sees p)
  /-- nothing is reported as `Out` -/
  out : ∀ v, (v, Relation.Out) ∉ l

theorem notOut_sublist {V : Type} (rel : V → Relation) : ∀ vs : List V, ((notOut rel vs).map Prod.fst).Sublist vs
  | [] => List.Sublist.refl _
  | v :: vs => by
    have ih := notOut_sublist rel vs
    unfold notOut at ih ⊢
    rw [List.filterMap_cons]
    split
    · exact List.Sublist.cons _ ih
    · rename_i b hb
      split at hb
      · cases hb
      · cases hb
        exact List.Sublist.cons_cons _ ih

theorem culled_of {V : Type} (occupies : V → V3 ℝ → Prop) (sees : V3 ℝ → Prop) (rel : V → Relation)
    (hin : ∀ v, rel v = .In ↔ ∀ p, occupies v p → sees p) (hout : ∀ v, rel v = .Out → ∀ p, occupies v p → ¬ sees p) {vs : List V} {l : List (V × Relation)}
    (h : l.Perm (notOut rel vs)) : Culled occupies sees vs l := by
  have mem : ∀ v r, (v, r) ∈ l ↔ v ∈ vs ∧ rel v = r ∧ r ≠ .Out := by
    intro v r
    rw [h.mem_iff]
    simp only [notOut, List.mem_filterMap]
    constructor
    · rintro ⟨w, hw, e⟩
      split at e
      · cases e
      · rename_i hne
        cases e
        exact ⟨hw, rfl, hne⟩
    · rintro ⟨hv, rfl, hne⟩
      exact ⟨v, hv, if_neg hne⟩
  refine ⟨?_, ?_, ?_, ?_⟩
  · refine ((h.map Prod.fst).subperm).trans ?_
    exact (notOut_sublist rel vs).subperm
  · rintro v hv ⟨p, hp, hs⟩
    refine ⟨rel v, (mem _ _).2 ⟨hv, rfl, fun ho => hout v ho p hp hs⟩⟩
  · intro v r hvr
    obtain ⟨-, rfl, -⟩ := (mem _ _).1 hvr
    exact hin v
  · intro v hv
    exact ((mem _ _).1 hv).2.2 rfl

/-- The query of a tree of boxes with a frustum whose planes bound the open set `sees`. -/
theorem culled_boxes {V : Type} (bound fat : V → VBox3 ℝ) (im : ℝ) (hfat : ∀ v, (fat v).1.contains (bound v).1 = true) (f : Frustum ℝ) (sees : V3 ℝ → Prop)
    (hb : ∀ b : Aabb3 ℝ, b.Valid → (f.contains b.relatePlane = .In ↔ ∀ p, b.Mem p → sees p) ∧ (f.contains b.relatePlane = .Out → ∀ p, b.Mem p → ¬ sees p))
    {h : Hist V} {s : Dbvt V (VBox3 ℝ)} (he : Exec (vboxOps3 bound fat im) h s) (hd : Disciplined (vboxOps3 bound fat im) h)
    (hu : UpToDate (vboxOps3 bound fat im) h) (hr : Refitted! h) {n : Nat} (hh : s.height = .ok n) (hn : n ≤ 256) :
    ∃ l, s.query (vboxOps3 bound fat im) (frustumVisitor (fun b => b.1.relatePlane) f) () = .ok l ∧ Culled (fun v => (bound v).1.Mem) sees (s.values.map Prod.snd) l := by
  rcases c17_frustum_boxes bound fat im hfat f he hd hu hr hh with ⟨l, h1, h2, -⟩ | ⟨h1, -⟩
  · exact ⟨l, h1, culled_of _ _ _ (fun v => (hb _ (bound v).2).1) (fun v => (hb _ (bound v).2).2) h2⟩
  · omega

/-- The same with spheres. -/
theorem culled_spheres {V : Type} (bound fat : V → BroadPhase.Ball) (pi im : ℝ) (hfat : ∀ v, (fat v).1.contains (bound v).1 = true) (f : Frustum ℝ) (hf : ∀ P, f.HasPlane P → P.n.norm = 1) (sees : V3 ℝ → Prop)
    (hb : ∀ s : Sphere, 0 ≤ s.radius → (f.contains s.relatePlane = .In ↔ ∀ p, s.Mem p → sees p) ∧ (f.contains s.relatePlane = .Out → ∀ p, s.Mem p → ¬ sees p))
    {h : Hist V} {s : Dbvt V BroadPhase.Ball} (he : Exec (ballOps bound fat pi im) h s) (hd : Disciplined (ballOps bound fat pi im) h)
    (hu : UpToDate (ballOps bound fat pi im) h) (hr : Refitted! h) {n : Nat} (hh : s.height = .ok n) (hn : n ≤ 256) :
    ∃ l, s.query (ballOps bound fat pi im) (frustumVisitor (fun b => b.1.relatePlane) f) () = .ok l ∧ Culled (fun v => (bound v).1.Mem) sees (s.values.map Prod.snd) l := by
  rcases c17_frustum_spheres bound fat pi im hfat f hf he hd hu hr hh with ⟨l, h1, h2⟩ | ⟨h1, -⟩
  · exact ⟨l, h1, culled_of _ _ _ (fun v => (hb _ (bound v).2).1) (fun v => (hb _ (bound v).2).2) h2⟩
  · omega

/-- **C98, boxes.** A tree of boxes after any disciplined history with a refit, of at most 256 levels (C11), asked with the frustum of a camera: every value of whose box something is
seen is returned, and those marked `In` are exactly the returned ones that are seen entirely. -/
theorem c98_boxes {V : Type} (bound fat : V → VBox3 ℝ) (im : ℝ) (hfat : ∀ v, (fat v).1.contains (bound v).1 = true) 
    {h : Hist V} {s : Dbvt V (VBox3 ℝ)} (he : Exec (vboxOps3 bound fat im) h s) (hd : Disciplined (vboxOps3 bound fat im) h)
    (hu : UpToDate (vboxOps3 bound fat im) h) (hr : Refitted! h) {n : Nat} (hh : s.height = .ok n) (hn : n ≤ 256) :
    (∀ P : Perspective, P.left < P.right → P.bottom < P.top → 0 < P.near → P.near < P.far → ∃ f l, P.toFrustum = .ok f ∧
      s.query (vboxOps3 bound fat im) (frustumVisitor (fun b => b.1.relatePlane) f) () = .ok l ∧ Culled (fun v => (bound v).1.Mem) P.Sees (s.values.map Prod.snd) l) ∧
    (∀ P : PerspectiveFov, 0 < P.fovy → P.fovy < Real.pi → P.aspect ≠ 0 → 0 < P.near → 0 < P.far → P.far ≠ P.near → ∃ f l, P.toFrustum = .ok f ∧
      s.query (vboxOps3 bound fat im) (frustumVisitor (fun b => b.1.relatePlane) f) () = .ok l ∧ Culled (fun v => (bound v).1.Mem) P.Sees (s.values.map Prod.snd) l) := by
  constructor
  · intro P h1 h2 h3 h4
    obtain ⟨f, hf, -, hb, -⟩ := c97_perspective P h1 h2 h3 h4
    obtain ⟨l, q1, q2⟩ := culled_boxes bound fat im hfat f _ hb he hd hu hr hh hn
    exact ⟨f, l, hf, q1, q2⟩
  · intro P h1 h2 h3 h4 h5 h6
    obtain ⟨f, hf, -, hb, -⟩ := c97_fov P h1 h2 h3 h4 h5 h6
    obtain ⟨l, q1, q2⟩ := culled_boxes bound fat im hfat f _ hb he hd hu hr hh hn
    exact ⟨f, l, hf, q1, q2⟩

/-- **C98, spheres.** -/
theorem c98_spheres {V : Type} (bound fat : V → BroadPhase.Ball) (pi im : ℝ) (hfat : ∀ v, (fat v).1.contains (bound v).1 = true)
    {h : Hist V} {s : Dbvt V BroadPhase.Ball} (he : Exec (ballOps bound fat pi im) h s) (hd : Disciplined (ballOps bound fat pi im) h)
    (hu : UpToDate (ballOps bound fat pi im) h) (hr : Refitted! h) {n : Nat} (hh : s.height = .ok n) (hn : n ≤ 256) :
    (∀ P : Perspective, P.left < P.right → P.bottom < P.top → 0 < P.near → P.near < P.far → ∃ f l, P.toFrustum = .ok f ∧
      s.query (ballOps bound fat pi im) (frustumVisitor (fun b => b.1.relatePlane) f) () = .ok l ∧ Culled (fun v => (bound v).1.Mem) P.Sees (s.values.map Prod.snd) l) ∧
    (∀ P : PerspectiveFov, 0 < P.fovy → P.fovy < Real.pi → P.aspect ≠ 0 → 0 < P.near → 0 < P.far → P.far ≠ P.near → ∃ f l, P.toFrustum = .ok f ∧
      s.query (ballOps bound fat pi im) (frustumVisitor (fun b => b.1.relatePlane) f) () = .ok l ∧ Culled (fun v => (bound v).1.Mem) P.Sees (s.values.map Prod.snd) l) := by
  have unit : ∀ {r : Res (M4 ℝ)} {f : Frustum ℝ}, (r >>= fun m => Res.ofOption (Frustum.fromMatrix4 m)) = .ok f → ∀ Q, f.HasPlane Q → Q.n.norm = 1 := by
    intro r f h
    obtain ⟨m, -, hm⟩ := Res.bind_eq_ok.1 h
    cases hc : Frustum.fromMatrix4 m with
    | none => rw [hc] at hm; cases hm
    | some g => rw [hc] at hm; cases hm; exact (c42_clip_space m f hc 0).2.2.2.2
  constructor
  · intro P h1 h2 h3 h4
    obtain ⟨f, hf, -, -, hb⟩ := c97_perspective P h1 h2 h3 h4
    obtain ⟨l, q1, q2⟩ := culled_spheres bound fat pi im hfat f (unit hf) _ hb he hd hu hr hh hn
    exact ⟨f, l, hf, q1, q2⟩
  · intro P h1 h2 h3 h4 h5 h6
    obtain ⟨f, hf, -, -, hb⟩ := c97_fov P h1 h2 h3 h4 h5 h6
    obtain ⟨l, q1, q2⟩ := culled_spheres bound fat pi im hfat f (unit hf) _ hb he hd hu hr hh hn
    exact ⟨f, l, hf, q1, q2⟩

/-- Such trees exist: any list of at most 256 boxes, inserted one after the other and refitted; nothing seen is lost. -/
theorem c98_built {V : Type} (bound : V → VBox3 ℝ) (im : ℝ) (vs : List V) (hvs : vs.length ≤ 256) (rng : Nat → Nat) (P : Perspective) (h1 : P.left < P.right) (h2 : P.bottom < P.top)
    (h3 : 0 < P.near) (h4 : P.near < P.far) : ∃ (s : Dbvt V (VBox3 ℝ)) (f : Frustum ℝ) (l : List (V × Relation)), s.values.map Prod.snd = vs ∧ P.toFrustum = .ok f ∧
      s.query (vboxOps3 bound bound im) (frustumVisitor (fun b => b.1.relatePlane) f) () = .ok l ∧ Culled (fun v => (bound v).1.Mem) P.Sees vs l := by
  obtain ⟨h, s, he, hd, hu, hr, hv⟩ := build_tree (vboxOps3 bound bound im) vs rng
  obtain ⟨n, hh, -, -, hn, -⟩ := c04_height _ he hr
  have hl : s.values.length = vs.length := by rw [← hv, List.length_map]
  obtain ⟨f, l, q1, q2, q3⟩ := (c98_boxes bound bound im (fun v => (vencloses3 bound bound im).contains (c26_order3.1 _)) he hd hu hr hh (by omega)).1 P h1 h2 h3 h4
  rw [hv] at q3
  exact ⟨s, f, l, hv, q1, q2, q3⟩

/-- C99 on trees that exist: boxes of whole numbers under rounding down, inserted one after the other and refitted; any ray. -/
theorem c99_built {V : Type} (bound : V → { b : Aabb2 Whole // b.Valid }) (area : Aabb2 Whole → ℤ) (vs : List V) (hvs : vs.length ≤ 256) (rng : Nat → Nat) (o d : V2 Whole) :
    ∃ (s : Dbvt V { b : Aabb2 Whole // b.Valid }) (l : List (V × V2 Whole)), s.values.map Prod.snd = vs ∧
      s.query (fOps2 bound bound area (fun x y => decide (x < y)) (· - ·) (· / ·) 0) (continuousVisitor fun b => intersectionF2 wholeRounding o d b.1) () = .ok l ∧
      l.Perm (vs.filterMap fun v => (intersectionF2 wholeRounding o d (bound v).1).map fun p => (v, p)) := by
  obtain ⟨h, s, he, hd, hu, hr, hv⟩ := build_tree (fOps2 bound bound area (fun x y => decide (x < y)) (· - ·) (· / ·) 0) vs rng
  obtain ⟨n, hh, -, -, hn, -⟩ := c04_height _ he hr
  have hl : s.values.length = vs.length := by rw [← hv, List.length_map]
  obtain ⟨⟨l, q1, q2⟩, -⟩ := c99_ray2 wholeRounding bound bound area (fun x y => decide (x < y)) (· - ·) (· / ·) 0 (fun v => c26_order2.1 _) o d he hd hu hr hh (by omega)
  refine ⟨s, l, hv, q1, q2.trans (List.Perm.of_eq ?_)⟩
  rw [← hv, List.filterMap_map]
  rfl
end
end Verif.Scene
