import Verif.Minkowski.Gjk2Total
import Verif.Minkowski.Gjk3
import Verif.Primitive.Enum
/-!
# GJK on the primitives of the library (C52, C53, C65)
-/
namespace Verif.Minkowski
open Verif Geom Primitive
set_option linter.unusedSectionVars false

/-! ## Convexity of the transformed primitives -/

theorem image_convex2 {K : Type} [Field K] [LinearOrder K] [IsStrictOrderedRing K] (D : Dec2 K) {S : V2 K → Prop} (h : Convex2 S) : Convex2 (Image D.tr S) := by
  rintro _ _ t ⟨p, hp, rfl⟩ ⟨q, hq, rfl⟩ t0 t1
  refine ⟨_, h p q t hp hq t0 t1, ?_⟩
  ext <;> simp [Dec2.tr, M2.apply] <;> ring
theorem image_convex3 {K : Type} [Field K] [LinearOrder K] [IsStrictOrderedRing K] (D : Dec3 K) {S : V3 K → Prop} (h : Convex3 S) : Convex3 (Image D.tr S) := by
  rintro _ _ t ⟨p, hp, rfl⟩ ⟨q, hq, rfl⟩ t0 t1
  refine ⟨_, h p q t hp hq t0 t1, ?_⟩
  ext <;> simp [Dec3.tr, M3.apply] <;> ring

section
variable {K : Type} [Field K] [LinearOrder K] [IsStrictOrderedRing K]
theorem seg_range {a b x y t : K} (h0 : 0 ≤ t) (h1 : t ≤ 1) (hx : a ≤ x ∧ x ≤ b) (hy : a ≤ y ∧ y ≤ b) : a ≤ x + (y - x) * t ∧ x + (y - x) * t ≤ b := by
  constructor <;> nlinarith [hx.1, hx.2, hy.1, hy.2]
theorem rect_convex (w h : K) : Convex2 (InRect w h) := fun _ _ _ hp hq t0 t1 => ⟨seg_range t0 t1 hp.1 hq.1, seg_range t0 t1 hp.2 hq.2⟩
theorem box_convex (w h l : K) : Convex3 (InBox w h l) := fun _ _ _ hp hq t0 t1 =>
  ⟨seg_range t0 t1 hp.1 hq.1, seg_range t0 t1 hp.2.1 hq.2.1, seg_range t0 t1 hp.2.2 hq.2.2⟩
theorem quad_convex (w h : K) : Convex3 (InQuad w h) := fun _ _ _ hp hq t0 t1 =>
  ⟨seg_range t0 t1 hp.1 hq.1, seg_range t0 t1 hp.2.1 hq.2.1, by simp [hp.2.2, hq.2.2]⟩
end

theorem prim2_convex (s : Prim2) : Convex2 s.Points := by
  intro p q t hp hq t0 t1
  cases s with
  | particle =>
    have hp : p = 0 := hp
    have hq : q = 0 := hq
    subst hp hq
    show _ = _
    ext <;> simp
  | line l =>
    obtain ⟨u, u0, u1, rfl⟩ := hp
    obtain ⟨v, v0, v1, rfl⟩ := hq
    have := seg_range t0 t1 ⟨u0, u1⟩ ⟨v0, v1⟩
    refine ⟨u + (v - u) * t, this.1, this.2, ?_⟩
    ext <;> simp [Line2.at] <;> ring
  | circle s => exact convex_norm2 p q t0 t1 hp hq
  | rectangle s => exact rect_convex _ _ p q t hp hq t0 t1
  | square s => exact rect_convex _ _ p q t hp hq t0 t1
  | polygon s => exact .seg hp hq t0 t1

theorem prim3_convex (s : Prim3) : Convex3 s.Points := by
  intro p q t hp hq t0 t1
  cases s with
  | particle =>
    have hp : p = 0 := hp
    have hq : q = 0 := hq
    subst hp hq
    show _ = _
    ext <;> simp
  | quad s => exact quad_convex _ _ p q t hp hq t0 t1
  | sphere s => exact convex_norm3 p q t0 t1 hp hq
  | cuboid s => exact box_convex _ _ _ p q t hp hq t0 t1
  | cube s => exact box_convex _ _ _ p q t hp hq t0 t1
  | cylinder s =>
    refine ⟨seg_range t0 t1 hp.1 hq.1, ?_⟩
    have h1 := hp.2
    have h2 := hq.2
    simp only [V3.add_x, V3.sub_x, V3.mul_x, V3.add_z, V3.sub_z, V3.mul_z]
    nlinarith [mul_nonneg (mul_nonneg t0 (sub_nonneg.2 t1)) (add_nonneg (mul_self_nonneg (p.x - q.x)) (mul_self_nonneg (p.z - q.z))),
      mul_nonneg t0 (sub_nonneg.2 h2), mul_nonneg (sub_nonneg.2 t1) (sub_nonneg.2 h1)]
  | capsule s =>
    obtain ⟨u, u0, u1, hu⟩ := hp
    obtain ⟨v, v0, v1, hv⟩ := hq
    have := seg_range t0 t1 ⟨u0, u1⟩ ⟨v0, v1⟩
    refine ⟨u + (v - u) * t, this.1, this.2, ?_⟩
    have h := convex_norm3 _ _ t0 t1 hu hv
    have e : p + (q - p) * t - ⟨0, u + (v - u) * t, 0⟩ = p - ⟨0, u, 0⟩ + (q - ⟨0, v, 0⟩ - (p - ⟨0, u, 0⟩)) * t := by
      ext <;> simp <;> ring
    rwa [e]
  | polyhedron s => exact .seg hp hq t0 t1

/-! ## 2D -/

theorem prim2_support (s : Prim2) (hs : s.Ok) (D : Dec2 ℝ) (ho : D.rot.Orthogonal) (hsc : D.scale ≠ 0) :
    SupportFn2 (s.supportPoint D.tr) (Image D.tr s.Points) := fun d hd => c67_support2 s hs D ho hsc d hd

/-- The vertices of a 2D primitive that is not a circle. -/
def Prim2.verts : Prim2 → List (V2 ℝ)
  | .particle => [0]
  | .line l => [l.origin, l.dest]
  | .circle _ => []
  | .rectangle s => s.corners
  | .square s => s.rectangle.corners
  | .polygon s => s.vertices

theorem support_finite {K : Type} [Field K] [LinearOrder K] [IsStrictOrderedRing K] (D : Dec2 K) (loc : V2 K → V2 K) (vs : List (V2 K)) (S : V2 K → Prop)
    (hS : ∀ v ∈ vs, S v) (h : ∀ e, loc e ∈ vs) : FiniteSupport2 (support loc D.tr) (Image D.tr S) (vs.map D.tr.point) := by
  constructor
  · intro p hp
    simp only [List.mem_map] at hp
    obtain ⟨v, hv, rfl⟩ := hp
    exact ⟨v, hS v hv, rfl⟩
  · intro d p hp
    unfold support at hp
    rw [Res.bind_eq_ok] at hp
    obtain ⟨e, -, he⟩ := hp
    cases he
    exact List.mem_map.2 ⟨_, h e, rfl⟩

theorem rect_verts {w h : ℝ} (hw : 0 ≤ w) (hh : 0 ≤ h) : ∀ v ∈ (Rectangle.new w h).corners, InRect w h v := by
  intro v hv
  simp [Rectangle.new, Rectangle.newImpl, Rectangle.generateCorners, one_add_one_eq_two] at hv
  rcases hv with rfl | rfl | rfl | rfl <;> refine ⟨⟨?_, ?_⟩, ?_, ?_⟩ <;> simp only <;> linarith

theorem prim2_finite (s : Prim2) (hs : s.Ok) (hc : ∀ c, s ≠ .circle c) (D : Dec2 ℝ) :
    FiniteSupport2 (s.supportPoint D.tr) (Image D.tr s.Points) ((Prim2.verts s).map D.tr.point) := by
  cases s with
  | particle =>
    refine ⟨?_, ?_⟩
    · intro p hp
      simp only [Prim2.verts, List.map_cons, List.map_nil, List.mem_singleton] at hp
      exact ⟨0, rfl, hp⟩
    · intro d p hp
      have hp : Res.ok (D.tr.point 0) = Res.ok p := hp
      cases hp
      simp [Prim2.verts]
  | line l =>
    refine support_finite D (lineLocal l) [l.origin, l.dest] l.Mem ?_ ?_
    · intro v hv
      simp only [List.mem_cons, List.not_mem_nil, or_false] at hv
      rcases hv with rfl | rfl
      · exact ⟨0, le_rfl, zero_le_one, by ext <;> simp [Line2.at]⟩
      · exact ⟨1, zero_le_one, le_rfl, by ext <;> simp [Line2.at]⟩
    · intro e
      unfold lineLocal
      split <;> simp
  | circle c => exact absurd rfl (hc c)
  | rectangle s =>
    obtain ⟨w, h, hw, hh, rfl⟩ := hs
    exact support_finite D _ _ _ (rect_verts hw hh) fun e => (maxPoint2_spec (Rectangle.new w h).corners e (by simp [Rectangle.new, Rectangle.newImpl, Rectangle.generateCorners])).1
  | square s =>
    obtain ⟨w, hw, rfl⟩ := hs
    exact support_finite D _ _ _ (rect_verts hw hw) fun e => (maxPoint2_spec (Rectangle.new w w).corners e (by simp [Rectangle.new, Rectangle.newImpl, Rectangle.generateCorners])).1
  | polygon s =>
    have e : (Prim2.polygon s).supportPoint D.tr = support (maxPoint2 s.vertices) D.tr := by
      funext d
      exact if_pos hs.2
    rw [e]
    exact support_finite D _ _ _ (fun v hv => .vertex hv) fun e => (maxPoint2_spec _ e hs.1).1

/-- C53 for any two 2D primitives, any rotations, translations, non-zero scales and iteration limit: GJK returns, and a returned simplex is a triangle
around the origin made of points of the two shapes, which then share a point. -/
theorem c53_prim2 (s t : Prim2) (hs : s.Ok) (ht : t.Ok) (D E : Dec2 ℝ) (hD : D.rot.Orthogonal) (hE : E.rot.Orthogonal) (hDs : D.scale ≠ 0) (hEs : E.scale ≠ 0)
    (maxIterations : Nat) :
    ∃ o, gjkIntersect reduce2 maxIterations (s.supportPoint D.tr) (t.supportPoint E.tr) (D.tr.point 0) (E.tr.point 0) = .ok o ∧
      ∀ x, o = some x → (∃ p, Image D.tr s.Points p ∧ Image E.tr t.Points p) ∧
        ∃ a b c, x = [a, b, c] ∧ (∀ p ∈ x, FromShapes2 (Image D.tr s.Points) (Image E.tr t.Points) p) ∧ InTriangle a.v b.v c.v :=
  c53_2d _ _ (image_convex2 D (prim2_convex s)) (image_convex2 E (prim2_convex t)) (prim2_support s hs D hD hDs) (prim2_support t ht E hE hEs) _ _ _

/-- C52 for any two 2D primitives: no simplex, with iterations left, means that a line separates the two shapes. -/
theorem c52_prim2 (s t : Prim2) (hs : s.Ok) (ht : t.Ok) (D E : Dec2 ℝ) (hD : D.rot.Orthogonal) (hE : E.rot.Orthogonal) (hDs : D.scale ≠ 0) (hEs : E.scale ≠ 0)
    (maxIterations : Nat)
    (h : gjkRun reduce2 maxIterations (s.supportPoint D.tr) (t.supportPoint E.tr) (D.tr.point 0) (E.tr.point 0) = .ok .miss) :
    Separated2 (Image D.tr s.Points) (Image E.tr t.Points) :=
  c52_2d _ _ (prim2_support s hs D hD hDs) (prim2_support t ht E hE hEs) _ _ _ h

/-- C65 for 2D primitives other than circles: with as many iterations as pairs of vertices, and three more, the answer is exact. The library runs at most
100 iterations, which is enough for any two of these primitives (they have at most nine vertices). -/
theorem c65_prim2 (s t : Prim2) (hs : s.Ok) (ht : t.Ok) (hsc : ∀ c, s ≠ .circle c) (htc : ∀ c, t ≠ .circle c) (D E : Dec2 ℝ) (hD : D.rot.Orthogonal)
    (hE : E.rot.Orthogonal) (hDs : D.scale ≠ 0) (hEs : E.scale ≠ 0) :
    ∃ o, gjkIntersect reduce2 100 (s.supportPoint D.tr) (t.supportPoint E.tr) (D.tr.point 0) (E.tr.point 0) = .ok o ∧
      (o.isSome → ∃ p, Image D.tr s.Points p ∧ Image E.tr t.Points p) ∧ (o = none → Separated2 (Image D.tr s.Points) (Image E.tr t.Points)) := by
  have len : ∀ u : Prim2, u.Ok → (Prim2.verts u).length ≤ 9 := by
    intro u hu
    cases u with
    | particle => simp [Prim2.verts]
    | line => simp [Prim2.verts]
    | circle => simp [Prim2.verts]
    | rectangle =>
      obtain ⟨w, h, hw, hh, rfl⟩ := hu
      simp [Prim2.verts, Rectangle.new, Rectangle.newImpl, Rectangle.generateCorners]
    | square =>
      obtain ⟨w, hw, rfl⟩ := hu
      simp [Prim2.verts, Square.new, Rectangle.new, Rectangle.newImpl, Rectangle.generateCorners]
    | polygon => have := hu.2; simp only [Prim2.verts]; omega
  refine c65_exact _ _ (image_convex2 D (prim2_convex s)) (image_convex2 E (prim2_convex t)) (prim2_support s hs D hD hDs) (prim2_support t ht E hE hEs) _ _
    (prim2_finite s hs hsc D) (prim2_finite t ht htc E) 100 ?_ _ _
  have := Nat.mul_le_mul (len s hs) (len t ht)
  simp only [List.length_map]
  omega

/-- The identity rotation moved to a place. -/
def at2 (p : V2 ℝ) : Dec2 ℝ := ⟨1, ⟨⟨1, 0⟩, ⟨0, 1⟩⟩, p⟩
example (p : V2 ℝ) : (at2 p).rot.Orthogonal ∧ (at2 p).scale ≠ 0 := by simp [at2, M2.Orthogonal, V2.dot]
example : (Prim2.rectangle (Rectangle.new 10 10)).Ok := ⟨10, 10, by norm_num, by norm_num, rfl⟩

/-- Two overlapping rectangles and two that are apart, run on the model (rational numbers). -/
example :
    (match gjkIntersect reduce2 100 ((Rectangle.new 10 10).supportPoint (⟨1, ⟨⟨1, 0⟩, ⟨0, 1⟩⟩, ⟨15, 0⟩⟩ : Dec2 ℚ).tr)
      ((Rectangle.new 10 10).supportPoint (⟨1, ⟨⟨1, 0⟩, ⟨0, 1⟩⟩, ⟨7, 2⟩⟩ : Dec2 ℚ).tr) ⟨15, 0⟩ ⟨7, 2⟩ with | .ok (some x) => x.length | _ => 0) = 3 ∧
    gjkIntersect reduce2 100 ((Rectangle.new 10 10).supportPoint (⟨1, ⟨⟨1, 0⟩, ⟨0, 1⟩⟩, ⟨15, 0⟩⟩ : Dec2 ℚ).tr)
      ((Rectangle.new 10 10).supportPoint (⟨1, ⟨⟨1, 0⟩, ⟨0, 1⟩⟩, ⟨-15, 2⟩⟩ : Dec2 ℚ).tr) ⟨15, 0⟩ ⟨-15, 2⟩ = .ok none := by
  refine ⟨by decide +kernel, by decide +kernel⟩

/-! ## 3D -/

theorem prim3_support (s : Prim3) (hs : s.Ok) (nz : V3 ℝ → Bool) (D : Dec3 ℝ) (ho : D.rot.Orthogonal) (hsc : D.scale ≠ 0) :
    SupportFn3 (s.supportPoint nz D.tr) (Image D.tr s.Points) := fun d hd => c67_support3 s hs nz D ho hsc d hd

/-- Primitives without a rounded part: their support is defined for the direction zero too. -/
def Flat3 : Prim3 → Prop
  | .sphere _ => False
  | .capsule _ => False
  | _ => True

theorem prim3_points (s : Prim3) (hs : s.Ok) (hf : Flat3 s) (nz : V3 ℝ → Bool) (D : Dec3 ℝ) (hsc : D.scale ≠ 0) :
    PointsOf3 (s.supportPoint nz D.tr) (Image D.tr s.Points) := by
  intro d
  have hT := D.similar hsc
  have key : (∃ p, s.supportPoint nz D.tr d = .ok p ∧ Extreme3 (Image D.tr s.Points) d p) → ∃ p, s.supportPoint nz D.tr d = .ok p ∧ Image D.tr s.Points p :=
    fun ⟨p, h1, h2⟩ => ⟨p, h1, h2.1⟩
  apply key
  cases s with
  | sphere s => exact hf.elim
  | capsule s => exact hf.elim
  | particle =>
    refine ⟨_, rfl, ⟨0, rfl, rfl⟩, ?_⟩
    rintro q ⟨p, rfl, rfl⟩
    exact le_rfl
  | quad s =>
    obtain ⟨w, h, hw, hh, rfl⟩ := hs
    exact c46_quad w h hw hh hT d
  | cuboid s =>
    obtain ⟨w, h, l, hw, hh, hl, rfl⟩ := hs
    exact (c46_cuboid w h l hw hh hl hT d).1
  | cube s =>
    obtain ⟨w, hw, rfl⟩ := hs
    exact (c46_cuboid w w w hw hw hw hT d).2
  | cylinder s => exact c46_cylinder s hs.1 hs.2 (nz d) hT d
  | polyhedron s =>
    rcases hs with ⟨vs, hv, rfl⟩ | ⟨vs, fs, hc, he⟩
    · exact c46_polyhedron vs hv hT d
    · obtain ⟨P, p1, p2⟩ := c62_hill_climb hc hT d
      rw [he] at p1
      cases p1
      obtain ⟨P, p1, -, p3, -⟩ := newWithFaces_ok hc.tri hc.oriented hc.normals
      rw [he] at p1
      cases p1
      show ∃ p, s.supportPoint D.tr d = .ok p ∧ Extreme3 (Image D.tr (Hull3 s.positions)) d p
      rw [p3]
      exact p2

/-- C53 for any two 3D primitives other than spheres and capsules. -/
theorem c53_prim3 (s t : Prim3) (hs : s.Ok) (ht : t.Ok) (hsf : Flat3 s) (htf : Flat3 t) (nz nz' : V3 ℝ → Bool) (D E : Dec3 ℝ)
    (hDs : D.scale ≠ 0) (hEs : E.scale ≠ 0) (maxIterations : Nat) :
    ∃ o, gjkIntersect reduce3 maxIterations (s.supportPoint nz D.tr) (t.supportPoint nz' E.tr) (D.tr.point 0) (E.tr.point 0) = .ok o ∧
      ∀ x, o = some x → (∃ p, Image D.tr s.Points p ∧ Image E.tr t.Points p) ∧
        ∃ a b c d, x = [a, b, c, d] ∧ (∀ p ∈ x, FromShapes3 (Image D.tr s.Points) (Image E.tr t.Points) p) ∧ InTetrahedron a.v b.v c.v d.v :=
  c53_3d _ _ (image_convex3 D (prim3_convex s)) (image_convex3 E (prim3_convex t)) (prim3_points s hs hsf nz D hDs) (prim3_points t ht htf nz' E hEs) _ _ _

/-- C52 and C53 for any two 3D primitives when the first two support points and the origin are not in line.
Missing: the case that they are in line (see `c52_3d_false`). -/
theorem c52_prim3_partial (s t : Prim3) (hs : s.Ok) (ht : t.Ok) (nz nz' : V3 ℝ → Bool) (D E : Dec3 ℝ) (hD : D.rot.Orthogonal)
    (hE : E.rot.Orthogonal) (hDs : D.scale ≠ 0) (hEs : E.scale ≠ 0) (maxIterations : Nat)
    (hcol : ∀ p q, SP.fromMinkowski (s.supportPoint nz D.tr) (t.supportPoint nz' E.tr) (firstDirection (D.tr.point 0) (E.tr.point 0)) = .ok p →
      SP.fromMinkowski (s.supportPoint nz D.tr) (t.supportPoint nz' E.tr) (-firstDirection (D.tr.point 0) (E.tr.point 0)) = .ok q → p.v.cross q.v ≠ 0) :
    (gjkRun reduce3 maxIterations (s.supportPoint nz D.tr) (t.supportPoint nz' E.tr) (D.tr.point 0) (E.tr.point 0) = .ok .miss →
      Separated3 (Image D.tr s.Points) (Image E.tr t.Points)) ∧
    ∃ o, gjkIntersect reduce3 maxIterations (s.supportPoint nz D.tr) (t.supportPoint nz' E.tr) (D.tr.point 0) (E.tr.point 0) = .ok o ∧
      ∀ x, o = some x → (∃ p, Image D.tr s.Points p ∧ Image E.tr t.Points p) ∧
        ∃ a b c d, x = [a, b, c, d] ∧ (∀ p ∈ x, FromShapes3 (Image D.tr s.Points) (Image E.tr t.Points) p) ∧ InTetrahedron a.v b.v c.v d.v :=
  ⟨c52_3d_partial _ _ (prim3_support s hs nz D hD hDs) (prim3_support t ht nz' E hE hEs) _ _ _ hcol,
   c53_3d_round _ _ (image_convex3 D (prim3_convex s)) (image_convex3 E (prim3_convex t)) (prim3_support s hs nz D hD hDs) (prim3_support t ht nz' E hE hEs) _ _ _ hcol⟩

/-- C52 is false in 3D: two cubes of side 10 whose centres are 7 apart on the x axis overlap in depth, yet GJK answers "no collision" (the first two support
points are in line with the origin, the replacement direction finds the first one again, and the search direction becomes zero). -/
theorem c52_3d_false :
    gjkRun reduce3 100 ((Cuboid.new 10 10 10).supportPoint (⟨1, ⟨⟨1, 0, 0⟩, ⟨0, 1, 0⟩, ⟨0, 0, 1⟩⟩, ⟨0, 0, 0⟩⟩ : Dec3 ℚ).tr)
      ((Cuboid.new 10 10 10).supportPoint (⟨1, ⟨⟨1, 0, 0⟩, ⟨0, 1, 0⟩, ⟨0, 0, 1⟩⟩, ⟨7, 0, 0⟩⟩ : Dec3 ℚ).tr) ⟨0, 0, 0⟩ ⟨7, 0, 0⟩ = .ok .miss ∧
    ¬ Separated3 (Image (⟨1, ⟨⟨1, 0, 0⟩, ⟨0, 1, 0⟩, ⟨0, 0, 1⟩⟩, ⟨0, 0, 0⟩⟩ : Dec3 ℚ).tr (InBox 10 10 10))
      (Image (⟨1, ⟨⟨1, 0, 0⟩, ⟨0, 1, 0⟩, ⟨0, 0, 1⟩⟩, ⟨7, 0, 0⟩⟩ : Dec3 ℚ).tr (InBox 10 10 10)) := by
  constructor
  · decide +kernel
  · rintro ⟨d, hd, h⟩
    have mem : ∀ x y z : ℚ, (-1 ≤ x ∧ x ≤ 1) → (-1 ≤ y ∧ y ≤ 1) → (-1 ≤ z ∧ z ≤ 1) →
        Image (⟨1, ⟨⟨1, 0, 0⟩, ⟨0, 1, 0⟩, ⟨0, 0, 1⟩⟩, ⟨0, 0, 0⟩⟩ : Dec3 ℚ).tr (InBox 10 10 10) ⟨7 / 2 + x, y, z⟩ ∧
        Image (⟨1, ⟨⟨1, 0, 0⟩, ⟨0, 1, 0⟩, ⟨0, 0, 1⟩⟩, ⟨7, 0, 0⟩⟩ : Dec3 ℚ).tr (InBox 10 10 10) ⟨7 / 2 + x, y, z⟩ := by
      rintro x y z ⟨x1, x2⟩ ⟨y1, y2⟩ ⟨z1, z2⟩
      constructor
      · refine ⟨⟨7 / 2 + x, y, z⟩, ⟨⟨?_, ?_⟩, ⟨?_, ?_⟩, ?_, ?_⟩, ?_⟩
        all_goals first | (simp only; linarith) | (ext <;> simp [Dec3.tr, M3.apply])
      · refine ⟨⟨-(7 / 2) + x, y, z⟩, ⟨⟨?_, ?_⟩, ⟨?_, ?_⟩, ?_, ?_⟩, ?_⟩
        all_goals first | (simp only; linarith) | (ext <;> simp [Dec3.tr, M3.apply]; try ring)
    have z0 := mem 0 0 0 (by norm_num) (by norm_num) (by norm_num)
    have hx1 := h _ _ (mem 1 0 0 (by norm_num) (by norm_num) (by norm_num)).1 z0.2
    have hx2 := h _ _ (mem (-1) 0 0 (by norm_num) (by norm_num) (by norm_num)).1 z0.2
    have hy1 := h _ _ (mem 0 1 0 (by norm_num) (by norm_num) (by norm_num)).1 z0.2
    have hy2 := h _ _ (mem 0 (-1) 0 (by norm_num) (by norm_num) (by norm_num)).1 z0.2
    have hz1 := h _ _ (mem 0 0 1 (by norm_num) (by norm_num) (by norm_num)).1 z0.2
    have hz2 := h _ _ (mem 0 0 (-1) (by norm_num) (by norm_num) (by norm_num)).1 z0.2
    simp only [V3.dot] at hx1 hx2 hy1 hy2 hz1 hz2
    apply hd
    ext <;> simp <;> linarith

/-- The condition of `c52_3d_partial` is met by two overlapping cubes off the axes, for which GJK finds a simplex, and by two that are apart. -/
example :
    (match gjkIntersect reduce3 100 ((Cuboid.new 10 10 10).supportPoint (⟨1, ⟨⟨1, 0, 0⟩, ⟨0, 1, 0⟩, ⟨0, 0, 1⟩⟩, ⟨0, 0, 0⟩⟩ : Dec3 ℚ).tr)
      ((Cuboid.new 10 10 10).supportPoint (⟨1, ⟨⟨1, 0, 0⟩, ⟨0, 1, 0⟩, ⟨0, 0, 1⟩⟩, ⟨7, 2, 1⟩⟩ : Dec3 ℚ).tr) ⟨0, 0, 0⟩ ⟨7, 2, 1⟩ with | .ok (some x) => x.length | _ => 0) = 4 ∧
    (match SP.fromMinkowski ((Cuboid.new 10 10 10).supportPoint (⟨1, ⟨⟨1, 0, 0⟩, ⟨0, 1, 0⟩, ⟨0, 0, 1⟩⟩, ⟨0, 0, 0⟩⟩ : Dec3 ℚ).tr)
        ((Cuboid.new 10 10 10).supportPoint (⟨1, ⟨⟨1, 0, 0⟩, ⟨0, 1, 0⟩, ⟨0, 0, 1⟩⟩, ⟨7, 2, 1⟩⟩ : Dec3 ℚ).tr) ⟨7, 2, 1⟩,
      SP.fromMinkowski ((Cuboid.new 10 10 10).supportPoint (⟨1, ⟨⟨1, 0, 0⟩, ⟨0, 1, 0⟩, ⟨0, 0, 1⟩⟩, ⟨0, 0, 0⟩⟩ : Dec3 ℚ).tr)
        ((Cuboid.new 10 10 10).supportPoint (⟨1, ⟨⟨1, 0, 0⟩, ⟨0, 1, 0⟩, ⟨0, 0, 1⟩⟩, ⟨7, 2, 1⟩⟩ : Dec3 ℚ).tr) ⟨-7, -2, -1⟩ with
      | .ok p, .ok q => decide (p.v.cross q.v ≠ 0)
      | _, _ => false) = true := by
  refine ⟨by decide +kernel, by decide +kernel⟩
end Verif.Minkowski
