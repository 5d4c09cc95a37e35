import Verif.Minkowski.Epa3Shapes
/-!
# The contact point of EPA in 3D (C80)
-/
namespace Verif.Minkowski
open Verif Geom Primitive
set_option linter.unusedSectionVars false
noncomputable section

/-- A face with a plane: three vertices not in line, the unit normal of their plane and its distance. -/
def FaceTri (vs : List (SP (V3 ℝ))) (f : EFace) : Prop :=
  ∀ n d, f.plane = some (n, d) → ∃ a b c, vs[f.vertices.1]? = some a ∧ vs[f.vertices.2.1]? = some b ∧ vs[f.vertices.2.2]? = some c ∧
    nrm a.v b.v c.v ≠ 0 ∧ n = (nrm a.v b.v c.v).normalize ∧ d = n.dot a.v

theorem newImpl_tri {vs : List (SP (V3 ℝ))} {a b c : Nat} {f : EFace} (h : EFace.newImpl vs a b c = .ok f) : FaceTri vs f := by
  unfold EFace.newImpl at h
  rw [Res.bind_eq_ok] at h
  obtain ⟨sb, hb, h⟩ := h
  rw [Res.bind_eq_ok] at h
  obtain ⟨sa, ha, h⟩ := h
  rw [Res.bind_eq_ok] at h
  obtain ⟨sc, hc, h⟩ := h
  dsimp only at h
  intro n d hp
  split at h
  · cases h; cases hp
  · cases h
    cases hp
    exact ⟨sa, sb, sc, get_ok ha, get_ok hb, get_ok hc, ‹_›, rfl, rfl⟩

theorem getElem_append {α : Type} {vs : List α} {i : Nat} {a : α} (h : vs[i]? = some a) (p : α) : (vs ++ [p])[i]? = some a := by
  rw [List.getElem?_append_left]
  · exact h
  · by_contra hc
    rw [List.getElem?_eq_none (by omega)] at h
    cases h

theorem faceTri_append {vs : List (SP (V3 ℝ))} {f : EFace} (h : FaceTri vs f) (p : SP (V3 ℝ)) : FaceTri (vs ++ [p]) f := by
  intro n d hp
  obtain ⟨a, b, c, h1, h2, h3, h4⟩ := h n d hp
  exact ⟨a, b, c, getElem_append h1 p, getElem_append h2 p, getElem_append h3 p, h4⟩

theorem polytopeAdd_tri {vs : List (SP (V3 ℝ))} {fs : List EFace} {p : SP (V3 ℝ)} {r : List (SP (V3 ℝ)) × List EFace} (h : polytopeAdd vs fs p = .ok r)
    (hf : ∀ f ∈ fs, FaceTri vs f) : r.1 = vs ++ [p] ∧ ∀ f ∈ r.2, FaceTri r.1 f := by
  unfold polytopeAdd at h
  rw [Res.bind_eq_ok] at h
  obtain ⟨q, hq, h⟩ := h
  dsimp only at h
  rw [Res.bind_eq_ok] at h
  obtain ⟨gs, hgs, h⟩ := h
  cases h
  refine ⟨rfl, fun f hfm => ?_⟩
  rcases List.mem_append.mp hfm with hfm | hfm
  · exact faceTri_append (hf f (addLoop_mem _ _ _ _ _ _ _ hq f hfm)) p
  · obtain ⟨e, -, he⟩ := newFaces_mem _ _ _ _ hgs f hfm
    exact newImpl_tri he

/-- What C80 says of a contact with normal `n`, depth `d` and point `x`: there are three points of the left shape and three points of the right shape; the contact point is an affine
combination of the three left points; the same combination of the right points is the contact point moved back along the normal by the depth; each pair of points is at the depth along the
normal. -/
def AffinePoint (L R : V3 ℝ → Prop) (n : V3 ℝ) (d : ℝ) (x : V3 ℝ) : Prop :=
  ∃ a a' a'' b b' b'' : V3 ℝ, ∃ u v w : ℝ, L a ∧ L a' ∧ L a'' ∧ R b ∧ R b' ∧ R b'' ∧ u + v + w = 1 ∧
    x = a * u + a' * v + a'' * w ∧ x - n * d = b * u + b' * v + b'' * w ∧
    (a - b).dot n = d ∧ (a' - b').dot n = d ∧ (a'' - b'').dot n = d

theorem epaPoint3_affine {L R : V3 ℝ → Prop} {vs : List (SP (V3 ℝ))} (hv : ∀ p ∈ vs, FromShapes3 L R p) {f : EFace} (hf : FaceTri vs f) {n : V3 ℝ} {d : ℝ} (hp : f.plane = some (n, d)) {x : V3 ℝ}
    (h : epaPoint3 vs f n d = .ok x) : AffinePoint L R n d x := by
  obtain ⟨a, b, c, ha, hb, hc, hN, hn, hd⟩ := hf n d hp
  unfold epaPoint3 at h
  rw [ha, hb, hc] at h
  simp only [Res.ofOption_some, Res.bind_ok] at h
  have hx : a.supA * (barycentric (n * d) a.v b.v c.v).1 + b.supA * (barycentric (n * d) a.v b.v c.v).2.1 + c.supA * (barycentric (n * d) a.v b.v c.v).2.2 = x := by cases h; rfl
  clear h
  have hNN : (nrm a.v b.v c.v).dot (nrm a.v b.v c.v) ≠ 0 := (dot_self_pos hN).ne'
  obtain ⟨a1, a2, a3⟩ := hv a (List.mem_of_getElem? ha)
  obtain ⟨b1, b2, b3⟩ := hv b (List.mem_of_getElem? hb)
  obtain ⟨c1, c2, c3⟩ := hv c (List.mem_of_getElem? hc)
  have hpl : ∀ y : V3 ℝ, y.dot n = ((nrm a.v b.v c.v).dot y) / (nrm a.v b.v c.v).norm := by
    intro y; rw [hn]; simp only [V3.normalize, V3.dot, V3.mul_x, V3.mul_y, V3.mul_z]; ring
  have hvb : (nrm a.v b.v c.v).dot b.v = (nrm a.v b.v c.v).dot a.v := by simp [nrm, V3.dot, V3.cross]; ring
  have hvc : (nrm a.v b.v c.v).dot c.v = (nrm a.v b.v c.v).dot a.v := by simp [nrm, V3.dot, V3.cross]; ring
  have hda : a.v.dot n = d := by rw [hd]; simp only [V3.dot]; ring
  have hdb : b.v.dot n = d := by rw [← hda, hpl, hpl, hvb]
  have hdc : c.v.dot n = d := by rw [← hda, hpl, hpl, hvc]
  -- the projection of the origin is in the plane of the face
  have hvol : Primitive.vol a.v b.v c.v (n * d) = 0 := by
    have hnn : n.dot n = 1 := by rw [← V3.norm_sq, hn, V3.norm_normalize hN]; norm_num
    have e2 : (nrm a.v b.v c.v).dot (n * d - a.v) = 0 := by
      have hpos := (V3.norm_pos hN).ne'
      have h1 := hpl (n * d - a.v)
      have h2 : (n * d - a.v).dot n = 0 := by
        have : (n * d - a.v).dot n = d * n.dot n - a.v.dot n := by simp only [V3.dot, V3.sub_x, V3.sub_y, V3.sub_z, V3.mul_x, V3.mul_y, V3.mul_z]; ring
        rw [this, hnn, hda]; ring
      rw [h2] at h1
      have := h1.symm
      rcases div_eq_zero_iff.1 this with h | h
      · exact h
      · exact absurd h hpos
    exact e2
  have hcomb := bary_comb hvol
  have hsum := side_sum a.v b.v c.v (n * d)
  rcases barycentric_eq (a := a.v) (b := b.v) (c := c.v) (q := n * d) with hb' | hb'
  swap
  · exact absurd hb' hNN
  rw [hb'] at hx
  dsimp only at hx
  set S := (nrm a.v b.v c.v).dot (nrm a.v b.v c.v) with hS
  set u := Primitive.side (nrm a.v b.v c.v) b.v c.v (n * d) with hu
  set v := Primitive.side (nrm a.v b.v c.v) c.v a.v (n * d) with hv'
  set w := Primitive.side (nrm a.v b.v c.v) a.v b.v (n * d) with hw
  have hcomb' : a.v * (u / S) + b.v * (v / S) + c.v * (w / S) = n * d := by
    have : ∀ p q r s : ℝ, p * u + q * v + r * w = s * S → p * (u / S) + q * (v / S) + r * (w / S) = s := by
      intro p q r s h
      have : p * (u / S) + q * (v / S) + r * (w / S) = (p * u + q * v + r * w) / S := by ring
      rw [this, h]; field_simp
    ext
    · exact this _ _ _ _ (congrArg V3.x hcomb)
    · exact this _ _ _ _ (congrArg V3.y hcomb)
    · exact this _ _ _ _ (congrArg V3.z hcomb)
  refine ⟨a.supA, b.supA, c.supA, a.supB, b.supB, c.supB, u / S, v / S, w / S, a1, b1, c1, a2, b2, c2, ?_, hx.symm, ?_, ?_, ?_, ?_⟩
  · rw [← add_div, ← add_div, hsum]; exact div_self hNN
  · rw [← hcomb', ← hx, a3, b3, c3]
    ext <;> simp <;> ring
  · rw [← a3]; exact hda
  · rw [← b3]; exact hdb
  · rw [← c3]; exact hdc

theorem epa3Loop_point {L R : V3 ℝ → Prop} {left right : V3 ℝ → Res (V3 ℝ)} (hl : SupportFn3 left L) (hr : SupportFn3 right R) {tolerance : ℝ} :
    ∀ fuel vs fs c converged, (∀ f ∈ fs, FaceTri vs f) → (∀ p ∈ vs, FromShapes3 L R p) → epa3Loop tolerance left right fuel vs fs = .ok (.contact c converged) →
      AffinePoint L R c.normal c.depth c.point := by
  intro fuel
  induction fuel with
  | zero =>
    intro vs fs c cv hf hv h
    unfold epa3Loop at h
    rw [Res.bind_eq_ok] at h
    obtain ⟨f, hfm, h⟩ := h
    cases hp : f.plane with
    | none => rw [hp] at h; cases h
    | some nd =>
      obtain ⟨n, d⟩ := nd
      rw [hp] at h
      dsimp only at h
      rw [Res.bind_eq_ok] at h
      obtain ⟨p, -, h⟩ := h
      split at h
      · rw [Res.bind_eq_ok] at h
        obtain ⟨q, hq, h⟩ := h
        cases h
        exact epaPoint3_affine hv (hf f (closestFace_mem hfm)) hp hq
      · rw [Res.bind_eq_ok] at h
        obtain ⟨q, hq, h⟩ := h
        cases h
        exact epaPoint3_affine hv (hf f (closestFace_mem hfm)) hp hq
  | succ k ih =>
    intro vs fs c cv hf hv h
    unfold epa3Loop at h
    rw [Res.bind_eq_ok] at h
    obtain ⟨f, hfm, h⟩ := h
    cases hp : f.plane with
    | none => rw [hp] at h; cases h
    | some nd =>
      obtain ⟨n, d⟩ := nd
      rw [hp] at h
      dsimp only at h
      have hn0 : n ≠ 0 := by
        obtain ⟨a, b, c', -, -, -, hN, hn, -⟩ := hf f (closestFace_mem hfm) n d hp
        intro h0
        have := V3.norm_normalize hN
        rw [← hn, h0, (V3.norm_eq_zero 0).mpr rfl] at this; norm_num at this
      obtain ⟨p, hp1, hp2, hp3⟩ := minkowski3 hl hr hn0
      rw [hp1, Res.bind_ok] at h
      split at h
      · rw [Res.bind_eq_ok] at h
        obtain ⟨q, hq, h⟩ := h
        cases h
        exact epaPoint3_affine hv (hf f (closestFace_mem hfm)) hp hq
      · rw [Res.bind_eq_ok] at h
        obtain ⟨r, hr', h⟩ := h
        obtain ⟨e, g⟩ := polytopeAdd_tri hr' hf
        refine ih _ _ _ _ g ?_ h
        rw [e]
        intro s hs
        rcases List.mem_append.1 hs with hs | hs
        · exact hv s hs
        · rw [List.mem_singleton.1 hs]; exact hp2

/-- C80, any start simplex of support points: the contact point of EPA in 3D is an affine combination of points of the left shape, and the same combination of points of the right shape is
the point moved back by the depth. What is missing for the full property (contact point in the left shape): the weights can be negative, see `c80_false`. -/
theorem c80_3d_partial (L R : V3 ℝ → Prop) {left right : V3 ℝ → Res (V3 ℝ)} (hl : SupportFn3 left L) (hr : SupportFn3 right R)
    (tolerance : ℝ) (maxIterations : Nat) {simplex : List (SP (V3 ℝ))} (hs : ∀ p ∈ simplex, L p.supA ∧ R p.supB ∧ p.v = p.supA - p.supB) {c : Contact (V3 ℝ) ℝ} {converged : Bool}
    (h : epa3 tolerance maxIterations left right simplex = .ok (some (.contact c converged))) : AffinePoint L R c.normal c.depth c.point := by
  unfold epa3 at h
  split at h
  · cases h
  · rw [Res.bind_eq_ok] at h
    obtain ⟨fs, hfs, h⟩ := h
    rw [Res.bind_eq_ok] at h
    obtain ⟨o, ho, h⟩ := h
    cases h
    exact epa3Loop_point hl hr _ _ _ _ _ (fun f hf => by
      obtain ⟨a, b, c, he⟩ := newAll_mem hfs f hf
      exact newImpl_tri he) hs ho

/-- A convex combination: with weights that are not negative the contact point is in the left shape, and moved back by the depth it is in the right shape. -/
theorem convex3 {S : V3 ℝ → Prop} (hS : Convex3 S) {a b c : V3 ℝ} (ha : S a) (hb : S b) (hc : S c) {u v w : ℝ} (hu : 0 ≤ u) (hv : 0 ≤ v) (hw : 0 ≤ w) (h : u + v + w = 1) :
    S (a * u + b * v + c * w) := by
  have := convex4 hS ha hb hc hc hu hv hw le_rfl (by linarith)
  have e : a * u + b * v + c * w + c * (0 : ℝ) = a * u + b * v + c * w := by ext <;> simp
  rwa [e] at this

/-- C80 against a point: if the right shape is a single point `b` (a particle, a query point), the contact point is that point moved along the normal by the depth, and it is in the left
shape as soon as the left shape holds its own boundary there, i.e. whenever GJK found the simplex. -/
theorem c80_right_point (L : V3 ℝ → Prop) (b : V3 ℝ) {n : V3 ℝ} {d : ℝ} {x : V3 ℝ} (h : AffinePoint L (fun y => y = b) n d x) : x = b + n * d := by
  obtain ⟨_, _, _, b1, b2, b3, u, v, w, -, -, -, h1, h2, h3, hs, -, e, -⟩ := h
  subst h1 h2 h3
  have : b3 * u + b3 * v + b3 * w = b3 := by
    have e : b3 * u + b3 * v + b3 * w = b3 * (u + v + w) := by ext <;> simp <;> ring
    rw [e, hs]; ext <;> simp
  rw [this] at e
  rw [← e]; ext <;> simp

/-- C80 for a single point on the left: the contact point is that point. -/
theorem c80_left_point (R : V3 ℝ → Prop) (a : V3 ℝ) {n : V3 ℝ} {d : ℝ} {x : V3 ℝ} (h : AffinePoint (fun y => y = a) R n d x) : x = a := by
  obtain ⟨a1, a2, a3, _, _, _, u, v, w, h1, h2, h3, -, -, -, hs, e, -⟩ := h
  subst h1 h2 h3
  rw [e]
  have e : a3 * u + a3 * v + a3 * w = a3 * (u + v + w) := by ext <;> simp <;> ring
  rw [e, hs]; ext <;> simp

/-- The simplex of GJK is made of support points of the two shapes. -/
theorem gjk_simplex_points {L R : V3 ℝ → Prop} {left right : V3 ℝ → Res (V3 ℝ)} (hl : PointsOf3 left L) (hr : PointsOf3 right R) {n : Nat} {lp rp : V3 ℝ} {x : List (SP (V3 ℝ))}
    (h : gjkIntersect reduce3 n left right lp rp = .ok (some x)) : ∀ p ∈ x, L p.supA ∧ R p.supB ∧ p.v = p.supA - p.supB := by
  intro p hp
  obtain ⟨d, hd⟩ := gjkIntersect_mem h p hp
  unfold SP.fromMinkowski at hd
  rw [Res.bind_eq_ok] at hd
  obtain ⟨a, ha, hd⟩ := hd
  rw [Res.bind_eq_ok] at hd
  obtain ⟨b, hb, hd⟩ := hd
  cases hd
  obtain ⟨a', e1, e2⟩ := hl d
  obtain ⟨b', e3, e4⟩ := hr (-d)
  rw [ha] at e1; cases e1
  rw [hb] at e3; cases e3
  exact ⟨e2, e4, rfl⟩

/-- C80 for 3D primitives with flat sides: GJK, then EPA. -/
theorem c80_prim3_partial (s t : Prim3) (hs : s.Ok) (ht : t.Ok) (hsf : Flat3 s) (htf : Flat3 t) (nz nz' : V3 ℝ → Bool) (D E : Dec3 ℝ) (hD : D.rot.Orthogonal) (hE : E.rot.Orthogonal)
    (hDs : D.scale ≠ 0) (hEs : E.scale ≠ 0) (tolerance : ℝ) (n m : Nat) {simplex : List (SP (V3 ℝ))}
    (h : gjkIntersect reduce3 n (s.supportPoint nz D.tr) (t.supportPoint nz' E.tr) (D.tr.point 0) (E.tr.point 0) = .ok (some simplex)) :
    ∃ k converged, epa3 tolerance m (s.supportPoint nz D.tr) (t.supportPoint nz' E.tr) simplex = .ok (some (.contact k converged)) ∧
      AffinePoint (Image D.tr s.Points) (Image E.tr t.Points) k.normal k.depth k.point := by
  obtain ⟨k, cv, h1, -⟩ := c79_prim3 s t hs ht hsf htf nz nz' D E hD hE hDs hEs tolerance n m h
  exact ⟨k, cv, h1, c80_3d_partial _ _ (prim3_support s hs nz D hD hDs) (prim3_support t ht nz' E hE hEs) tolerance m
    (gjk_simplex_points (prim3_points s hs hsf nz D hDs) (prim3_points t ht htf nz' E hEs) h) h1⟩

/-- C80 for a primitive against a particle: the contact point is in the primitive, at the depth from the particle along the normal. -/
theorem c80_particle (s : Prim3) (hs : s.Ok) (hsf : Flat3 s) (nz nz' : V3 ℝ → Bool) (D E : Dec3 ℝ) (hD : D.rot.Orthogonal) (hE : E.rot.Orthogonal)
    (hDs : D.scale ≠ 0) (hEs : E.scale ≠ 0) (tolerance : ℝ) (n m : Nat) {simplex : List (SP (V3 ℝ))}
    (h : gjkIntersect reduce3 n (s.supportPoint nz D.tr) ((Prim3.particle).supportPoint nz' E.tr) (D.tr.point 0) (E.tr.point 0) = .ok (some simplex)) :
    ∃ k converged, epa3 tolerance m (s.supportPoint nz D.tr) ((Prim3.particle).supportPoint nz' E.tr) simplex = .ok (some (.contact k converged)) ∧
      k.point = E.tr.point 0 + k.normal * k.depth ∧ Image D.tr s.Points k.point := by
  obtain ⟨k, cv, h1, h2, -⟩ := c79_prim3 s .particle hs trivial hsf trivial nz nz' D E hD hE hDs hEs tolerance n m h
  have h3 := c80_3d_partial _ _ (prim3_support s hs nz D hD hDs) (prim3_support .particle trivial nz' E hE hEs) tolerance m
    (gjk_simplex_points (prim3_points s hs hsf nz D hDs) (prim3_points .particle trivial trivial nz' E hEs) h) h1
  have hR : ∀ y, Image E.tr Prim3.particle.Points y ↔ y = E.tr.point 0 := by
    intro y
    constructor
    · rintro ⟨z, hz, rfl⟩
      have hz : z = 0 := hz
      rw [hz]
    · rintro rfl; exact ⟨0, rfl, rfl⟩
  have hpt : k.point = E.tr.point 0 + k.normal * k.depth := by
    apply c80_right_point (Image D.tr s.Points)
    have : (Image E.tr Prim3.particle.Points) = fun y => y = E.tr.point 0 := by funext y; exact propext (hR y)
    rw [← this]; exact h3
  refine ⟨k, cv, h1, hpt, ?_⟩
  obtain ⟨x, y, hx, hy, e⟩ := h2.2.2.1 (k.normal * k.depth) (by
    rw [V3.norm_smul, h2.1, abs_of_nonneg h2.2.1]; linarith)
  rw [hR] at hy
  rw [hpt, ← hy, ← e]; exact hx

/-! ## The contact point can be outside the left shape -/

theorem maxPoint3_scale {K : Type} [Field K] [LinearOrder K] [IsStrictOrderedRing K] (vs : List (V3 K)) (e : V3 K) {k : K} (hk : 0 < k) : maxPoint3 vs (e * k) = maxPoint3 vs e := by
  have hd : ∀ v : V3 K, v.dot (e * k) = v.dot e * k := by intro v; simp only [V3.dot, V3.mul_x, V3.mul_y, V3.mul_z]; ring
  unfold maxPoint3
  have key : ∀ (l : List (V3 K)) (p : V3 K) (o : Option K),
      l.foldl (fun (acc : V3 K × Option K) v => match acc.2 with
        | none => (v, some (v.dot (e * k)))
        | some m => if v.dot (e * k) > m then (v, some (v.dot (e * k))) else acc) (p, o.map (· * k)) =
      ((l.foldl (fun (acc : V3 K × Option K) v => match acc.2 with
        | none => (v, some (v.dot e))
        | some m => if v.dot e > m then (v, some (v.dot e)) else acc) (p, o)).1,
       (l.foldl (fun (acc : V3 K × Option K) v => match acc.2 with
        | none => (v, some (v.dot e))
        | some m => if v.dot e > m then (v, some (v.dot e)) else acc) (p, o)).2.map (· * k)) := by
    intro l
    induction l with
    | nil => intro p o; rfl
    | cons y ys ih =>
      intro p o
      rw [List.foldl_cons, List.foldl_cons]
      cases o with
      | none =>
        have := ih y (some (y.dot e))
        dsimp only [Option.map] at this ⊢
        rw [hd]
        exact this
      | some m =>
        dsimp only [Option.map]
        by_cases h : y.dot e > m
        · have h' : y.dot (e * k) > m * k := by rw [hd]; exact mul_lt_mul_of_pos_right h hk
          rw [if_pos h, if_pos h', hd]
          exact ih y (some (y.dot e))
        · have h' : ¬ y.dot (e * k) > m * k := by rw [hd]; push Not at h ⊢; exact mul_le_mul_of_nonneg_right h hk.le
          rw [if_neg h, if_neg h']
          exact ih p (some m)
  have := congrArg Prod.fst (key vs 0 none)
  exact this

theorem cuboid_support_shift (w h l x y z : ℝ) (d : V3 ℝ) :
    (Cuboid.new w h l).supportPoint (shift3 x y z).tr d = .ok (maxPoint3 (Cuboid.new w h l).corners d + ⟨x, y, z⟩) := by
  have e : ∀ v : V3 ℝ, (shift3 x y z).tr.point v = v + ⟨x, y, z⟩ := by intro v; ext <;> simp [shift3, Dec3.tr, M3.apply]
  have e2 : (shift3 x y z).tr.invVector d = some d := by
    show (if (1 : ℝ) = 0 then none else some _) = _
    rw [if_neg one_ne_zero]
    congr 1
    ext <;> simp [shift3, M3.apply, M3.transpose]
  unfold Cuboid.supportPoint support
  rw [e2, Res.ofOption_some, Res.bind_ok, e]
  rfl

/-- the face with these vertices, normal direction `N`, through `a` -/
def mkFace (i j k : Nat) (N a : V3 ℝ) : EFace := ⟨(i, j, k), some (N.normalize, N.normalize.dot a)⟩

theorem normalize_dot (N a : V3 ℝ) : N.normalize.dot a = N.dot a / N.norm := by
  simp only [V3.normalize, V3.dot, V3.mul_x, V3.mul_y, V3.mul_z]; ring

theorem mkFace_closer {i j k i' j' k' : Nat} {N a M b : V3 ℝ} (hN : N ≠ 0) (hM : M ≠ 0) (h0 : 0 ≤ N.dot a) (h1 : 0 < M.dot b)
    (h : (N.dot a) ^ 2 * M.dot M < (M.dot b) ^ 2 * N.dot N) : (mkFace i j k N a).closer (mkFace i' j' k' M b) := by
  show N.normalize.dot a < M.normalize.dot b
  rw [normalize_dot, normalize_dot, div_lt_div_iff₀ (V3.norm_pos hN) (V3.norm_pos hM)]
  have := V3.norm_pos hN
  apply lt_of_pow_lt_pow_left₀ 2 (by positivity)
  rw [mul_pow, mul_pow, pow_two M.norm, pow_two N.norm, V3.norm_sq, V3.norm_sq]
  exact h

theorem mkFace_not_closer {i j k i' j' k' : Nat} {N a M b : V3 ℝ} (hN : N ≠ 0) (hM : M ≠ 0) (h0 : 0 ≤ N.dot a) (h1 : 0 ≤ M.dot b)
    (h : (N.dot a) ^ 2 * M.dot M ≤ (M.dot b) ^ 2 * N.dot N) : ¬ (mkFace i' j' k' M b).closer (mkFace i j k N a) := by
  show ¬ M.normalize.dot b < N.normalize.dot a
  rw [not_lt, normalize_dot, normalize_dot, div_le_div_iff₀ (V3.norm_pos hN) (V3.norm_pos hM)]
  have := V3.norm_pos hN
  apply le_of_sq_le_sq _ (by positivity)
  rw [mul_pow, mul_pow, pow_two M.norm, pow_two N.norm, V3.norm_sq, V3.norm_sq]
  exact h

theorem newImpl_mk {vs : List (SP (V3 ℝ))} {i j k : Nat} {a b c : SP (V3 ℝ)} {N : V3 ℝ} (ha : vs[i]? = some a) (hb : vs[j]? = some b) (hc : vs[k]? = some c)
    (hN : (b.v - a.v).cross (c.v - a.v) = N) (h0 : N ≠ 0) : EFace.newImpl vs i j k = .ok (mkFace i j k N a.v) := by
  unfold EFace.newImpl
  rw [ha, hb, hc]
  simp only [Res.ofOption_some, Res.bind_ok, hN]
  rw [if_neg h0]
  rfl

theorem addLoop_see' {vs : List (SP (V3 ℝ))} {p : V3 ℝ} {fuel i : Nat} {faces : List EFace} {edges : List (Nat × Nat)} {f : EFace} {N : V3 ℝ} {d : ℝ} {v0 : SP (V3 ℝ)}
    (hf : faces[i]? = some f) (hp : f.plane = some (N.normalize, d)) (hv : vs[f.vertices.1]? = some v0) (hN : N ≠ 0) (h : 0 < N.dot (p - v0.v)) :
    addLoop vs p (fuel + 1) faces i edges = addLoop vs p fuel (faces.set i (faces.getLast?.getD f)).dropLast i
      (removeOrAddEdge (removeOrAddEdge (removeOrAddEdge edges (f.vertices.1, f.vertices.2.1)) (f.vertices.2.1, f.vertices.2.2)) (f.vertices.2.2, f.vertices.1)) := by
  rw [addLoop, hf]
  dsimp only
  rw [hv]
  simp only [Res.ofOption_some, Res.bind_ok, hp]
  rw [if_pos (by exact (normalize_dot_pos hN).2 h)]

theorem addLoop_keep' {vs : List (SP (V3 ℝ))} {p : V3 ℝ} {fuel i : Nat} {faces : List EFace} {edges : List (Nat × Nat)} {f : EFace} {N : V3 ℝ} {d : ℝ} {v0 : SP (V3 ℝ)}
    (hf : faces[i]? = some f) (hp : f.plane = some (N.normalize, d)) (hv : vs[f.vertices.1]? = some v0) (hN : N ≠ 0) (h : N.dot (p - v0.v) ≤ 0) :
    addLoop vs p (fuel + 1) faces i edges = addLoop vs p fuel faces (i + 1) edges := by
  rw [addLoop, hf]
  dsimp only
  rw [hv]
  simp only [Res.ofOption_some, Res.bind_ok, hp]
  rw [if_neg (by exact fun hc => absurd ((normalize_dot_pos hN).1 hc) (not_lt.2 h))]

theorem addLoop_see {vs : List (SP (V3 ℝ))} {p : V3 ℝ} {fuel i : Nat} {faces : List EFace} {edges : List (Nat × Nat)} {x y z : Nat} {N a : V3 ℝ} {v0 : SP (V3 ℝ)}
    (hf : faces[i]? = some (mkFace x y z N a)) (hv : vs[x]? = some v0) (hN : N ≠ 0) (h : 0 < N.dot (p - v0.v)) :
    addLoop vs p (fuel + 1) faces i edges = addLoop vs p fuel (faces.set i (faces.getLast?.getD (mkFace x y z N a))).dropLast i
      (removeOrAddEdge (removeOrAddEdge (removeOrAddEdge edges (x, y)) (y, z)) (z, x)) :=
  addLoop_see' hf rfl hv hN h

theorem addLoop_keep {vs : List (SP (V3 ℝ))} {p : V3 ℝ} {fuel i : Nat} {faces : List EFace} {edges : List (Nat × Nat)} {x y z : Nat} {N a : V3 ℝ} {v0 : SP (V3 ℝ)}
    (hf : faces[i]? = some (mkFace x y z N a)) (hv : vs[x]? = some v0) (hN : N ≠ 0) (h : N.dot (p - v0.v) ≤ 0) :
    addLoop vs p (fuel + 1) faces i edges = addLoop vs p fuel faces (i + 1) edges :=
  addLoop_keep' hf rfl hv hN h

theorem fromMinkowski_boxes (w h l w' h' l' x y z : ℝ) (N : V3 ℝ) {k : ℝ} (hk : 0 < k) {p q : V3 ℝ} (hp : maxPoint3 (Cuboid.new w h l).corners N = p) (hq : maxPoint3 (Cuboid.new w' h' l').corners (-N) = q)
    {d v : V3 ℝ} (hd : d = N * k) (hv : v = p - (q + ⟨x, y, z⟩)) :
    SP.fromMinkowski ((Cuboid.new w h l).supportPoint (shift3 0 0 0).tr) ((Cuboid.new w' h' l').supportPoint (shift3 x y z).tr) d = .ok ⟨v, p, q + ⟨x, y, z⟩⟩ := by
  subst hd hv
  unfold SP.fromMinkowski
  rw [cuboid_support_shift, cuboid_support_shift, maxPoint3_scale _ _ hk, hp]
  have e : -(N * k) = -N * k := by ext <;> simp
  rw [e, maxPoint3_scale _ _ hk, hq]
  have e2 : p + ⟨0, 0, 0⟩ = p := by ext <;> simp
  rw [e2]
  rfl

/-- C80 is false in general: a 2×2×4 box and a 4×8×2 box, axis-aligned, at offset (-2, 0, 0). GJK finds that they overlap; EPA ends by its tolerance test after two expansions, with the
contact point (-1, 6/5, 1); the left box ends at y = 1. -/
theorem c80_false {tolerance : ℝ} (ht : 0 < tolerance) (ht1 : tolerance ≤ 1) : ∃ simplex k,
    gjkIntersect reduce3 100 ((Cuboid.new (2 : ℝ) 2 4).supportPoint (shift3 0 0 0).tr) ((Cuboid.new (4 : ℝ) 8 2).supportPoint (shift3 (-2) 0 0).tr)
      ((shift3 0 0 0).tr.point 0) ((shift3 (-2) 0 0).tr.point 0) = .ok (some simplex) ∧
    epa3 tolerance 100 ((Cuboid.new (2 : ℝ) 2 4).supportPoint (shift3 0 0 0).tr) ((Cuboid.new (4 : ℝ) 8 2).supportPoint (shift3 (-2) 0 0).tr) simplex = .ok (some (.contact k true)) ∧
    k.point = ⟨-1, 6 / 5, 1⟩ ∧ ¬ Image (shift3 0 0 0).tr (InBox 2 2 4) k.point := by
  have mp : ∀ d e : V3 ℝ, ∀ p q r v : V3 ℝ, ∀ k : ℝ, 0 < k → maxPoint3 (Cuboid.new (2 : ℝ) 2 4).corners e = p → maxPoint3 (Cuboid.new (4 : ℝ) 8 2).corners (-e) = q → d = e * k → r = q + ⟨-2, 0, 0⟩ → v = p - r →
      SP.fromMinkowski ((Cuboid.new (2 : ℝ) 2 4).supportPoint (shift3 0 0 0).tr) ((Cuboid.new (4 : ℝ) 8 2).supportPoint (shift3 (-2) 0 0).tr) d = .ok ⟨v, p, r⟩ := by
    rintro d e p q r v k hk h1 h2 h3 rfl h5
    exact fromMinkowski_boxes 2 2 4 4 8 2 (-2) 0 0 e hk h1 h2 h3 h5
  have one : ∀ d : V3 ℝ, d = d * (1 : ℝ) := by intro d; ext <;> simp
  have q0 := mp ⟨-2, 0, 0⟩ ⟨-2, 0, 0⟩ ⟨-1, 1, 2⟩ ⟨2, 4, 1⟩ ⟨0, 4, 1⟩ ⟨-1, -3, 1⟩ 1 one_pos
    (by norm_num [Cuboid.new, Cuboid.newImpl, Cuboid.generateCorners, maxPoint3, V3.dot, V3.ext_iff])
    (by norm_num [Cuboid.new, Cuboid.newImpl, Cuboid.generateCorners, maxPoint3, V3.dot, V3.ext_iff]) (one _) (by ext <;> norm_num) (by ext <;> norm_num)
  have q1 := mp ⟨2, 0, 0⟩ ⟨2, 0, 0⟩ ⟨1, 1, 2⟩ ⟨-2, 4, 1⟩ ⟨-4, 4, 1⟩ ⟨5, -3, 1⟩ 1 one_pos
    (by norm_num [Cuboid.new, Cuboid.newImpl, Cuboid.generateCorners, maxPoint3, V3.dot, V3.ext_iff])
    (by norm_num [Cuboid.new, Cuboid.newImpl, Cuboid.generateCorners, maxPoint3, V3.dot, V3.ext_iff]) (one _) (by ext <;> norm_num) (by ext <;> norm_num)
  have q2 := mp ⟨0, 108, -36⟩ ⟨0, 108, -36⟩ ⟨1, 1, -2⟩ ⟨-2, -4, 1⟩ ⟨-4, -4, 1⟩ ⟨5, 5, -3⟩ 1 one_pos
    (by norm_num [Cuboid.new, Cuboid.newImpl, Cuboid.generateCorners, maxPoint3, V3.dot, V3.ext_iff])
    (by norm_num [Cuboid.new, Cuboid.newImpl, Cuboid.generateCorners, maxPoint3, V3.dot, V3.ext_iff]) (one _) (by ext <;> norm_num) (by ext <;> norm_num)
  have q3 := mp ⟨-88, 76, 20⟩ ⟨-88, 76, 20⟩ ⟨-1, 1, 2⟩ ⟨2, -4, -1⟩ ⟨0, -4, -1⟩ ⟨-1, 5, 3⟩ 1 one_pos
    (by norm_num [Cuboid.new, Cuboid.newImpl, Cuboid.generateCorners, maxPoint3, V3.dot, V3.ext_iff])
    (by norm_num [Cuboid.new, Cuboid.newImpl, Cuboid.generateCorners, maxPoint3, V3.dot, V3.ext_iff]) (one _) (by ext <;> norm_num) (by ext <;> norm_num)
  have q4 := mp ⟨-48, 12, -48⟩ ⟨-48, 12, -48⟩ ⟨-1, 1, -2⟩ ⟨2, -4, 1⟩ ⟨0, -4, 1⟩ ⟨-1, 5, -3⟩ 1 one_pos
    (by norm_num [Cuboid.new, Cuboid.newImpl, Cuboid.generateCorners, maxPoint3, V3.dot, V3.ext_iff])
    (by norm_num [Cuboid.new, Cuboid.newImpl, Cuboid.generateCorners, maxPoint3, V3.dot, V3.ext_iff]) (one _) (by ext <;> norm_num) (by ext <;> norm_num)
  have nz : ∀ x y z : ℝ, x * x + y * y + z * z ≠ 0 → (⟨x, y, z⟩ : V3 ℝ) ≠ 0 := by
    intro x y z h e
    have h1 := congrArg V3.x e
    have h2 := congrArg V3.y e
    have h3 := congrArg V3.z e
    simp at h1 h2 h3
    apply h; rw [h1, h2, h3]; norm_num
  have e1 := mp (⟨0, -24, -48⟩ : V3 ℝ).normalize ⟨0, -24, -48⟩ ⟨-1, -1, -2⟩ ⟨2, 4, 1⟩ ⟨0, 4, 1⟩ ⟨-1, -5, -3⟩ _ (one_div_pos.2 (V3.norm_pos (nz _ _ _ (by norm_num))))
    (by norm_num [Cuboid.new, Cuboid.newImpl, Cuboid.generateCorners, maxPoint3, V3.dot, V3.ext_iff])
    (by norm_num [Cuboid.new, Cuboid.newImpl, Cuboid.generateCorners, maxPoint3, V3.dot, V3.ext_iff]) rfl (by ext <;> norm_num) (by ext <;> norm_num)
  have e2 := mp (⟨48, -12, 48⟩ : V3 ℝ).normalize ⟨48, -12, 48⟩ ⟨1, -1, 2⟩ ⟨-2, 4, -1⟩ ⟨-4, 4, -1⟩ ⟨5, -5, 3⟩ _ (one_div_pos.2 (V3.norm_pos (nz _ _ _ (by norm_num))))
    (by norm_num [Cuboid.new, Cuboid.newImpl, Cuboid.generateCorners, maxPoint3, V3.dot, V3.ext_iff])
    (by norm_num [Cuboid.new, Cuboid.newImpl, Cuboid.generateCorners, maxPoint3, V3.dot, V3.ext_iff]) rfl (by ext <;> norm_num) (by ext <;> norm_num)
  have e3 := mp (⟨-40, 0, 0⟩ : V3 ℝ).normalize ⟨-40, 0, 0⟩ ⟨-1, 1, 2⟩ ⟨2, 4, 1⟩ ⟨0, 4, 1⟩ ⟨-1, -3, 1⟩ _ (one_div_pos.2 (V3.norm_pos (nz _ _ _ (by norm_num))))
    (by norm_num [Cuboid.new, Cuboid.newImpl, Cuboid.generateCorners, maxPoint3, V3.dot, V3.ext_iff])
    (by norm_num [Cuboid.new, Cuboid.newImpl, Cuboid.generateCorners, maxPoint3, V3.dot, V3.ext_iff]) rfl (by ext <;> norm_num) (by ext <;> norm_num)
  have hp0 : (shift3 0 0 0).tr.point 0 = ⟨0, 0, 0⟩ := by ext <;> simp [shift3, Dec3.tr, M3.apply]
  have hp1 : (shift3 (-2) 0 0).tr.point 0 = ⟨-2, 0, 0⟩ := by ext <;> simp [shift3, Dec3.tr, M3.apply]
  have hd : firstDirection (⟨0, 0, 0⟩ : V3 ℝ) ⟨-2, 0, 0⟩ = ⟨-2, 0, 0⟩ := by
    have e : (⟨-2, 0, 0⟩ - ⟨0, 0, 0⟩ : V3 ℝ) = ⟨-2, 0, 0⟩ := by ext <;> simp
    unfold firstDirection
    rw [e]
    dsimp only
    rw [if_neg]
    intro h; have := congrArg V3.x h; norm_num at this
  have hneg : (-⟨-2, 0, 0⟩ : V3 ℝ) = ⟨2, 0, 0⟩ := by ext <;> simp
  obtain ⟨left, hleft⟩ : ∃ f, f = (Cuboid.new (2 : ℝ) 2 4).supportPoint (shift3 0 0 0).tr := ⟨_, rfl⟩
  obtain ⟨right, hright⟩ : ∃ f, f = (Cuboid.new (4 : ℝ) 8 2).supportPoint (shift3 (-2) 0 0).tr := ⟨_, rfl⟩
  rw [← hleft, ← hright] at q0 q1 q2 q3 q4 e1 e2 e3
  rw [← hleft, ← hright]
  obtain ⟨A, hA⟩ : ∃ p : SP (V3 ℝ), p = ⟨⟨-1, -3, 1⟩, ⟨-1, 1, 2⟩, ⟨0, 4, 1⟩⟩ := ⟨_, rfl⟩
  obtain ⟨X, hX⟩ : ∃ p : SP (V3 ℝ), p = ⟨⟨5, -3, 1⟩, ⟨1, 1, 2⟩, ⟨-4, 4, 1⟩⟩ := ⟨_, rfl⟩
  obtain ⟨B, hB⟩ : ∃ p : SP (V3 ℝ), p = ⟨⟨5, 5, -3⟩, ⟨1, 1, -2⟩, ⟨-4, -4, 1⟩⟩ := ⟨_, rfl⟩
  obtain ⟨C, hC⟩ : ∃ p : SP (V3 ℝ), p = ⟨⟨-1, 5, 3⟩, ⟨-1, 1, 2⟩, ⟨0, -4, -1⟩⟩ := ⟨_, rfl⟩
  obtain ⟨E, hE⟩ : ∃ p : SP (V3 ℝ), p = ⟨⟨-1, 5, -3⟩, ⟨-1, 1, -2⟩, ⟨0, -4, 1⟩⟩ := ⟨_, rfl⟩
  obtain ⟨F, hF⟩ : ∃ p : SP (V3 ℝ), p = ⟨⟨-1, -5, -3⟩, ⟨-1, -1, -2⟩, ⟨0, 4, 1⟩⟩ := ⟨_, rfl⟩
  obtain ⟨G, hG⟩ : ∃ p : SP (V3 ℝ), p = ⟨⟨5, -5, 3⟩, ⟨1, -1, 2⟩, ⟨-4, 4, -1⟩⟩ := ⟨_, rfl⟩
  rw [← hA] at q0 e3; rw [← hX] at q1; rw [← hB] at q2; rw [← hC] at q3; rw [← hE] at q4; rw [← hF] at e1; rw [← hG] at e2
  have r1 : ∀ d, reduce3 [A, X] d = (false, [A, X], ⟨0, 108, -36⟩) := by
    intro d
    unfold reduce3
    dsimp only
    rw [if_neg]
    · congr 2
      ext <;> norm_num [crossAba, V3.cross, hA, hX]
    · intro h
      have := congrArg V3.y h
      norm_num [crossAba, V3.cross, hA, hX] at this
  have r2 : ∀ d, reduce3 [A, X, B] d = (false, [A, B], ⟨-88, 76, 20⟩) := by
    intro d
    unfold reduce3 checkSide
    dsimp only
    rw [if_neg (by norm_num [V3.cross, V3.dot, hA, hB, hX]), if_pos (by norm_num [V3.cross, V3.dot, hA, hB, hX])]
    congr 2
    ext <;> norm_num [crossAba, V3.cross, hA, hB, hX]
  have r3 : ∀ d, reduce3 [A, B, C] d = (false, [A, B, C], ⟨-48, 12, -48⟩) := by
    intro d
    unfold reduce3 checkSide
    dsimp only
    rw [if_neg (by norm_num [V3.cross, V3.dot, hA, hB, hC]), if_neg (by norm_num [V3.cross, V3.dot, hA, hB, hC]), if_pos (by norm_num [V3.cross, V3.dot, hA, hB, hC])]
    congr 2
    ext <;> norm_num [V3.cross, hA, hB, hC]
  have r4 : ∀ d, reduce3 [A, B, C, E] d = (true, [A, B, C, E], d) := by
    intro d
    unfold reduce3
    dsimp only
    rw [if_neg (by norm_num [V3.cross, V3.dot, hA, hB, hC, hE]), if_neg (by norm_num [V3.cross, V3.dot, hA, hB, hC, hE]), if_neg (by norm_num [V3.cross, V3.dot, hA, hB, hC, hE])]
  -- the three polytopes
  have g0 : EFace.newAll [A, B, C, E] = .ok [mkFace 3 2 1 ⟨0, 36, 0⟩ E.v, mkFace 3 1 0 ⟨0, -24, -48⟩ E.v, mkFace 3 0 2 ⟨-48, 0, 0⟩ E.v, mkFace 2 0 1 ⟨48, -12, 48⟩ C.v] := by
    unfold EFace.newAll
    rw [newImpl_mk (a := E) (b := C) (c := B) (N := ⟨0, 36, 0⟩) rfl rfl rfl (by ext <;> norm_num [V3.cross, hB, hC, hE]) (nz _ _ _ (by norm_num)),
      newImpl_mk (a := E) (b := B) (c := A) (N := ⟨0, -24, -48⟩) rfl rfl rfl (by ext <;> norm_num [V3.cross, hA, hB, hE]) (nz _ _ _ (by norm_num)),
      newImpl_mk (a := E) (b := A) (c := C) (N := ⟨-48, 0, 0⟩) rfl rfl rfl (by ext <;> norm_num [V3.cross, hA, hC, hE]) (nz _ _ _ (by norm_num)),
      newImpl_mk (a := C) (b := A) (c := B) (N := ⟨48, -12, 48⟩) rfl rfl rfl (by ext <;> norm_num [V3.cross, hA, hB, hC]) (nz _ _ _ (by norm_num))]
    rfl
  have g1 : polytopeAdd [A, B, C, E] [mkFace 3 2 1 ⟨0, 36, 0⟩ E.v, mkFace 3 1 0 ⟨0, -24, -48⟩ E.v, mkFace 3 0 2 ⟨-48, 0, 0⟩ E.v, mkFace 2 0 1 ⟨48, -12, 48⟩ C.v] F =
      .ok ([A, B, C, E, F], [mkFace 3 2 1 ⟨0, 36, 0⟩ E.v, mkFace 2 0 1 ⟨48, -12, 48⟩ C.v, mkFace 3 0 2 ⟨-48, 0, 0⟩ E.v, mkFace 4 3 1 ⟨0, 0, -60⟩ F.v, mkFace 4 1 0 ⟨40, -24, 12⟩ F.v,
        mkFace 4 0 3 ⟨-40, 0, 0⟩ F.v]) := by
    have hadd : addLoop [A, B, C, E] F.v 4 [mkFace 3 2 1 ⟨0, 36, 0⟩ E.v, mkFace 3 1 0 ⟨0, -24, -48⟩ E.v, mkFace 3 0 2 ⟨-48, 0, 0⟩ E.v, mkFace 2 0 1 ⟨48, -12, 48⟩ C.v] 0 [] =
        .ok ([mkFace 3 2 1 ⟨0, 36, 0⟩ E.v, mkFace 2 0 1 ⟨48, -12, 48⟩ C.v, mkFace 3 0 2 ⟨-48, 0, 0⟩ E.v], [(3, 1), (1, 0), (0, 3)]) := by
      rw [addLoop_keep (v0 := E) rfl rfl (nz _ _ _ (by norm_num)) (by norm_num [V3.dot, hE, hF]),
        addLoop_see (v0 := E) rfl rfl (nz _ _ _ (by norm_num)) (by norm_num [V3.dot, hE, hF])]
      show addLoop [A, B, C, E] F.v 2 [mkFace 3 2 1 ⟨0, 36, 0⟩ E.v, mkFace 2 0 1 ⟨48, -12, 48⟩ C.v, mkFace 3 0 2 ⟨-48, 0, 0⟩ E.v] 1 [(3, 1), (1, 0), (0, 3)] = _
      rw [addLoop_keep (v0 := C) rfl rfl (nz _ _ _ (by norm_num)) (by norm_num [V3.dot, hC, hF]),
        addLoop_keep (v0 := E) rfl rfl (nz _ _ _ (by norm_num)) (by norm_num [V3.dot, hE, hF])]
      rw [addLoop, if_neg (by simp)]
    have hnew : newFaces [A, B, C, E, F] 4 [(3, 1), (1, 0), (0, 3)] = .ok [mkFace 4 3 1 ⟨0, 0, -60⟩ F.v, mkFace 4 1 0 ⟨40, -24, 12⟩ F.v, mkFace 4 0 3 ⟨-40, 0, 0⟩ F.v] := by
      unfold newFaces newFaces newFaces newFaces
      rw [newImpl_mk (a := F) (b := E) (c := B) (N := ⟨0, 0, -60⟩) rfl rfl rfl (by ext <;> norm_num [V3.cross, hB, hF, hE]) (nz _ _ _ (by norm_num)),
        newImpl_mk (a := F) (b := B) (c := A) (N := ⟨40, -24, 12⟩) rfl rfl rfl (by ext <;> norm_num [V3.cross, hA, hB, hF]) (nz _ _ _ (by norm_num)),
        newImpl_mk (a := F) (b := A) (c := E) (N := ⟨-40, 0, 0⟩) rfl rfl rfl (by ext <;> norm_num [V3.cross, hA, hF, hE]) (nz _ _ _ (by norm_num))]
      rfl
    unfold polytopeAdd
    show (addLoop [A, B, C, E] F.v 4 _ 0 [] >>= _) = _
    rw [hadd, Res.bind_ok]
    show (newFaces [A, B, C, E, F] 4 [(3, 1), (1, 0), (0, 3)] >>= _) = _
    rw [hnew]
    rfl
  have g2 : polytopeAdd [A, B, C, E, F] [mkFace 3 2 1 ⟨0, 36, 0⟩ E.v, mkFace 2 0 1 ⟨48, -12, 48⟩ C.v, mkFace 3 0 2 ⟨-48, 0, 0⟩ E.v, mkFace 4 3 1 ⟨0, 0, -60⟩ F.v, mkFace 4 1 0 ⟨40, -24, 12⟩ F.v,
        mkFace 4 0 3 ⟨-40, 0, 0⟩ F.v] G =
      .ok ([A, B, C, E, F, G], [mkFace 3 2 1 ⟨0, 36, 0⟩ E.v, mkFace 4 0 3 ⟨-40, 0, 0⟩ F.v, mkFace 3 0 2 ⟨-48, 0, 0⟩ E.v, mkFace 4 3 1 ⟨0, 0, -60⟩ F.v,
        mkFace 5 2 0 ⟨-20, -12, 48⟩ G.v, mkFace 5 1 2 ⟨60, 36, 60⟩ G.v, mkFace 5 4 1 ⟨60, -36, -60⟩ G.v, mkFace 5 0 4 ⟨-12, -24, 12⟩ G.v]) := by
    have hadd : addLoop [A, B, C, E, F] G.v 6 [mkFace 3 2 1 ⟨0, 36, 0⟩ E.v, mkFace 2 0 1 ⟨48, -12, 48⟩ C.v, mkFace 3 0 2 ⟨-48, 0, 0⟩ E.v, mkFace 4 3 1 ⟨0, 0, -60⟩ F.v, mkFace 4 1 0 ⟨40, -24, 12⟩ F.v,
        mkFace 4 0 3 ⟨-40, 0, 0⟩ F.v] 0 [] =
        .ok ([mkFace 3 2 1 ⟨0, 36, 0⟩ E.v, mkFace 4 0 3 ⟨-40, 0, 0⟩ F.v, mkFace 3 0 2 ⟨-48, 0, 0⟩ E.v, mkFace 4 3 1 ⟨0, 0, -60⟩ F.v], [(2, 0), (1, 2), (4, 1), (0, 4)]) := by
      rw [addLoop_keep (v0 := E) rfl rfl (nz _ _ _ (by norm_num)) (by norm_num [V3.dot, hE, hG]),
        addLoop_see (v0 := C) rfl rfl (nz _ _ _ (by norm_num)) (by norm_num [V3.dot, hC, hG])]
      show addLoop [A, B, C, E, F] G.v 4 [mkFace 3 2 1 ⟨0, 36, 0⟩ E.v, mkFace 4 0 3 ⟨-40, 0, 0⟩ F.v, mkFace 3 0 2 ⟨-48, 0, 0⟩ E.v, mkFace 4 3 1 ⟨0, 0, -60⟩ F.v, mkFace 4 1 0 ⟨40, -24, 12⟩ F.v]
        1 [(2, 0), (0, 1), (1, 2)] = _
      rw [addLoop_keep (v0 := F) rfl rfl (nz _ _ _ (by norm_num)) (by norm_num [V3.dot, hF, hG]),
        addLoop_keep (v0 := E) rfl rfl (nz _ _ _ (by norm_num)) (by norm_num [V3.dot, hE, hG]),
        addLoop_keep (v0 := F) rfl rfl (nz _ _ _ (by norm_num)) (by norm_num [V3.dot, hF, hG]),
        addLoop_see (v0 := F) rfl rfl (nz _ _ _ (by norm_num)) (by norm_num [V3.dot, hF, hG])]
      show addLoop [A, B, C, E, F] G.v 0 [mkFace 3 2 1 ⟨0, 36, 0⟩ E.v, mkFace 4 0 3 ⟨-40, 0, 0⟩ F.v, mkFace 3 0 2 ⟨-48, 0, 0⟩ E.v, mkFace 4 3 1 ⟨0, 0, -60⟩ F.v]
        4 [(2, 0), (1, 2), (4, 1), (0, 4)] = _
      rw [addLoop, if_neg (by simp)]
    have hnew : newFaces [A, B, C, E, F, G] 5 [(2, 0), (1, 2), (4, 1), (0, 4)] = .ok [mkFace 5 2 0 ⟨-20, -12, 48⟩ G.v, mkFace 5 1 2 ⟨60, 36, 60⟩ G.v, mkFace 5 4 1 ⟨60, -36, -60⟩ G.v,
        mkFace 5 0 4 ⟨-12, -24, 12⟩ G.v] := by
      unfold newFaces newFaces newFaces newFaces newFaces
      rw [newImpl_mk (a := G) (b := C) (c := A) (N := ⟨-20, -12, 48⟩) rfl rfl rfl (by ext <;> norm_num [V3.cross, hA, hC, hG]) (nz _ _ _ (by norm_num)),
        newImpl_mk (a := G) (b := B) (c := C) (N := ⟨60, 36, 60⟩) rfl rfl rfl (by ext <;> norm_num [V3.cross, hC, hB, hG]) (nz _ _ _ (by norm_num)),
        newImpl_mk (a := G) (b := F) (c := B) (N := ⟨60, -36, -60⟩) rfl rfl rfl (by ext <;> norm_num [V3.cross, hB, hF, hG]) (nz _ _ _ (by norm_num)),
        newImpl_mk (a := G) (b := A) (c := F) (N := ⟨-12, -24, 12⟩) rfl rfl rfl (by ext <;> norm_num [V3.cross, hA, hF, hG]) (nz _ _ _ (by norm_num))]
      rfl
    unfold polytopeAdd
    show (addLoop [A, B, C, E, F] G.v 6 _ 0 [] >>= _) = _
    rw [hadd, Res.bind_ok]
    show (newFaces [A, B, C, E, F, G] 5 [(2, 0), (1, 2), (4, 1), (0, 4)] >>= _) = _
    rw [hnew]
    rfl
  have cl : ∀ (f g : EFace) (fs : List EFace), closestFace (f :: g :: fs) = open Classical in closestFace ((if g.closer f then g else f) :: fs) := by
    intro f g fs; rfl
  have k0 : closestFace [mkFace 3 2 1 ⟨0, 36, 0⟩ E.v, mkFace 3 1 0 ⟨0, -24, -48⟩ E.v, mkFace 3 0 2 ⟨-48, 0, 0⟩ E.v, mkFace 2 0 1 ⟨48, -12, 48⟩ C.v] = .ok (mkFace 3 1 0 ⟨0, -24, -48⟩ E.v) := by
    rw [cl, if_pos (mkFace_closer (nz _ _ _ (by norm_num)) (nz _ _ _ (by norm_num)) (by norm_num [V3.dot, hE]) (by norm_num [V3.dot, hE]) (by norm_num [V3.dot, hE])),
      cl, if_neg (mkFace_not_closer (nz _ _ _ (by norm_num)) (nz _ _ _ (by norm_num)) (by norm_num [V3.dot, hE]) (by norm_num [V3.dot, hE]) (by norm_num [V3.dot, hE])),
      cl, if_neg (mkFace_not_closer (nz _ _ _ (by norm_num)) (nz _ _ _ (by norm_num)) (by norm_num [V3.dot, hE]) (by norm_num [V3.dot, hC]) (by norm_num [V3.dot, hE, hC]))]
    rfl
  have k1 : closestFace [mkFace 3 2 1 ⟨0, 36, 0⟩ E.v, mkFace 2 0 1 ⟨48, -12, 48⟩ C.v, mkFace 3 0 2 ⟨-48, 0, 0⟩ E.v, mkFace 4 3 1 ⟨0, 0, -60⟩ F.v, mkFace 4 1 0 ⟨40, -24, 12⟩ F.v,
        mkFace 4 0 3 ⟨-40, 0, 0⟩ F.v] = .ok (mkFace 2 0 1 ⟨48, -12, 48⟩ C.v) := by
    rw [cl, if_pos (mkFace_closer (nz _ _ _ (by norm_num)) (nz _ _ _ (by norm_num)) (by norm_num [V3.dot, hC]) (by norm_num [V3.dot, hE]) (by norm_num [V3.dot, hE, hC])),
      cl, if_neg (mkFace_not_closer (nz _ _ _ (by norm_num)) (nz _ _ _ (by norm_num)) (by norm_num [V3.dot, hC]) (by norm_num [V3.dot, hE]) (by norm_num [V3.dot, hE, hC])),
      cl, if_neg (mkFace_not_closer (nz _ _ _ (by norm_num)) (nz _ _ _ (by norm_num)) (by norm_num [V3.dot, hC]) (by norm_num [V3.dot, hF]) (by norm_num [V3.dot, hF, hC])),
      cl, if_neg (mkFace_not_closer (nz _ _ _ (by norm_num)) (nz _ _ _ (by norm_num)) (by norm_num [V3.dot, hC]) (by norm_num [V3.dot, hF]) (by norm_num [V3.dot, hF, hC])),
      cl, if_neg (mkFace_not_closer (nz _ _ _ (by norm_num)) (nz _ _ _ (by norm_num)) (by norm_num [V3.dot, hC]) (by norm_num [V3.dot, hF]) (by norm_num [V3.dot, hF, hC]))]
    rfl
  have k2 : closestFace [mkFace 3 2 1 ⟨0, 36, 0⟩ E.v, mkFace 4 0 3 ⟨-40, 0, 0⟩ F.v, mkFace 3 0 2 ⟨-48, 0, 0⟩ E.v, mkFace 4 3 1 ⟨0, 0, -60⟩ F.v,
        mkFace 5 2 0 ⟨-20, -12, 48⟩ G.v, mkFace 5 1 2 ⟨60, 36, 60⟩ G.v, mkFace 5 4 1 ⟨60, -36, -60⟩ G.v, mkFace 5 0 4 ⟨-12, -24, 12⟩ G.v] = .ok (mkFace 4 0 3 ⟨-40, 0, 0⟩ F.v) := by
    rw [cl, if_pos (mkFace_closer (nz _ _ _ (by norm_num)) (nz _ _ _ (by norm_num)) (by norm_num [V3.dot, hF]) (by norm_num [V3.dot, hE]) (by norm_num [V3.dot, hE, hF])),
      cl, if_neg (mkFace_not_closer (nz _ _ _ (by norm_num)) (nz _ _ _ (by norm_num)) (by norm_num [V3.dot, hF]) (by norm_num [V3.dot, hE]) (by norm_num [V3.dot, hE, hF])),
      cl, if_neg (mkFace_not_closer (nz _ _ _ (by norm_num)) (nz _ _ _ (by norm_num)) (by norm_num [V3.dot, hF]) (by norm_num [V3.dot, hF]) (by norm_num [V3.dot, hF])),
      cl, if_neg (mkFace_not_closer (nz _ _ _ (by norm_num)) (nz _ _ _ (by norm_num)) (by norm_num [V3.dot, hF]) (by norm_num [V3.dot, hG]) (by norm_num [V3.dot, hF, hG])),
      cl, if_neg (mkFace_not_closer (nz _ _ _ (by norm_num)) (nz _ _ _ (by norm_num)) (by norm_num [V3.dot, hF]) (by norm_num [V3.dot, hG]) (by norm_num [V3.dot, hF, hG])),
      cl, if_neg (mkFace_not_closer (nz _ _ _ (by norm_num)) (nz _ _ _ (by norm_num)) (by norm_num [V3.dot, hF]) (by norm_num [V3.dot, hG]) (by norm_num [V3.dot, hF, hG])),
      cl, if_neg (mkFace_not_closer (nz _ _ _ (by norm_num)) (nz _ _ _ (by norm_num)) (by norm_num [V3.dot, hF]) (by norm_num [V3.dot, hG]) (by norm_num [V3.dot, hF, hG]))]
    rfl
  -- the tolerance test of the first two rounds
  have gap : ∀ (N a p : V3 ℝ), N ≠ 0 → N.norm ≤ N.dot (p - a) → ¬ p.dot N.normalize - N.normalize.dot a < tolerance := by
    intro N a p hN h
    have e : p.dot N.normalize - N.normalize.dot a = N.dot (p - a) / N.norm := by
      rw [← normalize_dot]; simp only [V3.dot, V3.sub_x, V3.sub_y, V3.sub_z]; ring
    rw [e, not_lt]
    refine ht1.trans ?_
    rw [le_div_iff₀ (V3.norm_pos hN)]
    linarith
  have t0 : ¬ F.v.dot (⟨0, -24, -48⟩ : V3 ℝ).normalize - (⟨0, -24, -48⟩ : V3 ℝ).normalize.dot E.v < tolerance :=
    gap _ _ _ (nz _ _ _ (by norm_num)) ((V3.norm_le_iff _ (by norm_num [V3.dot, hF, hE])).2 (by norm_num [V3.dot, hF, hE]))
  have t1 : ¬ G.v.dot (⟨48, -12, 48⟩ : V3 ℝ).normalize - (⟨48, -12, 48⟩ : V3 ℝ).normalize.dot C.v < tolerance :=
    gap _ _ _ (nz _ _ _ (by norm_num)) ((V3.norm_le_iff _ (by norm_num [V3.dot, hG, hC])).2 (by norm_num [V3.dot, hG, hC]))
  have hn : (⟨-40, 0, 0⟩ : V3 ℝ).normalize = ⟨-1, 0, 0⟩ := by
    have : (⟨-40, 0, 0⟩ : V3 ℝ).norm = 40 := by
      rw [V3.norm, show (⟨-40, 0, 0⟩ : V3 ℝ).dot ⟨-40, 0, 0⟩ = 40 ^ 2 by norm_num [V3.dot], Real.sqrt_sq (by norm_num)]
    unfold V3.normalize
    rw [this]; ext <;> norm_num
  have t2 : A.v.dot (⟨-40, 0, 0⟩ : V3 ℝ).normalize - (⟨-40, 0, 0⟩ : V3 ℝ).normalize.dot F.v < tolerance := by
    rw [hn]; norm_num [V3.dot, hA, hF]; exact ht
  have hpt : epaPoint3 [A, B, C, E, F, G] (mkFace 4 0 3 ⟨-40, 0, 0⟩ F.v) (⟨-40, 0, 0⟩ : V3 ℝ).normalize ((⟨-40, 0, 0⟩ : V3 ℝ).normalize.dot F.v) = .ok ⟨-1, 6 / 5, 1⟩ := by
    rw [hn]
    show Res.ok (F.supA * _ + A.supA * _ + E.supA * _) = _
    congr 1
    ext <;> norm_num [barycentric, V3.dot, hF, hA, hE]
  refine ⟨[A, B, C, E], Contact.newWithPoint .fullResolution (⟨-40, 0, 0⟩ : V3 ℝ).normalize ((⟨-40, 0, 0⟩ : V3 ℝ).normalize.dot F.v) ⟨-1, 6 / 5, 1⟩, ?_, ?_, rfl, ?_⟩
  · unfold gjkIntersect gjkRun
    rw [hp0, hp1, hd]
    dsimp only
    rw [q0, Res.bind_ok, if_neg (by simp only [hA, Inner.dot, V3.dot]; norm_num), hneg]
    unfold gjkLoop
    rw [q1, Res.bind_ok, if_neg (by simp only [hX, Inner.dot, V3.dot]; norm_num)]
    dsimp only [List.cons_append, List.nil_append]
    rw [r1, if_neg (by simp)]
    unfold gjkLoop
    rw [q2, Res.bind_ok, if_neg (by simp only [hB, Inner.dot, V3.dot]; norm_num)]
    dsimp only [List.cons_append, List.nil_append]
    rw [r2, if_neg (by simp)]
    unfold gjkLoop
    rw [q3, Res.bind_ok, if_neg (by simp only [hC, Inner.dot, V3.dot]; norm_num)]
    dsimp only [List.cons_append, List.nil_append]
    rw [r3, if_neg (by simp)]
    unfold gjkLoop
    rw [q4, Res.bind_ok, if_neg (by simp only [hE, Inner.dot, V3.dot]; norm_num)]
    dsimp only [List.cons_append, List.nil_append]
    rw [r4, if_pos rfl]
    rfl
  · unfold epa3
    rw [if_neg (by simp), g0, Res.bind_ok, show 100 - 1 = 97 + 1 + 1 from rfl]
    unfold epa3Loop
    rw [k0, Res.bind_ok]
    dsimp only [mkFace]
    rw [e1, Res.bind_ok]
    rw [if_neg t0]
    try dsimp only
    have g1' := g1
    dsimp only [mkFace] at g1'
    rw [g1', Res.bind_ok]
    try dsimp only
    unfold epa3Loop
    have k1' := k1
    dsimp only [mkFace] at k1'
    rw [k1', Res.bind_ok]
    try dsimp only
    rw [e2, Res.bind_ok]
    try dsimp only
    rw [if_neg t1]
    try dsimp only
    have g2' := g2
    dsimp only [mkFace] at g2'
    rw [g2', Res.bind_ok]
    try dsimp only
    unfold epa3Loop
    have k2' := k2
    dsimp only [mkFace] at k2'
    rw [k2', Res.bind_ok]
    try dsimp only
    rw [e3, Res.bind_ok]
    try dsimp only
    rw [if_pos t2]
    have hpt' := hpt
    dsimp only [mkFace] at hpt'
    rw [hpt']
    rfl
  · rintro ⟨q, hq, e⟩
    have hy := congrArg V3.y e
    have : (shift3 0 0 0).tr.point q = q := by ext <;> simp [shift3, Dec3.tr, M3.apply]
    rw [this] at hy
    have hq2 := hq
    simp only [InBox] at hq2
    have hy' : (6 / 5 : ℝ) = q.y := hy
    rw [← hy'] at hq2
    norm_num at hq2
end
end Verif.Minkowski
