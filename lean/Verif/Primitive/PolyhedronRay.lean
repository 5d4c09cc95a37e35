import Verif.Primitive.Polyhedron
import Verif.Geom.Transformed
/-!
# Rays against convex polyhedra with faces: C63
-/
namespace Verif.Primitive
open Verif Verif.Geom
set_option linter.unusedSectionVars false

/-! ## Geometry of one face -/

/-- normal of a triangle (not normalised) -/
def nrm (a b c : V3 ℝ) : V3 ℝ := (b - a).cross (c - a)
/-- on which side of the line `x y` (in the plane with normal `N`) the point `q` is -/
def side (N x y q : V3 ℝ) : ℝ := N.dot ((y - x).cross (q - x))

theorem nrm_rot (a b c : V3 ℝ) : nrm a b c = nrm b c a := by ext <;> simp [nrm, V3.cross] <;> ring
theorem vol_eq (a b c q : V3 ℝ) : vol a b c q = (nrm a b c).dot (q - a) := rfl
theorem vol_ray (a b c o d : V3 ℝ) (t : ℝ) : vol a b c (o + d * t) = vol a b c o + t * (nrm a b c).dot d := by
  simp [vol, nrm, V3.dot, V3.cross]; ring
theorem vol_self (a b c : V3 ℝ) : vol a b c a = 0 ∧ vol a b c b = 0 ∧ vol a b c c = 0 := by
  simp [vol, V3.dot, V3.cross]; constructor <;> ring

theorem side_sum (a b c q : V3 ℝ) : side (nrm a b c) b c q + side (nrm a b c) c a q + side (nrm a b c) a b q = (nrm a b c).dot (nrm a b c) := by
  simp [side, nrm, V3.dot, V3.cross]; ring

/-- barycentric combination -/
theorem bary_comb {a b c q : V3 ℝ} (h : vol a b c q = 0) :
    a * side (nrm a b c) b c q + b * side (nrm a b c) c a q + c * side (nrm a b c) a b q = q * (nrm a b c).dot (nrm a b c) := by
  have h' := h
  simp [vol, V3.dot, V3.cross] at h'
  ext
  · simp [nrm, side, V3.dot, V3.cross]
    linear_combination (-((b.y - a.y) * (c.z - a.z) - (b.z - a.z) * (c.y - a.y))) * h'
  · simp [nrm, side, V3.dot, V3.cross]
    linear_combination (-((b.z - a.z) * (c.x - a.x) - (b.x - a.x) * (c.z - a.z))) * h'
  · simp [nrm, side, V3.dot, V3.cross]
    linear_combination (-((b.x - a.x) * (c.y - a.y) - (b.y - a.y) * (c.x - a.x))) * h'

theorem dot_self_pos {v : V3 ℝ} (h : v ≠ 0) : 0 < v.dot v := by
  rw [← V3.norm_sq]; exact mul_pos (V3.norm_pos h) (V3.norm_pos h)

theorem barycentric_eq {a b c q : V3 ℝ} :
    barycentric q a b c = (side (nrm a b c) b c q / (nrm a b c).dot (nrm a b c), side (nrm a b c) c a q / (nrm a b c).dot (nrm a b c),
      side (nrm a b c) a b q / (nrm a b c).dot (nrm a b c)) ∨ (nrm a b c).dot (nrm a b c) = 0 := by
  by_cases hN : (nrm a b c).dot (nrm a b c) = 0
  · exact Or.inr hN
  left
  have hD : (b - a).dot (b - a) * (c - a).dot (c - a) - (b - a).dot (c - a) * (b - a).dot (c - a) = (nrm a b c).dot (nrm a b c) := by
    simp [nrm, V3.dot, V3.cross]; ring
  have hv : (c - a).dot (c - a) * (q - a).dot (b - a) - (b - a).dot (c - a) * (q - a).dot (c - a) = side (nrm a b c) c a q := by
    simp [nrm, side, V3.dot, V3.cross]; ring
  have hw : (b - a).dot (b - a) * (q - a).dot (c - a) - (b - a).dot (c - a) * (q - a).dot (b - a) = side (nrm a b c) a b q := by
    simp [nrm, side, V3.dot, V3.cross]; ring
  simp only [barycentric, hD, hv, hw, Prod.mk.injEq]
  refine ⟨?_, by ring, by ring⟩
  have := side_sum a b c q
  field_simp
  linarith

/-- the plane stored for a face -/
theorem facePlane_spec {vs : List (V3 ℝ)} {f : Tri} {a b c : V3 ℝ} (ha : vs[f.1]? = some a) (hb : vs[f.2.1]? = some b) (hc : vs[f.2.2]? = some c) {pl : Plane ℝ}
    (h : facePlane vs f = .ok pl) : nrm a b c ≠ 0 ∧ ∃ s : ℝ, 0 < s ∧ pl.n = nrm a b c * s ∧ pl.d = -(a.dot (nrm a b c)) * s := by
  unfold facePlane at h
  simp only [ha, hb, hc, Res.ofOption_some, Res.bind_ok, Plane.fromPoints] at h
  by_cases h0 : (b - a).cross (c - a) = 0
  · rw [if_pos h0] at h; cases h
  rw [if_neg h0] at h
  simp only [Res.ofOption_some, Res.ok.injEq] at h
  refine ⟨h0, 1 / (nrm a b c).norm, by have := V3.norm_pos h0; exact one_div_pos.2 this, ?_, ?_⟩
  · rw [← h]; rfl
  · rw [← h]
    simp [Plane.new, V3.normalize, V3.normalizeTo, V3.dot, nrm]
    ring

theorem rayFace_spec {vs : List (V3 ℝ)} {hf : HFace} {a b c : V3 ℝ} (ha : vs[hf.verts.1]? = some a) (hb : vs[hf.verts.2.1]? = some b) (hc : vs[hf.verts.2.2]? = some c)
    {pl : Plane ℝ} (h : facePlane vs hf.verts = .ok pl) (r : Ray3 ℝ) :
    (¬((nrm a b c).dot r.direction < 0 ∧ 0 ≤ vol a b c r.origin) ∧ rayFace vs pl hf r = .ok none) ∨
    ((nrm a b c).dot r.direction < 0 ∧ 0 ≤ vol a b c r.origin ∧ rayFace vs pl hf r = .ok (some (
      (fun q => (side (nrm a b c) b c q / (nrm a b c).dot (nrm a b c), side (nrm a b c) c a q / (nrm a b c).dot (nrm a b c),
      side (nrm a b c) a b q / (nrm a b c).dot (nrm a b c))) (r.at (vol a b c r.origin / -(nrm a b c).dot r.direction))))) := by
  obtain ⟨h0, s, s0, e1, e2⟩ := facePlane_spec ha hb hc h
  have n1 : pl.n.dot r.direction = (nrm a b c).dot r.direction * s := by rw [e1]; simp [V3.dot]; ring
  have n2 : -(pl.d + r.origin.dot pl.n) = -vol a b c r.origin * s := by rw [e1, e2, vol_eq]; simp [V3.dot]; ring
  have n3 : r.direction.dot pl.n = (nrm a b c).dot r.direction * s := by rw [e1]; simp [V3.dot]; ring
  unfold rayFace
  simp only [n1, n2, n3]
  by_cases hd : (nrm a b c).dot r.direction < 0
  · have hds : (nrm a b c).dot r.direction * s < 0 := mul_neg_of_neg_of_pos hd s0
    rw [if_pos hds]
    have ht : -vol a b c r.origin * s / ((nrm a b c).dot r.direction * s) = vol a b c r.origin / -(nrm a b c).dot r.direction := by
      rw [mul_div_mul_right _ _ s0.ne', div_neg, neg_div]
    rw [ht]
    by_cases ho : 0 ≤ vol a b c r.origin
    · right
      rw [if_neg (not_lt.2 (div_nonneg ho (by linarith)))]
      refine ⟨hd, ho, ?_⟩
      simp only [ha, hb, hc, Res.ofOption_some, Res.bind_ok, Res.pure_eq]
      rcases barycentric_eq (a := a) (b := b) (c := c) (q := r.origin + r.direction * (vol a b c r.origin / -(nrm a b c).dot r.direction)) with h | h
      · rw [h]; rfl
      · exact absurd h (dot_self_pos h0).ne'
    · left
      push Not at ho
      rw [if_pos (div_neg_of_neg_of_pos ho (by linarith))]
      exact ⟨fun hc => absurd ho (not_lt.2 hc.2), rfl⟩
  · left
    rw [if_neg (fun hc => hd (by by_contra hn; exact absurd hc (not_lt.2 (mul_nonneg (not_lt.1 hd) s0.le))))]
    exact ⟨fun hc => hd hc.1, rfl⟩

/-! ## Faces of a convex solid -/

/-- position of a vertex -/
noncomputable abbrev P (vs : List (V3 ℝ)) (v : Nat) : V3 ℝ := vs.getD v 0
/-- normal of a face -/
noncomputable def nf (vs : List (V3 ℝ)) (f : Tri) : V3 ℝ := nrm (P vs f.1) (P vs f.2.1) (P vs f.2.2)
/-- signed volume over a face -/
noncomputable def vf (vs : List (V3 ℝ)) (f : Tri) (q : V3 ℝ) : ℝ := vol (P vs f.1) (P vs f.2.1) (P vs f.2.2) q

theorem nf_rot (vs : List (V3 ℝ)) {f : Tri} {x y z : Nat} (h : IsRot f x y z) : nf vs f = nrm (P vs x) (P vs y) (P vs z) := by
  rcases h with rfl | rfl | rfl
  · rfl
  · exact (nrm_rot _ _ _).symm
  · exact nrm_rot _ _ _
theorem vf_rot (vs : List (V3 ℝ)) {f : Tri} {x y z : Nat} (h : IsRot f x y z) (q : V3 ℝ) : vf vs f q = vol (P vs x) (P vs y) (P vs z) q := by
  rcases h with rfl | rfl | rfl
  · rfl
  · exact (vol_rot _ _ _ _).symm
  · exact vol_rot _ _ _ _
theorem vf_ray (vs : List (V3 ℝ)) (f : Tri) (o d : V3 ℝ) (t : ℝ) : vf vs f (o + d * t) = vf vs f o + t * (nf vs f).dot d := vol_ray _ _ _ _ _ _

section
variable {vs : List (V3 ℝ)} {fs : List Tri} (h : ConvexSolid vs fs)
include h

theorem ConvexSolid.vf_le {f : Tri} (hf : f ∈ fs) {p : V3 ℝ} (hp : p ∈ vs) : vf vs f p ≤ 0 := by
  obtain ⟨l1, l2, l3, -⟩ := h.tri f hf
  exact h.behind f hf _ _ _ (getD3_eq l1) (getD3_eq l2) (getD3_eq l3) p hp
theorem ConvexSolid.vf_hull {f : Tri} (hf : f ∈ fs) {p : V3 ℝ} (hp : Hull3 vs p) : vf vs f p ≤ 0 := by
  have e : ∀ q, vf vs f q = q.dot (nf vs f) - (P vs f.1).dot (nf vs f) := by intro q; unfold vf nf; rw [vol_eq]; simp [V3.dot]; ring
  rw [e]
  have := hull3_le (e := nf vs f) (m := (P vs f.1).dot (nf vs f)) (fun v hv => by have := h.vf_le hf hv; rw [e] at this; linarith) hp
  linarith
theorem ConvexSolid.mem {f : Tri} (hf : f ∈ fs) {x y z : Nat} (hr : IsRot f x y z) : P vs x ∈ vs ∧ P vs y ∈ vs ∧ P vs z ∈ vs := by
  obtain ⟨l1, l2, l3⟩ := rot_lt (h.tri f hf) hr
  exact ⟨List.mem_of_getElem? (getD3_eq l1), List.mem_of_getElem? (getD3_eq l2), List.mem_of_getElem? (getD3_eq l3)⟩
theorem ConvexSolid.nf_ne {f : Tri} (hf : f ∈ fs) : nf vs f ≠ 0 := by
  obtain ⟨a, b, c, ha, hb, hc, hn⟩ := h.normals f hf
  obtain ⟨l1, l2, l3, -⟩ := h.tri f hf
  rw [getD3_eq l1] at ha; rw [getD3_eq l2] at hb; rw [getD3_eq l3] at hc
  cases ha; cases hb; cases hc
  exact hn
theorem ConvexSolid.in_o : ∃ o, ∀ f ∈ fs, vf vs f o < 0 := by
  obtain ⟨o, ho⟩ := h.inner
  refine ⟨o, fun f hf => ?_⟩
  obtain ⟨l1, l2, l3, -⟩ := h.tri f hf
  exact ho f hf _ _ _ (getD3_eq l1) (getD3_eq l2) (getD3_eq l3)

omit h in
theorem vol_comb {a b c q : V3 ℝ} (hq : vol a b c q = 0) (x y z : V3 ℝ) : (nrm a b c).dot (nrm a b c) * vol x y z q =
    side (nrm a b c) b c q * vol x y z a + side (nrm a b c) c a q * vol x y z b + side (nrm a b c) a b q * vol x y z c := by
  have hc := bary_comb hq
  have hs := side_sum a b c q
  have e : ∀ p, vol x y z p = p.dot (nrm x y z) - x.dot (nrm x y z) := by intro q; rw [vol_eq]; simp [V3.dot]; ring
  have hd := congrArg (fun v : V3 ℝ => v.dot (nrm x y z)) hc
  have e2 : ∀ (u v w n : V3 ℝ) (s t r : ℝ), (u * s + v * t + w * r).dot n = s * u.dot n + t * v.dot n + r * w.dot n := by intros; simp [V3.dot]; ring
  have e3 : ∀ (u n : V3 ℝ) (s : ℝ), (u * s).dot n = s * u.dot n := by intros; simp [V3.dot]; ring
  simp only [e2, e3] at hd
  simp only [e]
  linear_combination x.dot (nrm x y z) * hs - hd

omit h in
theorem side_neg (N x y q : V3 ℝ) : side N y x q = -side N x y q := by simp [side, V3.dot, V3.cross]; ring
omit h in
theorem side_mul (N x y q : V3 ℝ) (s : ℝ) : side (N * s) x y q = side N x y q * s := by simp [side, V3.dot, V3.cross]; ring

/-- parallel normals -/
theorem ConvexSolid.parallel {f g : Tri} (hf : f ∈ fs) (hg : g ∈ fs) {x y c z : Nat} (rf : IsRot f x y c) (rg : IsRot g y x z) (h0 : vf vs g (P vs c) = 0) :
    ∃ s : ℝ, 0 < s ∧ nf vs g = nf vs f * s := by
  have hN := dot_self_pos (h.nf_ne hf)
  have g1 : (nf vs g).dot (P vs y - P vs x) = 0 := by
    rw [nf_rot vs rg]; simp [nrm, V3.dot, V3.cross]; ring
  have g2 : (nf vs g).dot (P vs c - P vs x) = 0 := by
    rw [vf_rot vs rg, vol_eq, ← nf_rot vs rg] at h0
    have : (nf vs g).dot (P vs c - P vs x) = (nf vs g).dot (P vs c - P vs y) + (nf vs g).dot (P vs y - P vs x) := by simp [V3.dot]; ring
    rw [this, h0, g1, add_zero]
  have key : ∀ d, (nf vs f).dot (nf vs f) * (nf vs g).dot d = (nf vs g).dot (nf vs f) * (nf vs f).dot d := by
    intro d
    have : ∀ (u v d G : V3 ℝ), (u.cross v).dot (u.cross v) * G.dot d = G.dot (u.cross v) * (u.cross v).dot d + (u.cross v).dot (d.cross v) * G.dot u +
        (u.cross v).dot (u.cross d) * G.dot v := by intro u v d G; simp [V3.dot, V3.cross]; ring
    have k := this (P vs y - P vs x) (P vs c - P vs x) d (nf vs g)
    rw [g1, g2] at k
    rw [nf_rot vs rf]
    simpa [nrm] using k
  obtain ⟨o, ho⟩ := h.in_o
  have o1 := ho f hf
  have o2 := ho g hg
  rw [vf_rot vs rf, vol_eq, ← nf_rot vs rf] at o1
  rw [vf_rot vs rg, vol_eq, ← nf_rot vs rg] at o2
  have o2' : (nf vs g).dot (o - P vs x) < 0 := by
    have : (nf vs g).dot (o - P vs x) = (nf vs g).dot (o - P vs y) + (nf vs g).dot (P vs y - P vs x) := by simp [V3.dot]; ring
    rw [this, g1, add_zero]; exact o2
  have hpos : 0 < (nf vs g).dot (nf vs f) := by
    have k := key (o - P vs x)
    by_contra hn
    push Not at hn
    have k1 := mul_neg_of_pos_of_neg hN o2'
    have k2 := mul_nonneg_of_nonpos_of_nonpos hn o1.le
    linarith
  refine ⟨(nf vs g).dot (nf vs f) / (nf vs f).dot (nf vs f), div_pos hpos hN, ?_⟩
  have comp : ∀ d, (nf vs g).dot d = (nf vs f * ((nf vs g).dot (nf vs f) / (nf vs f).dot (nf vs f))).dot d := by
    intro d
    have e3 : ∀ (u n : V3 ℝ) (s : ℝ), (u * s).dot n = s * u.dot n := by intros; simp [V3.dot]; ring
    rw [e3, div_mul_eq_mul_div, eq_div_iff hN.ne', ← key]; ring
  ext
  · simpa [V3.dot] using comp ⟨1, 0, 0⟩
  · simpa [V3.dot] using comp ⟨0, 1, 0⟩
  · simpa [V3.dot] using comp ⟨0, 0, 1⟩

/-- Beyond an edge of `f`, in the plane of `f`, one is in front of the neighbour, strictly if it is not coplanar. -/
theorem ConvexSolid.beyond {f g : Tri} (hf : f ∈ fs) (hg : g ∈ fs) {x y c z : Nat} (rf : IsRot f x y c) (rg : IsRot g y x z) {p : V3 ℝ} (hp : vf vs f p = 0)
    (hs : side (nf vs f) (P vs x) (P vs y) p < 0) : 0 < vf vs g p ∨ (vf vs g p = 0 ∧ ∃ s : ℝ, 0 < s ∧ nf vs g = nf vs f * s) := by
  have hN := dot_self_pos (h.nf_ne hf)
  have hc := h.vf_le hg (h.mem hf rf).2.2
  rw [vf_rot vs rf] at hp
  have k := vol_comb hp (P vs y) (P vs x) (P vs z)
  rw [(vol_self (P vs y) (P vs x) (P vs z)).1, (vol_self (P vs y) (P vs x) (P vs z)).2.1, ← vf_rot vs rg, ← vf_rot vs rg, ← nf_rot vs rf] at k
  rcases lt_or_eq_of_le hc with hc | hc
  · left
    have := mul_pos_of_neg_of_neg hs hc
    by_contra hn
    have := mul_nonpos_of_nonneg_of_nonpos hN.le (not_lt.1 hn)
    linarith
  · right
    refine ⟨?_, h.parallel hf hg rf rg hc⟩
    rw [hc] at k
    simp only [mul_zero, add_zero] at k
    exact (mul_eq_zero.1 k).resolve_left hN.ne'

/-- no corner is a convex combination of others -/
theorem ConvexSolid.no_comb {v w1 w2 s : Nat} (hv : v < vs.length) (h1 : w1 < vs.length) (h2 : w2 < vs.length) (hs : s < vs.length) (n1 : w1 ≠ v) (n2 : w2 ≠ v)
    {A B C : ℝ} (hsum : A + B + C = 1) (hB : B ≤ 0) (hC : C < 0) (hcomb : P vs v * A + P vs w1 * B + P vs w2 * C = P vs s) (hsv : s ≠ v) : False := by
  obtain ⟨d, hd⟩ := h.corner v _ (getD3_eq hv)
  have k1 := hd w1 _ n1 (getD3_eq h1)
  have k2 := hd w2 _ n2 (getD3_eq h2)
  have k3 := hd s _ hsv (getD3_eq hs)
  have e := congrArg (fun u : V3 ℝ => u.dot d) hcomb
  have e2 : ∀ (u v w n : V3 ℝ) (s t r : ℝ), (u * s + v * t + w * r).dot n = s * u.dot n + t * v.dot n + r * w.dot n := by intros; simp [V3.dot]; ring
  simp only [e2] at e
  have m1 := mul_nonneg_of_nonpos_of_nonpos hB (show (vs.getD w1 0).dot d - (vs.getD v 0).dot d ≤ 0 by linarith)
  have m2 := mul_pos_of_neg_of_neg hC (show (vs.getD w2 0).dot d - (vs.getD v 0).dot d < 0 by linarith)
  have hA : A = 1 - B - C := by linarith
  subst hA
  simp only [P] at e
  nlinarith

/-! ## The walk -/

omit h in
theorem side_vertex (a b c : V3 ℝ) : side (nrm a b c) a b a = 0 ∧ side (nrm a b c) a b b = 0 ∧ side (nrm a b c) a b c = (nrm a b c).dot (nrm a b c) := by
  refine ⟨?_, ?_, ?_⟩ <;> simp [side, nrm, V3.dot, V3.cross] <;> ring

omit h in
theorem rot_cases {n : Nat} {f : Tri} (hf : TriOk n f) {y x z x' y' c : Nat} (h1 : IsRot f y x z) (h2 : IsRot f x' y' c) :
    (x' = y ∧ y' = x ∧ c = z) ∨ (x' = x ∧ y' = z ∧ c = y) ∨ (x' = z ∧ y' = y ∧ c = x) := by
  obtain ⟨p, q, r⟩ := f
  unfold IsRot at h1 h2
  simp only [Prod.mk.injEq] at h1 h2
  omega

omit h in
theorem rot_ne {n : Nat} {f : Tri} (hf : TriOk n f) {y x z : Nat} (h1 : IsRot f y x z) : y ≠ x ∧ x ≠ z ∧ z ≠ y := by
  obtain ⟨p, q, r⟩ := f
  obtain ⟨-, -, -, n1, n2, n3⟩ := hf
  simp only at n1 n2 n3
  unfold IsRot at h1
  simp only [Prod.mk.injEq] at h1
  omega

/-- In the plane of `f`, behind the entry edge and beyond another edge there is no corner. -/
theorem ConvexSolid.no_corner {f : Tri} (hf : f ∈ fs) {y x z x' y' c s : Nat} (r1 : IsRot f y x z) (r2 : IsRot f x' y' c) (hne : ¬(x' = y ∧ y' = x)) (hs : s < vs.length)
    (h0 : vf vs f (P vs s) = 0) (h1 : side (nf vs f) (P vs y) (P vs x) (P vs s) < 0) (h2 : side (nf vs f) (P vs x') (P vs y') (P vs s) ≤ 0) : False := by
  obtain ⟨ly, lx, lz⟩ := rot_lt (h.tri f hf) r1
  obtain ⟨n1, n2, n3⟩ := rot_ne (h.tri f hf) r1
  have hN := dot_self_pos (h.nf_ne hf)
  rw [vf_rot vs r1] at h0
  have hc := bary_comb h0
  have hsum := side_sum (P vs y) (P vs x) (P vs z) (P vs s)
  have sv := side_vertex (P vs y) (P vs x) (P vs z)
  rw [← nf_rot vs r1] at hc hsum sv
  generalize hD : (nf vs f).dot (nf vs f) = D at *
  have hdiv : ∀ a b c : ℝ, ∀ u v w q : V3 ℝ, u * a + v * b + w * c = q * D → u * (a / D) + v * (b / D) + w * (c / D) = q := by
    intro a b c u v w q e
    have e1 := congrArg V3.x e; have e2 := congrArg V3.y e; have e3 := congrArg V3.z e
    simp at e1 e2 e3
    ext <;> simp <;> field_simp <;> linarith
  rcases rot_cases (h.tri f hf) r1 r2 with ⟨e1, e2, -⟩ | ⟨rfl, rfl, -⟩ | ⟨rfl, rfl, -⟩
  · exact hne ⟨e1, e2⟩
  · refine h.no_comb (v := x') (w1 := y) (w2 := y') (A := side (nf vs f) (P vs y') (P vs y) (P vs s) / D) (B := side (nf vs f) (P vs x') (P vs y') (P vs s) / D)
      (C := side (nf vs f) (P vs y) (P vs x') (P vs s) / D) lx ly lz hs n1 n2.symm ?_ (div_nonpos_of_nonpos_of_nonneg h2 hN.le) (div_neg_of_neg_of_pos h1 hN) ?_ ?_
    · rw [← add_div, ← add_div, div_eq_one_iff_eq hN.ne', ← hsum]; ring
    · apply hdiv
      rw [← hc]; ext <;> simp <;> ring
    · rintro rfl; rw [sv.2.1] at h1; exact lt_irrefl _ h1
  · refine h.no_comb (v := y') (w1 := x) (w2 := x') (A := side (nf vs f) (P vs x) (P vs x') (P vs s) / D) (B := side (nf vs f) (P vs x') (P vs y') (P vs s) / D)
      (C := side (nf vs f) (P vs y') (P vs x) (P vs s) / D) ly lx lz hs n1.symm n3 ?_ (div_nonpos_of_nonpos_of_nonneg h2 hN.le) (div_neg_of_neg_of_pos h1 hN) ?_ ?_
    · rw [← add_div, ← add_div, div_eq_one_iff_eq hN.ne', ← hsum]
    · apply hdiv
      rw [← hc]
    · rintro rfl; rw [sv.1] at h1; exact lt_irrefl _ h1

omit h in
/-- the ray crosses the plane of `f` from the front, not before its origin -/
def Front (vs : List (V3 ℝ)) (r : Ray3 ℝ) (f : Tri) : Prop := (nf vs f).dot r.direction < 0 ∧ 0 ≤ vf vs f r.origin
omit h in
/-- when -/
noncomputable def time (vs : List (V3 ℝ)) (r : Ray3 ℝ) (f : Tri) : ℝ := vf vs f r.origin / -(nf vs f).dot r.direction

omit h in
theorem vf_pt {r : Ray3 ℝ} {f : Tri} (hf : Front vs r f) : vf vs f (r.at (time vs r f)) = 0 := by
  unfold Ray3.at time
  rw [vf_ray]
  have : (nf vs f).dot r.direction ≠ 0 := hf.1.ne
  field_simp; ring
omit h in
theorem time_nonneg {r : Ray3 ℝ} {f : Tri} (hf : Front vs r f) : 0 ≤ time vs r f := div_nonneg hf.2 (by linarith [hf.1])
omit h in
theorem le_time {r : Ray3 ℝ} {f : Tri} (hf : Front vs r f) {u : ℝ} (hu : vf vs f (r.at u) ≤ 0) : time vs r f ≤ u := by
  unfold time
  have := hf.1
  unfold Ray3.at at hu
  rw [vf_ray] at hu
  rw [div_le_iff₀ (by linarith)]
  linarith

/-- the neighbour towards the ray's crossing point is crossed from the front, and not earlier -/
theorem ConvexSolid.next_front {r : Ray3 ℝ} {u : ℝ} (hu : ∀ f ∈ fs, vf vs f (r.at u) ≤ 0) {f g : Tri} (hf : f ∈ fs) (hg : g ∈ fs) (ff : Front vs r f)
    {x y c z : Nat} (rf : IsRot f x y c) (rg : IsRot g y x z) (hs : side (nf vs f) (P vs x) (P vs y) (r.at (time vs r f)) < 0) :
    Front vs r g ∧ (time vs r f < time vs r g ∨ (time vs r g = time vs r f ∧ ∃ s : ℝ, 0 < s ∧ nf vs g = nf vs f * s)) := by
  have htu := le_time ff (hu f hf)
  have ht0 := time_nonneg ff
  have hgu := hu g hg
  have hp := vf_pt ff
  have hb := h.beyond hf hg rf rg hp hs
  have e1 : vf vs g (r.at (time vs r f)) = vf vs g r.origin + time vs r f * (nf vs g).dot r.direction := vf_ray _ _ _ _ _
  have e2 : vf vs g (r.at u) = vf vs g r.origin + u * (nf vs g).dot r.direction := vf_ray _ _ _ _ _
  rw [e1] at hb
  rw [e2] at hgu
  rcases hb with hb | ⟨hb, s, s0, hs'⟩
  · have hd : (nf vs g).dot r.direction < 0 := by
      by_contra hn
      have := mul_nonneg (sub_nonneg.2 htu) (not_lt.1 hn)
      linarith
    have := mul_nonpos_of_nonneg_of_nonpos ht0 hd.le
    refine ⟨⟨hd, by linarith⟩, Or.inl ?_⟩
    unfold time at *
    rw [lt_div_iff₀ (by linarith)]
    linarith
  · have hd : (nf vs g).dot r.direction < 0 := by
      have : (nf vs g).dot r.direction = (nf vs f).dot r.direction * s := by rw [hs']; simp [V3.dot]; ring
      rw [this]; exact mul_neg_of_neg_of_pos ff.1 s0
    have := mul_nonpos_of_nonneg_of_nonpos ht0 hd.le
    refine ⟨⟨hd, by linarith⟩, Or.inr ⟨?_, s, s0, hs'⟩⟩
    conv_lhs => unfold time
    rw [div_eq_iff (by linarith)]
    linarith

omit h in
/-- what the walk knows on arrival at `f` when the faces `C` have been visited -/
def Walk (vs : List (V3 ℝ)) (r : Ray3 ℝ) (C : Tri → Prop) (f : Tri) : Prop :=
  (∀ k, C k → Front vs r k → time vs r k < time vs r f) ∨
  ∃ y x z, IsRot f y x z ∧ 0 < side (nf vs f) (P vs y) (P vs x) (r.at (time vs r f)) ∧
    ∀ k, C k → Front vs r k → time vs r k < time vs r f ∨ (time vs r k = time vs r f ∧ ∃ s, (s = k.1 ∨ s = k.2.1 ∨ s = k.2.2) ∧
      vf vs f (P vs s) = 0 ∧ side (nf vs f) (P vs y) (P vs x) (P vs s) < 0)

omit h in
theorem rot_vertex {k : Tri} {y x z s : Nat} (hr : IsRot k y x z) (hs : s = k.1 ∨ s = k.2.1 ∨ s = k.2.2) : s = y ∨ s = x ∨ s = z := by
  rcases hr with rfl | rfl | rfl <;> simp only at hs <;> omega
omit h in
theorem vertex_rot {k : Tri} {y x z s : Nat} (hr : IsRot k y x z) (hs : s = y ∨ s = x ∨ s = z) : s = k.1 ∨ s = k.2.1 ∨ s = k.2.2 := by
  rcases hr with rfl | rfl | rfl <;> simp only <;> omega

theorem ConvexSolid.step {r : Ray3 ℝ} {u : ℝ} (hu : ∀ f ∈ fs, vf vs f (r.at u) ≤ 0) {C : Tri → Prop} (hC : ∀ k, C k → k ∈ fs) {f g : Tri} (hf : f ∈ fs) (hg : g ∈ fs)
    (ff : Front vs r f) (hw : Walk vs r C f) {x' y' c z' : Nat} (rf : IsRot f x' y' c) (rg : IsRot g y' x' z')
    (hs : side (nf vs f) (P vs x') (P vs y') (r.at (time vs r f)) < 0) :
    Front vs r g ∧ ¬ C g ∧ g ≠ f ∧ Walk vs r (fun k => k = f ∨ C k) g := by
  obtain ⟨fg, ht⟩ := h.next_front hu hf hg ff rf rg hs
  have hle : ∀ k, C k → Front vs r k → time vs r k ≤ time vs r f := by
    intro k hk fk
    rcases hw with hw | ⟨y, x, z, -, -, hw⟩
    · exact (hw k hk fk).le
    · rcases hw k hk fk with hw | hw
      · exact hw.le
      · exact hw.1.le
  refine ⟨fg, ?_⟩
  rcases ht with ht | ⟨ht, s, s0, hn⟩
  · refine ⟨fun hc => absurd (hle g hc fg) (not_le.2 ht), by rintro rfl; exact lt_irrefl _ ht, Or.inl ?_⟩
    rintro k (rfl | hk) fk
    · exact ht
    · exact lt_of_le_of_lt (hle k hk fk) ht
  have hNf := dot_self_pos (h.nf_ne hf)
  have hNg := dot_self_pos (h.nf_ne hg)
  have hne : g ≠ f := by
    rintro rfl
    have nn := rot_ne (h.tri g hg) rf
    rcases rot_cases (h.tri g hg) rf rg with h1 | h1 | h1 <;> omega
  -- sides with respect to the two normals
  have sg : ∀ q, side (nf vs g) (P vs y') (P vs x') q = -(side (nf vs f) (P vs x') (P vs y') q * s) := by
    intro q; rw [hn, side_mul, side_neg]; ring
  have vg : ∀ q, vf vs f q = 0 → vf vs g q = 0 := by
    intro q hq
    rw [vf_rot vs rf, vol_eq, ← nf_rot vs rf] at hq
    rw [vf_rot vs rg, vol_eq, ← nf_rot vs rg, hn]
    have h1 : (nf vs f).dot (P vs y' - P vs x') = 0 := by rw [nf_rot vs rf]; simp [nrm, V3.dot, V3.cross]; ring
    have : (nf vs f * s).dot (q - P vs y') = s * ((nf vs f).dot (q - P vs x') - (nf vs f).dot (P vs y' - P vs x')) := by simp [V3.dot]; ring
    rw [this, hq, h1]; ring
  have vfz : vf vs f (P vs z') = 0 := by
    have := (vol_self (P vs y') (P vs x') (P vs z')).2.2
    rw [vol_eq, ← nf_rot vs rg, hn] at this
    have h1 : (nf vs f).dot (P vs y' - P vs x') = 0 := by rw [nf_rot vs rf]; simp [nrm, V3.dot, V3.cross]; ring
    have e : (nf vs f * s).dot (P vs z' - P vs y') = s * ((nf vs f).dot (P vs z' - P vs x') - (nf vs f).dot (P vs y' - P vs x')) := by simp [V3.dot]; ring
    rw [e, h1, sub_zero] at this
    rw [vf_rot vs rf, vol_eq, ← nf_rot vs rf]
    exact (mul_eq_zero.1 this).resolve_left s0.ne'
  have szneg : side (nf vs f) (P vs x') (P vs y') (P vs z') < 0 := by
    have := (side_vertex (P vs y') (P vs x') (P vs z')).2.2
    rw [← nf_rot vs rg, sg] at this
    by_contra hc
    have := mul_nonneg (not_lt.1 hc) s0.le
    linarith
  have lts : ∀ k, C k → ∀ s, (s = k.1 ∨ s = k.2.1 ∨ s = k.2.2) → s < vs.length := by
    intro k hk s hs
    obtain ⟨l1, l2, l3, -⟩ := h.tri k (hC k hk)
    rcases hs with rfl | rfl | rfl <;> assumption
  refine ⟨?_, hne, Or.inr ⟨y', x', z', rg, ?_, ?_⟩⟩
  · intro hc
    rcases hw with hw | ⟨y, x, z, r1, hp, hw⟩
    · have := hw g hc fg; linarith
    · rcases hw g hc fg with hw | ⟨-, v, hv, v0, vneg⟩
      · linarith
      have hnexit : ¬(x' = y ∧ y' = x) := by rintro ⟨rfl, rfl⟩; linarith
      have hvv := rot_vertex rg hv
      have onf : (v = y ∨ v = x ∨ v = z) → False := by
        have sv := side_vertex (P vs y) (P vs x) (P vs z)
        rw [← nf_rot vs r1] at sv
        rintro (rfl | rfl | rfl)
        · rw [sv.1] at vneg; exact lt_irrefl _ vneg
        · rw [sv.2.1] at vneg; exact lt_irrefl _ vneg
        · rw [sv.2.2] at vneg; linarith
      rcases hvv with rfl | rfl | rfl
      · exact onf (rot_vertex r1 (vertex_rot rf (Or.inr (Or.inl rfl))))
      · exact onf (rot_vertex r1 (vertex_rot rf (Or.inl rfl)))
      · exact h.no_corner hf r1 rf hnexit (lts g hc _ hv) v0 vneg szneg.le
  · rw [sg, ht]
    have := mul_neg_of_neg_of_pos hs s0
    linarith
  · rintro k (rfl | hk) fk
    · refine Or.inr ⟨ht.symm, c, vertex_rot rf (Or.inr (Or.inr rfl)), vg _ ?_, ?_⟩
      · rw [vf_rot vs rf]; exact (vol_self _ _ _).2.2
      · rw [sg]
        have := (side_vertex (P vs x') (P vs y') (P vs c)).2.2
        rw [← nf_rot vs rf] at this
        rw [this]
        have := mul_pos hNf s0
        linarith
    · rcases hw with hw | ⟨y, x, z, r1, hp, hw⟩
      · left; rw [ht]; exact hw k hk fk
      · rcases hw k hk fk with hw | ⟨e, v, hv, v0, vneg⟩
        · left; rw [ht]; exact hw
        · refine Or.inr ⟨by rw [ht]; exact e, v, hv, vg _ v0, ?_⟩
          rw [sg]
          have hnexit : ¬(x' = y ∧ y' = x) := by rintro ⟨rfl, rfl⟩; linarith
          have : 0 < side (nf vs f) (P vs x') (P vs y') (P vs v) := by
            by_contra hc
            exact h.no_corner hf r1 rf hnexit (lts k hk _ hv) v0 vneg (not_lt.1 hc)
          have := mul_pos this s0
          linarith
end

end Verif.Primitive
